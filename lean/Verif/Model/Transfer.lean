import Mathlib.Algebra.Field.Defs
import Mathlib.Order.Defs.LinearOrder
import Verif.Model.Map
import Verif.Model.Blocks
/-!
# Carrying fields over to the adapted mesh: src/Omega_h_transfer.cpp

A field is a tag whose array exists. Integer values are integers, real values are elements of `K`, in which arithmetic
is exact: rounding is not modelled. The element type `T` of a template function is a `FieldKind`; `get_tag<T>` of a tag
of another type fails its check. A failed check, an access out of range and the use of an array that has not been
written completely are `none`.

Each `transfer_…` function of the file is a loop over the old tags of one dimension that serves the tags satisfying a
condition by computing the values of the new entities and calling `transfer_common`. It is modelled by a `XferRule`:
the condition, and the values of the products. Lengths, sizes, qualities and metrics at midpoints, and the transfer of
densities by intersection, are arguments; `user_xfer` is absent.
-/
namespace OmegaH

/-- `Omega_h_Type` as it is used by tags: src/Omega_h_defines.hpp:8-14. -/
inductive FieldKind where
  | i8 | i32 | i64 | f64
deriving DecidableEq, Repr

/-- One entry of the array of a tag. -/
inductive FieldVal (K : Type) where
  | int (z : Int)
  | real (x : K)
deriving DecidableEq, Repr

/-- The real number, if the entry is one. -/
def FieldVal.real? {K : Type} : FieldVal K → Option K
  | .int _ => none
  | .real x => some x

/-- `Tag<T>`: name, type, number of components, array. src/Omega_h_tag.hpp:12-50. -/
structure MeshField (K : Type) where
  name : String
  kind : FieldKind
  ncomps : Nat
  data : List (FieldVal K)
deriving DecidableEq, Repr

/-- `Omega_h_Transfer`: src/Omega_h_defines.hpp:29-37. -/
inductive XferKind where
  | inherit | linearInterp | metric | density | conserve | momentumVelocity | pointwise
deriving DecidableEq, Repr

/-- `TransferOpts::type_map`, a map from names: src/Omega_h_adapt.hpp:31-33. -/
abbrev XferOpts := String → Option XferKind

/-- What a transfer reads from the old mesh: its dimension, its tags, the vertices of its edges and the graph from edges
to the entities of each dimension, `ask_graph(EDGE, d)`, as offsets and entries. -/
structure FieldMesh (K : Type) where
  dim : Nat
  tags : Nat → List (MeshField K)
  edgeVerts : List Nat
  edgeOffsets : Nat → List Nat
  edgeEnts : Nat → List Nat

/-- The numbering of the new entities of one dimension: how many there are, the old and the new numbers of those that
stay, and the new numbers of the products. -/
structure XferMaps where
  nnew : Nat
  same2old : List Nat
  same2new : List Nat
  prods2new : List Nat

section
variable {K : Type}

/-- `is_transfer_required`: src/Omega_h_transfer.cpp:14-18. -/
def isTransferRequired (opts : XferOpts) (name : String) (k : XferKind) : Bool := decide (opts name = some k)

/-- `tag_iter`: src/Omega_h_mesh.cpp:245-248. -/
def findField (tags : List (MeshField K)) (name : String) : Option (MeshField K) := tags.find? (fun f => decide (f.name = name))

/-- `get_tag<T>(dim, name)`: src/Omega_h_mesh.cpp:186-200, src/Omega_h_tag.cpp:21-24. -/
def getField (tags : List (MeshField K)) (name : String) (kind : FieldKind) : Option (MeshField K) :=
  (findField tags name).bind (fun f => if f.kind = kind then some f else none)

/-- `should_inherit`: src/Omega_h_transfer.cpp:20-34. -/
def shouldInherit (mesh : FieldMesh K) (opts : XferOpts) (f : MeshField K) : Bool :=
  (isTransferRequired opts f.name .inherit || f.name == "class_id" || f.name == "class_dim" || f.name == "momentum_velocity_fixed") &&
  (List.range (mesh.dim + 1)).all (fun i =>
    match findField (mesh.tags i) f.name with
    | none => false
    | some g => decide (g.kind = f.kind) && decide (g.ncomps = f.ncomps))

/-- `should_interpolate`: src/Omega_h_transfer.cpp:36-45. -/
def shouldInterpolate (opts : XferOpts) (dim : Nat) (f : MeshField K) : Bool :=
  (isTransferRequired opts f.name .linearInterp || isTransferRequired opts f.name .momentumVelocity || f.name == "coordinates" || f.name == "warp") &&
  decide (dim = 0) && decide (f.kind = .f64)

/-- `should_fit`: src/Omega_h_transfer.cpp:47-54. -/
def shouldFit (meshDim : Nat) (opts : XferOpts) (dim : Nat) (f : MeshField K) : Bool :=
  isTransferRequired opts f.name .pointwise && decide (dim = meshDim) && decide (f.kind = .f64)

/-- `is_density`: src/Omega_h_transfer.cpp:56-63. -/
def isDensity (meshDim : Nat) (opts : XferOpts) (dim : Nat) (f : MeshField K) : Bool :=
  isTransferRequired opts f.name .density && decide (dim = meshDim) && decide (f.kind = .f64)

/-- `should_conserve`: src/Omega_h_transfer.cpp:65-72. -/
def shouldConserve (meshDim : Nat) (opts : XferOpts) (dim : Nat) (f : MeshField K) : Bool :=
  isTransferRequired opts f.name .conserve && decide (dim = meshDim) && decide (f.kind = .f64)

/-- `symm_ncomps`: src/Omega_h_matrix.hpp:381-383. -/
def symmTagComps (dim : Nat) : Nat := ((dim + 1) * dim) / 2

/-- `is_metric`: src/Omega_h_transfer.cpp:98-107. -/
def isMetric (meshDim : Nat) (opts : XferOpts) (dim : Nat) (f : MeshField K) : Bool :=
  (isTransferRequired opts f.name .metric || f.name == "metric" || f.name == "target_metric") &&
  decide (dim = 0) && decide (f.kind = .f64) && (decide (f.ncomps = symmTagComps meshDim) || decide (f.ncomps = 1))

/-- `is_momentum_velocity`: src/Omega_h_transfer.cpp:109-117. -/
def isMomentumVelocity (meshDim : Nat) (opts : XferOpts) (dim : Nat) (f : MeshField K) : Bool :=
  isTransferRequired opts f.name .momentumVelocity && decide (dim = 0) && decide (f.kind = .f64) && decide (f.ncomps = meshDim)

/-- `should_transfer_no_products`: src/Omega_h_transfer.cpp:128-136. -/
def shouldTransferNoProducts (mesh : FieldMesh K) (opts : XferOpts) (dim : Nat) (f : MeshField K) : Bool :=
  shouldInherit mesh opts f || shouldInterpolate opts dim f || isMetric mesh.dim opts dim f || shouldConserve mesh.dim opts dim f ||
    isDensity mesh.dim opts dim f || isMomentumVelocity mesh.dim opts dim f

/-- `should_transfer_copy`: src/Omega_h_transfer.cpp:138-142. -/
def shouldTransferCopy (mesh : FieldMesh K) (opts : XferOpts) (dim : Nat) (f : MeshField K) : Bool :=
  shouldTransferNoProducts mesh opts dim f || f.name == "global"

/-- `should_transfer_density`: src/Omega_h_transfer.cpp:144-148. -/
def shouldTransferDensity (meshDim : Nat) (opts : XferOpts) (dim : Nat) (f : MeshField K) : Bool :=
  shouldConserve meshDim opts dim f || isDensity meshDim opts dim f

/-- `add_tag(…, true)`: src/Omega_h_mesh.cpp:132-159, for an array that exists. `nents` is the number of entities of the
new mesh. -/
def addField (nents : Nat) (tags : List (MeshField K)) (f : MeshField K) : Option (List (MeshField K)) :=
  let had := (findField tags f.name).isSome
  if !had && (decide (f.name = "") || decide (127 < f.ncomps) || decide (127 ≤ tags.length)) then none
  else if f.data.length ≠ nents * f.ncomps then none
  else some (if had then tags.map (fun g => if g.name = f.name then f else g) else tags ++ [f])

/-- `transfer_common2` and `transfer_common3`: src/Omega_h_transfer.cpp:150-168, for a tag of type `kind`. -/
def transferCommon2 (s : Nat → Sched) (oldTags : List (MeshField K)) (x : XferMaps) (name : String) (kind : FieldKind) (ncomps : Nat)
    (newData : Mem (FieldVal K)) (newTags : List (MeshField K)) : Option (List (MeshField K)) := do
  let old ← getField oldTags name kind
  let sameData ← unmap (s 0) x.same2old old.data ncomps
  let m ← mapInto (s 1) sameData x.same2new newData ncomps
  let data ← m.toArray?
  addField x.nnew newTags ⟨name, kind, ncomps, data⟩

/-- `transfer_common`: src/Omega_h_transfer.cpp:170-180. -/
def transferCommon (s : Nat → Sched) (oldTags : List (MeshField K)) (x : XferMaps) (name : String) (kind : FieldKind) (ncomps : Nat)
    (prodData : List (FieldVal K)) (newTags : List (MeshField K)) : Option (List (MeshField K)) := do
  let m ← mapInto (s 2) prodData x.prods2new (Mem.alloc (x.nnew * ncomps)) ncomps
  transferCommon2 s oldTags x name kind ncomps m newTags

/-- One loop over the old tags: which tags it serves, and the type, number of components and product values that it
passes to `transfer_common` for such a tag. -/
structure XferRule (K : Type) where
  takes : MeshField K → Bool
  prods : MeshField K → Option (FieldKind × Nat × List (FieldVal K))

/-- The loop of a rule over the tags `oldTags` of one dimension. -/
def runRule (s : Nat → Sched) (oldTags : List (MeshField K)) (x : XferMaps) (r : XferRule K) (newTags : List (MeshField K)) :
    Option (List (MeshField K)) :=
  oldTags.foldlM (fun acc f =>
    if r.takes f then (r.prods f).bind (fun p => transferCommon s oldTags x f.name p.1 p.2.1 p.2.2 acc) else some acc) newTags

/-- The loops of several rules one after the other. -/
def runRules (s : Nat → Sched) (oldTags : List (MeshField K)) (x : XferMaps) (rs : List (XferRule K)) (newTags : List (MeshField K)) :
    Option (List (MeshField K)) :=
  rs.foldlM (fun acc r => runRule s oldTags x r acc) newTags

/-- The values of the components of entity `dom`, the inner loops of src/Omega_h_transfer.cpp:235-237 and 257-259. -/
def domRow (data : List (FieldVal K)) (w dom : Nat) : Option (List (FieldVal K)) := (List.range w).mapM (fun c => data[dom * w + c]?)

/-- The entities of the graph next to an edge: `edge_doms2doms[edge_dom]` for the entries of the edge. -/
def edgeDoms (offsets ents : List Nat) (edge : Nat) : Option (List Nat) :=
  (fanMembers offsets edge).bind (fun l => l.mapM (fun i => ents[i]?))

/-- `transfer_inherit_refine<T>`, pairs: src/Omega_h_transfer.cpp:228-241. -/
def inheritPairsKernel (offsets ents : List Nat) (domData : List (FieldVal K)) (w : Nat) (keys2edges keys2prods : List Nat) (key : Nat) :
    Option (List (Nat × FieldVal K)) := do
  let edge ← keys2edges[key]?
  let prod ← keys2prods[key]?
  let doms ← edgeDoms offsets ents edge
  let rows ← doms.mapM (domRow domData w)
  pure (blockWrites (prod * w) (rows.flatMap (fun r => r ++ r)))

/-- `transfer_inherit_refine<T>`, cuts: src/Omega_h_transfer.cpp:250-262. The difference `keys2prods[key + 1] - ndoms`, an
index, must not be negative. -/
def inheritCutsKernel (offsets ents : List Nat) (domData : List (FieldVal K)) (w : Nat) (keys2edges keys2prods : List Nat) (key : Nat) :
    Option (List (Nat × FieldVal K)) := do
  let edge ← keys2edges[key]?
  let doms ← edgeDoms offsets ents edge
  let last ← keys2prods[key + 1]?
  let rows ← doms.mapM (domRow domData w)
  if doms.length ≤ last then pure (blockWrites ((last - doms.length) * w) rows.flatten) else none

/-- `transfer_inherit_refine<T>`: src/Omega_h_transfer.cpp:212-267, the product values. -/
def inheritRefineProds (s : Nat → Sched) (mesh : FieldMesh K) (prodDim : Nat) (keys2edges keys2prods : List Nat) (name : String)
    (kind : FieldKind) : Option (FieldKind × Nat × List (FieldVal K)) := do
  let old ← getField (mesh.tags prodDim) name kind
  let w := old.ncomps
  let nprods ← keys2prods.getLast?
  let m0 : Mem (FieldVal K) := Mem.alloc (nprods * w)
  let m1 ← if 0 < prodDim then do
      let dom ← getField (mesh.tags prodDim) name kind
      parScatter (s 3) keys2edges.length
        (inheritPairsKernel (mesh.edgeOffsets prodDim) (mesh.edgeEnts prodDim) dom.data w keys2edges keys2prods) m0
    else pure m0
  let m2 ← if prodDim < mesh.dim then do
      let dom ← getField (mesh.tags (prodDim + 1)) name kind
      parScatter (s 4) keys2edges.length
        (inheritCutsKernel (mesh.edgeOffsets (prodDim + 1)) (mesh.edgeEnts (prodDim + 1)) dom.data w keys2edges keys2prods) m1
    else pure m1
  let data ← m2.toArray?
  pure (kind, w, data)

/-- `transfer_inherit_refine`: src/Omega_h_transfer.cpp:269-307. -/
def inheritRefineRule (s : Nat → Sched) (mesh : FieldMesh K) (opts : XferOpts) (prodDim : Nat) (keys2edges keys2prods : List Nat) : XferRule K where
  takes f := shouldInherit mesh opts f
  prods f := inheritRefineProds s mesh prodDim keys2edges keys2prods f.name f.kind

/-- `transfer_density_refine`: src/Omega_h_transfer.cpp:309-322. -/
def densityRefineRule (s : Nat → Sched) (mesh : FieldMesh K) (opts : XferOpts) (keys2edges keys2prods : List Nat) : XferRule K where
  takes f := shouldTransferDensity mesh.dim opts mesh.dim f
  prods f := inheritRefineProds s mesh mesh.dim keys2edges keys2prods f.name f.kind

/-- `transfer_pointwise_refine`: src/Omega_h_transfer.cpp:324-335. -/
def pointwiseRefineRule (s : Nat → Sched) (mesh : FieldMesh K) (opts : XferOpts) (keys2edges keys2prods : List Nat) : XferRule K where
  takes f := shouldFit mesh.dim opts mesh.dim f
  prods f := inheritRefineProds s mesh mesh.dim keys2edges keys2prods f.name f.kind

/-- The entries of a tag of type `Real`. -/
def fieldReals (f : MeshField K) : Option (List K) := f.data.mapM FieldVal.real?

/-- `transfer_length`, `transfer_size` and `transfer_quality`: src/Omega_h_transfer.cpp:337-376. `measure` gives the values of
entities of the new mesh: `measure_edges_metric`, `measure_elements_real`, `measure_qualities`. -/
def measureRule (name : String) (measure : List Nat → Option (List K)) (x : XferMaps) : XferRule K where
  takes f := f.name == name && decide (f.kind = .f64) && decide (f.ncomps = 1)
  prods f := (measure x.prods2new).map (fun l => (.f64, f.ncomps, l.map FieldVal.real))

/-- `transfer_face_flux`: src/Omega_h_transfer.cpp:378-389. The array of zeros has one entry per product. -/
def faceFluxRule [Zero K] (mesh : FieldMesh K) (x : XferMaps) : XferRule K where
  takes f := f.name == "magnetic face flux"
  prods f := (getField (mesh.tags 2) f.name .f64).map (fun _ => (.f64, f.ncomps, List.replicate x.prods2new.length (.real 0)))

/-- `transfer_metric`: src/Omega_h_transfer.cpp:198-210. `mid` is `get_mident_metrics` of the keys. -/
def metricRule (mesh : FieldMesh K) (opts : XferOpts) (mid : List K → Option (List K)) : XferRule K where
  takes f := isMetric mesh.dim opts 0 f
  prods f := do
    let old ← getField (mesh.tags 0) f.name .f64
    let reals ← fieldReals old
    let l ← mid reals
    pure (.f64, f.ncomps, l.map FieldVal.real)

end

section
variable {K : Type} [Field K]

/-- `average_field` of chosen entities: src/Omega_h_mesh.cpp:822-844. -/
def averageChosen (s : Sched) (ncomps degree : Nat) (ev2v a2e : List Nat) (v2x : List K) : Option (List K) :=
  if ncomps = 0 then none else
  if v2x.length % ncomps ≠ 0 then none else
  (parScatter s a2e.length (fun a => (a2e[a]?).bind (fun e => ((List.range ncomps).mapM (fun j =>
      ((List.range degree).foldlM (fun comp k =>
          (ev2v[e * degree + k]?).bind (fun v => (v2x[v * ncomps + j]?).map (fun x => comp + x))) (0 : K)).map
        (fun comp => comp / (degree : K)))).map (fun l => blockWrites (a * ncomps) l)))
    (Mem.alloc (a2e.length * ncomps))).bind Mem.toArray?

/-- `transfer_linear_interp`: src/Omega_h_transfer.cpp:182-196. -/
def interpRule (s : Nat → Sched) (mesh : FieldMesh K) (opts : XferOpts) (keys2edges : List Nat) : XferRule K where
  takes f := shouldInterpolate opts 0 f
  prods f := do
    let old ← getField (mesh.tags 0) f.name .f64
    let reals ← fieldReals old
    let l ← averageChosen (s 5) f.ncomps 2 mesh.edgeVerts keys2edges reals
    pure (.f64, f.ncomps, l.map FieldVal.real)

/-- What the transfers compute from the shapes of entities. `conserve` are the functions of
src/Omega_h_conserve.cpp that refinement, coarsening and swapping call. -/
structure XferShapes (K : Type) where
  midMetric : List K → Option (List K)
  length : List Nat → Option (List K)
  size : List Nat → Option (List K)
  quality : List Nat → Option (List K)
  conserve : List (MeshField K) → Option (List (MeshField K))

/-- `transfer_refine`: src/Omega_h_transfer.cpp:391-428. `newTags` are the tags that the new mesh has on dimension `prodDim`. On
dimension 0 `keys2midverts` is `prods2new_ents` (src/Omega_h_refine.cpp:71-73); it is not used on others. -/
def transferRefine (s : Nat → Sched) (mesh : FieldMesh K) (opts : XferOpts) (g : XferShapes K) (prodDim : Nat)
    (keys2edges keys2prods : List Nat) (x : XferMaps) (newTags : List (MeshField K)) : Option (List (MeshField K)) := do
  let old := mesh.tags prodDim
  let t ← runRule s old x (inheritRefineRule s mesh opts prodDim keys2edges keys2prods) newTags
  let t ← if prodDim = 0 then runRules s old x [interpRule s mesh opts keys2edges, metricRule mesh opts g.midMetric] t else pure t
  let t ← if prodDim = 1 then runRule s old x (measureRule "length" g.length x) t
    else if prodDim = 2 then runRule s old x (faceFluxRule mesh x) t
    else pure t
  if prodDim = mesh.dim then do
    let t ← runRules s old x [measureRule "size" g.size x, measureRule "quality" g.quality x, densityRefineRule s mesh opts keys2edges keys2prods] t
    let t ← g.conserve t
    runRule s old x (pointwiseRefineRule s mesh opts keys2edges keys2prods) t
  else pure t

end

section
variable {K : Type}

/-- `transfer_inherit_coarsen`: src/Omega_h_transfer.cpp:430-474. `doms` is `keys2doms.ab2b`. -/
def inheritCoarsenRule (s : Nat → Sched) (mesh : FieldMesh K) (opts : XferOpts) (doms : List Nat) : XferRule K where
  takes f := shouldInherit mesh opts f
  prods f := (unmap (s 3) doms f.data f.ncomps).map (fun l => (f.kind, f.ncomps, l))

/-- `transfer_no_products`: src/Omega_h_transfer.cpp:476-513. It passes on its own empty `prods2new_ents`. -/
def noProductsRule (mesh : FieldMesh K) (opts : XferOpts) (prodDim : Nat) : XferRule K where
  takes f := shouldTransferNoProducts mesh opts prodDim f
  prods f := some (f.kind, f.ncomps, [])

/-- `transfer_inherit_swap`: src/Omega_h_transfer.cpp:655-699. Type and number of components are passed on from the tag of the
edges. -/
def inheritSwapRule (s : Nat → Sched) (mesh : FieldMesh K) (opts : XferOpts) (keys2edges keys2prods : List Nat) : XferRule K where
  takes f := shouldInherit mesh opts f
  prods f := do
    let old ← getField (mesh.tags 1) f.name f.kind
    let keyData ← unmap (s 3) keys2edges old.data old.ncomps
    let prodData ← expand (s 4) keyData keys2prods old.ncomps
    pure (f.kind, old.ncomps, prodData)

/-- The search for the old element with the least `distance` among those next to the key: src/Omega_h_transfer.cpp:540-552.
`dist` is minus the least barycentric coordinate of the new centroid. `none` is -1. -/
def bestElem [LinearOrder K] (dist : Nat → K) (elems : List Nat) : Option (Nat × K) :=
  elems.foldl (fun best e => match best with
    | none => some (e, dist e)
    | some b => if dist e < b.2 then some (e, dist e) else best) none

/-- `transfer_pointwise_tmpl`: src/Omega_h_transfer.cpp:515-563, the product values. `kdOffsets` and `kdElems` are
`ask_up(key_dim, dim)`, `dist n o` the distance of the centroid of new element `n` from old element `o`. A key without
elements would read at a negative index. -/
def pointwiseProds [LinearOrder K] (s : Sched) (dist : Nat → Nat → K) (kdOffsets kdElems keys2kds keys2prods prods2new : List Nat)
    (f : MeshField K) : Option (List (FieldVal K)) := do
  let nprods ← keys2prods.getLast?
  (parScatter s keys2kds.length (fun key => do
    let kd ← keys2kds[key]?
    let prods ← fanMembers keys2prods key
    let ws ← prods.mapM (fun prod => do
      let newElem ← prods2new[prod]?
      let elems ← edgeDoms kdOffsets kdElems kd
      let best ← bestElem (dist newElem) elems
      let row ← domRow f.data f.ncomps best.1
      pure (blockWrites (prod * f.ncomps) row))
    pure ws.flatten) (Mem.alloc (nprods * f.ncomps))).bind Mem.toArray?

/-- `transfer_pointwise`: src/Omega_h_transfer.cpp:565-583. Only dimensions 2 and 3 are served. -/
def pointwiseRule [LinearOrder K] (s : Nat → Sched) (mesh : FieldMesh K) (opts : XferOpts) (dist : Nat → Nat → K)
    (kdOffsets kdElems keys2kds keys2prods : List Nat) (x : XferMaps) : XferRule K where
  takes f := shouldFit mesh.dim opts mesh.dim f && (decide (mesh.dim = 3) || decide (mesh.dim = 2))
  prods f := (pointwiseProds (s 3) dist kdOffsets kdElems keys2kds keys2prods x.prods2new f).map (fun l => (.f64, f.ncomps, l))

/-- `transfer_coarsen`: src/Omega_h_transfer.cpp:585-619. `domOffsets` and `doms` are `keys2doms`, `vertOffsets` and `vertElems`
are `ask_up(VERT, dim)`. -/
def transferCoarsen [LinearOrder K] [Zero K] (s : Nat → Sched) (mesh : FieldMesh K) (opts : XferOpts) (g : XferShapes K) (dist : Nat → Nat → K)
    (prodDim : Nat) (vertOffsets vertElems keys2verts domOffsets doms : List Nat) (x : XferMaps) (newTags : List (MeshField K)) :
    Option (List (MeshField K)) := do
  let old := mesh.tags prodDim
  let t ← if prodDim = 0 then runRule s old { x with prods2new := [] } (noProductsRule mesh opts prodDim) newTags
    else runRule s old x (inheritCoarsenRule s mesh opts doms) newTags
  let t ← if prodDim = 1 then runRule s old x (measureRule "length" g.length x) t
    else if prodDim = 2 then runRule s old x (faceFluxRule mesh x) t
    else pure t
  if prodDim = mesh.dim then do
    let t ← runRules s old x [measureRule "size" g.size x, measureRule "quality" g.quality x,
      pointwiseRule s mesh opts dist vertOffsets vertElems keys2verts domOffsets x] t
    g.conserve t
  else pure t

/-- `transfer_swap`: src/Omega_h_transfer.cpp:701-730. `edgeOffsets` and `edgeElems` are `ask_up(EDGE, dim)`. -/
def transferSwap [LinearOrder K] [Zero K] (s : Nat → Sched) (mesh : FieldMesh K) (opts : XferOpts) (g : XferShapes K) (dist : Nat → Nat → K)
    (prodDim : Nat) (edgeOffsets edgeElems keys2edges keys2prods : List Nat) (x : XferMaps) (newTags : List (MeshField K)) :
    Option (List (MeshField K)) := do
  if prodDim = 0 then none else pure ()
  let old := mesh.tags prodDim
  let t ← runRule s old x (inheritSwapRule s mesh opts keys2edges keys2prods) newTags
  let t ← if prodDim = 1 then runRule s old x (measureRule "length" g.length x) t
    else if prodDim = 2 then runRule s old x (faceFluxRule mesh x) t
    else pure t
  if prodDim = mesh.dim then do
    let t ← runRules s old x [measureRule "size" g.size x, measureRule "quality" g.quality x,
      pointwiseRule s mesh opts dist edgeOffsets edgeElems keys2edges keys2prods x] t
    g.conserve t
  else pure t

/-- `transfer_copy`: src/Omega_h_transfer.cpp:621-653. -/
def transferCopy (mesh : FieldMesh K) (opts : XferOpts) (prodDim nents : Nat) (newTags : List (MeshField K)) : Option (List (MeshField K)) :=
  (mesh.tags prodDim).foldlM (fun acc f => if shouldTransferCopy mesh opts prodDim f then addField nents acc f else some acc) newTags

end
end OmegaH
