import Verif.Model.ArrayOps
import Verif.Model.Adj
import Verif.Model.Align
import Verif.Model.Element
import Verif.Model.Blocks
/-!
# Topology of edge splits: src/Omega_h_refine_topology.cpp

The vertex, upward and code arrays that the code asks from the mesh are arguments. A loop that stores
the entities of one key one after the other (`++pair`, `++cut`, `++prod`) is written as one block of
consecutive writes.
-/
namespace OmegaH

/-- An entry of an `LO` array used as an index: negative values are out of range. -/
def natAt (a : List Int) (i : Nat) : Option Nat :=
  (a[i]?).bind (fun x => if 0 ≤ x then some x.toNat else none)

/-- Vertex `ddv` of entity `dom`, in the new numbering. A template value -1 is out of range.
src/Omega_h_refine_topology.cpp:90-92. -/
def newDomVert (dv2v old2new : List Nat) (dim dom : Nat) (ddv : Int) : Option Nat :=
  if 0 ≤ ddv then (dv2v[dom * (dim + 1) + ddv.toNat]?).bind (fun ov => old2new[ov]?) else none

/-- The pair entity of endpoint `eev`: src/Omega_h_refine_topology.cpp:80-97; `flip_new_elem`:
src/Omega_h_refine_topology.hpp:55-58. -/
def pairVerts (dv2v old2new : List Nat) (dim dom : Nat) (code : Int) (mid eev : Nat) :
    Option (List Nat) := do
  let dde := codeWhichDown code
  let rot := codeRotation code
  let ddv := simplexDownTemplate dim 1 dde ((eev ^^^ rot.toNat : Nat) : Int)
  let dds := simplexOppositeTemplate dim 0 ddv
  let vs ← (List.range dim).mapM (fun (dsv : Nat) =>
    newDomVert dv2v old2new dim dom (simplexDownTemplate dim ((dim : Int) - 1) dds (dsv : Int)))
  if dim = 3 then swapAt (vs ++ [mid]) 1 2 else pure (vs ++ [mid])

/-- The cut entity: src/Omega_h_refine_topology.cpp:131-146. -/
def cutVerts (dv2v old2new : List Nat) (dim dom : Nat) (code : Int) (mid : Nat) :
    Option (List Nat) := do
  let dde := codeWhichDown code
  let ddt := simplexOppositeTemplate dim 1 dde
  let vs ← (List.range (dim - 1)).mapM (fun (dtv : Nat) =>
    newDomVert dv2v old2new dim dom (simplexDownTemplate dim ((dim : Int) - 2) ddt (dtv : Int)))
  pure (vs ++ [mid])

/-- `refine_edges_to_pairs`: src/Omega_h_refine_topology.cpp:13-33. -/
def refineEdgesToPairs (s : Sched) (ev2v keys2edges keys2mids old2new : List Nat) :
    Option (List Int × List Nat) := do
  let pairs ← (parScatter s keys2edges.length (fun key => do
    let edge ← keys2edges[key]?
    let mid ← keys2mids[key]?
    let a ← ev2v[edge * 2 + 0]?
    let na ← old2new[a]?
    let b ← ev2v[edge * 2 + 1]?
    let nb ← old2new[b]?
    pure [(key * 4 + 0, na), (key * 4 + 1, mid), (key * 4 + 2, mid), (key * 4 + 3, nb)])
    (Mem.alloc (keys2edges.length * 2 * 2))).bind Mem.toArray?
  pure ((List.range (keys2edges.length + 1)).map (fun i : Nat => 0 + (i : Int) * 2), pairs)

/-- Offsets of the domains of the keys: src/Omega_h_refine_topology.cpp:65-67 and 113-115. -/
def keyDomains (s1 s2 : Sched) (e2ed keys2edges : List Nat) : Option (List Int) := do
  let degrees ← getDegrees s1 e2ed
  let keyDegrees ← unmap s2 keys2edges degrees 1
  pure (offsetScan keyDegrees)

/-- `refine_domains_to_pairs` for `dim` 2 or 3: src/Omega_h_refine_topology.cpp:49-103. -/
def refineDomainsToPairs (s1 s2 s3 s4 : Sched) (dim : Nat) (dv2v e2ed ed2d : List Nat)
    (codes : List Int) (keys2edges keys2mids old2new : List Nat) : Option (List Int × List Nat) := do
  let keys2keyDoms ← keyDomains s1 s2 e2ed keys2edges
  let ndoms ← keys2keyDoms.getLast?
  let keys2pairs ← multiplyEachBy s3 keys2keyDoms 2
  let pairs ← (parScatter s4 keys2edges.length (fun key => do
    let edge ← keys2edges[key]?
    let mid ← keys2mids[key]?
    let first ← natAt keys2pairs key
    let eds ← fanMembers e2ed edge
    let rows ← eds.mapM (fun ed => do
      let dom ← ed2d[ed]?
      let code ← codes[ed]?
      let r0 ← pairVerts dv2v old2new dim dom code mid 0
      let r1 ← pairVerts dv2v old2new dim dom code mid 1
      pure (r0 ++ r1))
    pure (blockWrites (first * (dim + 1)) rows.flatten))
    (Mem.alloc (ndoms.toNat * 2 * (dim + 1)))).bind Mem.toArray?
  pure (keys2pairs, pairs)

/-- `refine_domains_to_cuts`: src/Omega_h_refine_topology.cpp:105-153. -/
def refineDomainsToCuts (s1 s2 s3 : Sched) (dim : Nat) (dv2v e2ed ed2d : List Nat)
    (codes : List Int) (keys2edges keys2mids old2new : List Nat) : Option (List Int × List Nat) := do
  let keys2cuts ← keyDomains s1 s2 e2ed keys2edges
  let ndoms ← keys2cuts.getLast?
  let cuts ← (parScatter s3 keys2edges.length (fun key => do
    let edge ← keys2edges[key]?
    let mid ← keys2mids[key]?
    let first ← natAt keys2cuts key
    let eds ← fanMembers e2ed edge
    let rows ← eds.mapM (fun ed => do
      let dom ← ed2d[ed]?
      let code ← codes[ed]?
      cutVerts dv2v old2new dim dom code mid)
    pure (blockWrites (first * dim) rows.flatten))
    (Mem.alloc (ndoms.toNat * dim))).bind Mem.toArray?
  pure (keys2cuts, cuts)

/-- The rows `first … last-1` of an array with rows of `w` entries, one after the other: the inner
loops of src/Omega_h_refine_topology.cpp:172-185. -/
def rowsBetween (data : List Nat) (w first last : Nat) : Option (List Nat) :=
  ((List.range' first (last - first)).mapM (fun i => rowAt data w i)).map List.flatten

/-- `get_degrees` applied to offsets held as `LO`s. -/
def getDegreesLO (s : Sched) (offsets : List Int) : Option (List Int) :=
  (offsets.mapM (fun x => if 0 ≤ x then some x.toNat else none)).bind (getDegrees s)

/-- `combine_pairs_and_cuts`: src/Omega_h_refine_topology.cpp:155-189, with `w = nppv`. -/
def combinePairsAndCuts (s1 s2 s3 s4 : Sched) (w : Nat) (keys2cuts keys2pairs : List Int)
    (cuts pairs : List Nat) : Option (List Int × List Nat) := do
  if keys2cuts.length = keys2pairs.length ∧ keys2cuts ≠ [] then pure () else none
  let keys2ncuts ← getDegreesLO s1 keys2cuts
  let keys2npairs ← getDegreesLO s2 keys2pairs
  let keys2nprods ← addEach s3 keys2ncuts keys2npairs
  let keys2prods := offsetScan keys2nprods
  let nprods ← keys2prods.getLast?
  let prods ← (parScatter s4 (keys2cuts.length - 1) (fun key => do
    let prod ← natAt keys2prods key
    let p0 ← natAt keys2pairs key
    let p1 ← natAt keys2pairs (key + 1)
    let c0 ← natAt keys2cuts key
    let c1 ← natAt keys2cuts (key + 1)
    let ps ← rowsBetween pairs w p0 p1
    let cs ← rowsBetween cuts w c0 c1
    pure (blockWrites (prod * w) (ps ++ cs)))
    (Mem.alloc (nprods.toNat * w))).bind Mem.toArray?
  pure (keys2prods, prods)

/-- What `refine_products` asks from the mesh: the vertices of the entities of each dimension, and the
upward adjacency from edges to them with its codes. -/
structure RefineMesh where
  vertsOf : Nat → List Nat
  upOffsets : Nat → List Nat
  upEnts : Nat → List Nat
  upCodes : Nat → List Int

/-- `refine_domains_to_pairs`: src/Omega_h_refine_topology.cpp:49-63 sends dimension 1 to
`refine_edges_to_pairs`. -/
def refineToPairs (s : Nat → Sched) (mesh : RefineMesh) (dim : Nat)
    (keys2edges keys2mids old2new : List Nat) : Option (List Int × List Nat) :=
  if dim = 1 then refineEdgesToPairs (s 0) (mesh.vertsOf 1) keys2edges keys2mids old2new
  else refineDomainsToPairs (s 0) (s 1) (s 2) (s 3) dim (mesh.vertsOf dim) (mesh.upOffsets dim)
    (mesh.upEnts dim) (mesh.upCodes dim) keys2edges keys2mids old2new

/-- `refine_products`: src/Omega_h_refine_topology.cpp:187-205. -/
def refineProducts (s : Nat → Sched) (mesh : RefineMesh) (meshDim entDim : Nat)
    (keys2edges keys2mids old2new : List Nat) : Option (List Int × List Nat) := do
  let pairs ← refineToPairs s mesh entDim keys2edges keys2mids old2new
  if entDim = meshDim then pure pairs
  else
    let cuts ← refineDomainsToCuts (s 4) (s 5) (s 6) (entDim + 1) (mesh.vertsOf (entDim + 1))
      (mesh.upOffsets (entDim + 1)) (mesh.upEnts (entDim + 1)) (mesh.upCodes (entDim + 1))
      keys2edges keys2mids old2new
    combinePairsAndCuts (s 7) (s 8) (s 9) (s 10) (entDim + 1) cuts.1 pairs.1 cuts.2 pairs.2

end OmegaH
