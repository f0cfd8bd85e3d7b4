import Verif.Model.Transfer
import Verif.Spec.Map
/-!
# What it means to carry a field over to the adapted mesh
-/
namespace OmegaH.Spec
open OmegaH

variable {K : Type}

/-- The tags of one dimension with `n` entities: names are there and differ, arrays have the right size, and only tags
of type `Real` hold real numbers. -/
structure FieldsOk (n : Nat) (tags : List (MeshField K)) : Prop where
  names : (tags.map MeshField.name).Nodup
  named : ∀ f ∈ tags, f.name ≠ ""
  comps : ∀ f ∈ tags, f.ncomps ≤ 127
  size : ∀ f ∈ tags, f.data.length = n * f.ncomps
  reals : ∀ f ∈ tags, f.kind = .f64 → ∀ v ∈ f.data, ∃ x, v = .real x

/-- The numbering of new entities: those that stay were old entities, and what stays and what is produced get the
numbers below `nnew`, each once. -/
structure NumberingOk (nold : Nat) (x : XferMaps) : Prop where
  len : x.same2old.length = x.same2new.length
  old : InRange x.same2old nold
  all : (x.same2new ++ x.prods2new).Perm (List.range x.nnew)

/-- The new field `g` is the old field `f` carried over: it has the same name, type and number of components, one value
per new entity and component, every entity that stays keeps its values, and product `p` has the values `val p`. -/
structure FieldCarried (x : XferMaps) (f g : MeshField K) (val : Nat → Nat → Option (FieldVal K)) : Prop where
  name : g.name = f.name
  kind : g.kind = f.kind
  ncomps : g.ncomps = f.ncomps
  size : g.data.length = x.nnew * f.ncomps
  same : ∀ i o n j : Nat, x.same2old[i]? = some o → x.same2new[i]? = some n → j < f.ncomps →
    entry g.data f.ncomps n j = entry f.data f.ncomps o j
  prods : ∀ p n j : Nat, x.prods2new[p]? = some n → j < f.ncomps → entry g.data f.ncomps n j = val p j

/-- A field that is inherited: the user asked for it, or it is one of three names that always are; and every dimension
has a field with the same name, type and number of components. -/
def Inherited (mesh : FieldMesh K) (opts : XferOpts) (f : MeshField K) : Prop :=
  (opts f.name = some .inherit ∨ f.name = "class_id" ∨ f.name = "class_dim" ∨ f.name = "momentum_velocity_fixed") ∧
  ∀ d, d ≤ mesh.dim → ∃ g ∈ mesh.tags d, g.name = f.name ∧ g.kind = f.kind ∧ g.ncomps = f.ncomps

/-- A field of the vertices that is interpolated. -/
def Interpolated (opts : XferOpts) (f : MeshField K) : Prop :=
  (opts f.name = some .linearInterp ∨ opts f.name = some .momentumVelocity ∨ f.name = "coordinates" ∨ f.name = "warp") ∧ f.kind = .f64

/-- A field of the vertices that is a metric: a symmetric tensor of the dimension of the mesh, or a scalar. -/
def MetricField (mesh : FieldMesh K) (opts : XferOpts) (f : MeshField K) : Prop :=
  (opts f.name = some .metric ∨ f.name = "metric" ∨ f.name = "target_metric") ∧ f.kind = .f64 ∧
    (f.ncomps = mesh.dim * (mesh.dim + 1) / 2 ∨ f.ncomps = 1)

/-- A scalar field that is measured again on new entities. -/
def Measured (name : String) (f : MeshField K) : Prop := f.name = name ∧ f.kind = .f64 ∧ f.ncomps = 1

/-- A density, conserved or not. -/
def DensityField (opts : XferOpts) (f : MeshField K) : Prop :=
  (opts f.name = some .conserve ∨ opts f.name = some .density) ∧ f.kind = .f64

/-- A field of the elements that is transferred pointwise. -/
def PointwiseField (opts : XferOpts) (f : MeshField K) : Prop := opts f.name = some .pointwise ∧ f.kind = .f64

/-- The old entities in which the products of dimension `d` of a split edge lie, in the order of the products, each
with its dimension: twice each entity of dimension `d` next to the edge, and once each of dimension `d + 1`, which the
product cuts. `R d` are the entities of dimension `d` next to the edge, which is next to itself. -/
def splitSources (D d : Nat) (R : Nat → List Nat) : List (Nat × Nat) :=
  (if 0 < d then (R d).flatMap (fun e => [(d, e), (d, e)]) else []) ++ (if d < D then (R (d + 1)).map (fun e => (d + 1, e)) else [])

/-- Component `j` of the field called `name` on entity `src.2` of dimension `src.1`. -/
def fieldAt (mesh : FieldMesh K) (name : String) (src : Nat × Nat) (j : Nat) : Option (FieldVal K) :=
  ((mesh.tags src.1).find? (fun g => decide (g.name = name))).bind (fun g => entry g.data g.ncomps src.2 j)

/-- What a refinement starts from, on dimension `d`: the graphs next to the split edges list the entities `R`, and the
products of the split edges are numbered one edge after the other. `nents` are the numbers of old entities. -/
structure SplitInput (mesh : FieldMesh K) (nents : Nat → Nat) (d : Nat) (keys2edges keys2prods : List Nat) (x : XferMaps)
    (R : Nat → Nat → List Nat) : Prop where
  fields : ∀ d', d' ≤ mesh.dim → FieldsOk (nents d') (mesh.tags d')
  numbering : NumberingOk (nents d) x
  ends : ∀ e ∈ keys2edges, ∃ a b, mesh.edgeVerts[e * 2]? = some a ∧ mesh.edgeVerts[e * 2 + 1]? = some b ∧ a < nents 0 ∧ b < nents 0
  itself : ∀ e ∈ keys2edges, R e 1 = [e]
  near : ∀ d' e, (d' = d ∧ 0 < d ∨ d' = d + 1) → d' ≤ mesh.dim → e ∈ keys2edges →
    (∃ lo hi, (mesh.edgeOffsets d')[e]? = some lo ∧ (mesh.edgeOffsets d')[e + 1]? = some hi ∧ lo ≤ hi ∧ hi ≤ (mesh.edgeEnts d').length ∧
      R e d' = ((mesh.edgeEnts d').drop lo).take (hi - lo)) ∧ ∀ a ∈ R e d', a < nents d'
  offsets : keys2prods.length = keys2edges.length + 1 ∧ ∀ k, k ≤ keys2edges.length →
    keys2prods[k]? = some ((keys2edges.take k).flatMap (fun e => splitSources mesh.dim d (R e))).length
  count : x.prods2new.length = (keys2edges.flatMap (fun e => splitSources mesh.dim d (R e))).length

/-- The tags that the new mesh has: no two have the same name, and the names are among `allowed`. -/
structure NewTags (allowed : List String) (t : List (MeshField K)) : Prop where
  nodup : (t.map MeshField.name).Nodup
  sub : ∀ n ∈ t.map MeshField.name, n ∈ allowed

/-- A measure of new entities: each of the `n` entities has one value. -/
def MeasureOk (n : Nat) (m : List Nat → Option (List K)) (value : Nat → K) : Prop := ∀ l, InRange l n → m l = some (l.map value)

/-- A step that changes at most the fields called `changed`. -/
def ChangesOnly (changed allowed : List String) (c : List (MeshField K) → Option (List (MeshField K))) : Prop :=
  ∀ t, NewTags allowed t → ∃ t', c t = some t' ∧ NewTags allowed t' ∧
    ∀ n, n ∉ changed → t'.find? (fun f => decide (f.name = n)) = t.find? (fun f => decide (f.name = n))

/-- The field called `f.name` of the new mesh is `f` carried over, with values `val` on products. -/
def CarriedTo (t : List (MeshField K)) (x : XferMaps) (f : MeshField K) (val : Nat → Nat → Option (FieldVal K)) : Prop :=
  ∃ g ∈ t, FieldCarried x f g val

/-- The field called `name` of the new mesh is what it was before. -/
def Untouched (t t' : List (MeshField K)) (name : String) : Prop :=
  t'.find? (fun f => decide (f.name = name)) = t.find? (fun f => decide (f.name = name))

/-- The average over the ends of an edge. -/
def endsAverage [Field K] (edgeVerts : List Nat) (f : MeshField K) (e j : Nat) : Option (FieldVal K) := do
  let a ← edgeVerts[e * 2]?
  let b ← edgeVerts[e * 2 + 1]?
  let u ← (entry f.data f.ncomps a j).bind FieldVal.real?
  let v ← (entry f.data f.ncomps b j).bind FieldVal.real?
  some (.real ((u + v) / 2))

/-- A field for whose products a value is computed anew on entities of dimension `d`: lengths of edges, sizes and
qualities of elements, and fluxes of faces. -/
def Remade (D d : Nat) (f : MeshField K) : Prop :=
  (d = 1 ∧ Measured "length" f) ∨ (d = 2 ∧ f.name = "magnetic face flux") ∨ (d = D ∧ (Measured "size" f ∨ Measured "quality" f))

/-- The fluxes of faces are scalars. -/
def FluxOk (mesh : FieldMesh K) : Prop := ∀ f ∈ mesh.tags 2, f.name = "magnetic face flux" → f.kind = .f64 ∧ f.ncomps = 1

/-- Where pointwise transfer looks: the products of the keys are numbered one key after the other, and `near` are the
elements next to the vertex or edge that is the key, at least one. -/
structure PickInput (nelems : Nat) (offsets elems keys keys2prods : List Nat) (x : XferMaps) (near : Nat → List Nat) : Prop where
  fan : IsFan keys2prods
  len : keys2prods.length = keys.length + 1
  last : keys2prods.getLast? = some x.prods2new.length
  near : ∀ kd ∈ keys, (∃ lo hi, offsets[kd]? = some lo ∧ offsets[kd + 1]? = some hi ∧ lo ≤ hi ∧ hi ≤ elems.length ∧
    near kd = (elems.drop lo).take (hi - lo)) ∧ near kd ≠ [] ∧ ∀ e ∈ near kd, e < nelems

/-- Each product has the values of an old element next to its key than which no other such element is nearer. -/
def NearestValues [LE K] (dist : Nat → Nat → K) (keys keys2prods : List Nat) (x : XferMaps) (near : Nat → List Nat) (f : MeshField K)
    (val : Nat → Nat → Option (FieldVal K)) : Prop :=
  ∀ k kd p n : Nat, keys[k]? = some kd → InFan keys2prods k p → x.prods2new[p]? = some n →
    ∃ e ∈ near kd, (∀ e' ∈ near kd, dist n e ≤ dist n e') ∧ ∀ j, j < f.ncomps → val p j = entry f.data f.ncomps e j

end OmegaH.Spec
