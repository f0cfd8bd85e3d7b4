import Verif.Model.Tags
/-!
# Named data on a mesh as a store
-/
namespace OmegaH.Spec
variable {V : Type}

/-- The data stored under a name for the entities of a dimension. -/
def stored (m : TaggedMesh V) (d : Nat) (n : String) : Option (NamedTag V) := (m.tags d).find? (fun t => t.name == n)

/-- A mesh that was built: its dimension is 1, 2 or 3; names are not empty and, in each dimension, different; arrays that exist fit
the entities; there are at most 127 tags; entities that do not exist have none. -/
structure GoodTags (m : TaggedMesh V) : Prop where
  dim : 1 ≤ m.dim ∧ m.dim ≤ 3
  names : ∀ d, ((m.tags d).map (fun t => t.name)).Nodup
  named : ∀ d, ∀ t ∈ m.tags d, t.name ≠ ""
  fits : ∀ d, ∀ t ∈ m.tags d, arrayFits (m.nents d * t.ncomps) t.arr
  few : ∀ d, (m.tags d).length ≤ 127
  there : ∀ d, m.tags d ≠ [] → (d : Int) ≤ m.dim ∧ 0 ≤ m.nents d

/-- The entities of dimension `d` exist. -/
def EntsExist (m : TaggedMesh V) (d : Nat) : Prop := (d : Int) ≤ m.dim ∧ 0 ≤ m.nents d

/-- What is derived from the data of vertices called `name`: lengths and qualities from coordinates and metric, sizes from
coordinates. -/
def DerivedFrom (dim : Int) (name : String) (d : Nat) (n : String) : Prop :=
  ((name = "coordinates" ∨ name = "metric") ∧ (d = 1 ∧ n = "length" ∨ (d : Int) = dim ∧ n = "quality")) ∨
  (name = "coordinates" ∧ (d : Int) = dim ∧ n = "size")

/-- Putting `t` there, and dropping what is derived from it if this is the user's call. -/
def PutThere (dim : Int) (d : Nat) (t : NamedTag V) (internal : Bool) (before after : Nat → String → Option (NamedTag V)) : Prop :=
  ∀ d' n', (d' = d ∧ n' = t.name → after d' n' = some t) ∧
    (¬ (d' = d ∧ n' = t.name) → internal = false ∧ d = 0 ∧ DerivedFrom dim t.name d' n' → after d' n' = none) ∧
    (¬ (d' = d ∧ n' = t.name) → ¬ (internal = false ∧ d = 0 ∧ DerivedFrom dim t.name d' n') → after d' n' = before d' n')

/-- Nothing but the entry goes away. -/
def TakenAway (d : Nat) (n : String) (before after : Nat → String → Option (NamedTag V)) : Prop :=
  ∀ d' n', (d' = d ∧ n' = n → after d' n' = none) ∧ (¬ (d' = d ∧ n' = n) → after d' n' = before d' n')

/-- The call writes, removes or drops the data called `n` of dimension `d`. Asking for lengths, qualities and sizes only adds what is
not there. -/
def TagTouches (dim : Int) (d : Nat) (n : String) : TagCall V → Prop
  | .add d' n' _ _ _ internal => (d' = d ∧ n' = n) ∨ (internal = false ∧ d' = 0 ∧ DerivedFrom dim n' d n)
  | .set d' n' _ _ internal => (d' = d ∧ n' = n) ∨ (internal = false ∧ d' = 0 ∧ DerivedFrom dim n' d n)
  | .remove d' n' => d' = d ∧ n' = n
  | _ => False

/-- The places of derived data. -/
def DerivedPlace (dim : Int) (d : Nat) (n : String) : Prop := d = 1 ∧ n = "length" ∨ (d : Int) = dim ∧ (n = "quality" ∨ n = "size")

/-- The data of vertices called `n` are the numbers `a`. -/
def VertData (m : TaggedMesh V) (n : String) (a : List V) : Prop := ∃ t, stored m 0 n = some t ∧ t.typ = .f64 ∧ t.arr = some a

/-- The lengths of the edges by the coordinates and metric of now. -/
def LengthsNow (M : TagMeasures V) (m : TaggedMesh V) (l : List V) : Prop :=
  (m.nents 1 = 0 → l = []) ∧
  (m.nents 1 ≠ 0 → ∃ coords metric, VertData m "coordinates" coords ∧ VertData m "metric" metric ∧ M.lengths coords metric = some l)

/-- The qualities of the elements by the coordinates and metric of now. In 1D the coordinates do not matter. -/
def QualitiesNow (M : TagMeasures V) (m : TaggedMesh V) (l : List V) : Prop :=
  (m.nents m.dim.toNat = 0 → l = []) ∧
  (m.nents m.dim.toNat ≠ 0 → ∃ coords metric, (if m.dim = 1 then coords = [] else VertData m "coordinates" coords) ∧
    VertData m "metric" metric ∧ M.qualities coords metric = some l)

/-- The sizes of the elements by the coordinates of now. -/
def SizesNow (M : TagMeasures V) (m : TaggedMesh V) (l : List V) : Prop :=
  (m.nents m.dim.toNat = 0 → l = []) ∧
  (m.nents m.dim.toNat ≠ 0 → ∃ coords, VertData m "coordinates" coords ∧ M.sizes coords = some l)

/-- The call leaves derived data to the mesh: it does not write them itself, and it changes coordinates and metric only by giving
new ones without the argument `internal`. -/
def Polite (dim : Int) : TagCall V → Prop
  | .add d n _ _ _ internal => (d = 0 → n = "coordinates" ∨ n = "metric" → internal = false) ∧ ¬ (d = 1 ∧ n = "length") ∧
      ¬ (d = dim ∧ (n = "quality" ∨ n = "size"))
  | .set d n _ _ internal => (d = 0 → n = "coordinates" ∨ n = "metric" → internal = false) ∧ ¬ (d = 1 ∧ n = "length") ∧
      ¬ (d = dim ∧ (n = "quality" ∨ n = "size"))
  | .remove d n => ¬ (d = 0 ∧ (n = "coordinates" ∨ n = "metric"))
  | _ => True

end OmegaH.Spec
