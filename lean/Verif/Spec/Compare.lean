import Verif.Model.Compare
import Verif.Spec.Dist
import Verif.Spec.Map
/-!
# What comparing two meshes means

A mesh as such, without ranks and local numbers: entities are known by their global numbers.
-/
namespace OmegaH.Spec

/-- The values of a tag by global number and component. -/
inductive Values (K : Type) where
  | ints (bits : Nat) (v : Nat → Nat → Int)
  | reals (v : Nat → Nat → K)

/-- A tag. -/
structure PlainTag (K : Type) where
  name : String
  ncomps : Nat
  values : Values K

/-- A mesh: `conn d low g j` is entity `j` of dimension `low` of entity `g` of dimension `d`. -/
structure PlainMesh (K : Type) where
  family : Family
  dim : Nat
  count : Nat → Nat
  conn : Nat → Nat → Nat → Nat → Nat
  tags : Nat → List (PlainTag K)

variable {K : Type} [Field K] [LinearOrder K]

/-- The arrays on `n` ranks hold the values `v` of entities with the global numbers `gl`. -/
def HoldsData {α : Type} (n : Nat) (gl : Nat → List Nat) (w : Nat) (v : Nat → Nat → α) (data : List (List α)) : Prop :=
  ∃ local_ : Nat → List α, data = world n local_ ∧ ∀ r, r < n → (local_ r).length = (gl r).length * w ∧
    ∀ (i g j : Nat), (gl r)[i]? = some g → j < w → entry (local_ r) w i j = some (v g j)

/-- The tag on `n` ranks has the given values. -/
def TagHolds (n : Nat) (gl : Nat → List Nat) (x : PlainTag K) (y : CompareTag K) : Prop :=
  y.name = x.name ∧ y.ncomps = x.ncomps ∧ 0 < x.ncomps ∧
    match x.values, y.values with
    | .ints n' v, .ints m data => n' = m ∧ HoldsData n gl x.ncomps v data
    | .reals v, .reals data => HoldsData n gl x.ncomps v data
    | _, _ => False

/-- `M` is the mesh `A` distributed over `n` ranks: `gl d r` are the global numbers of the copies of entities of dimension `d` on rank
`r`; every entity is somewhere, and copies have the same values. -/
structure Stores (n : Nat) (gl : Nat → Nat → List Nat) (A : PlainMesh K) (M : CompareMesh K) : Prop where
  family : M.family = A.family
  dim : M.dim = A.dim
  nglobal : ∀ d, d ≤ A.dim → M.nglobal d = A.count d
  globals : ∀ d, d ≤ A.dim → M.globals d = world n (fun r => (gl d r).map Int.ofNat)
  range : ∀ d r, d ≤ A.dim → r < n → ∀ g ∈ gl d r, g < A.count d
  all : ∀ d g, d ≤ A.dim → g < A.count d → ∃ r, r < n ∧ g ∈ gl d r
  small : ∀ d, d ≤ A.dim → A.count d / n + 1 < 2 ^ 31
  conn : ∀ d low, d ≤ A.dim → low < d → ∃ dn : Nat → List Nat, M.down d low = world n dn ∧ 0 < elementDegree A.family d low ∧
    ∀ r, r < n → (dn r).length = (gl d r).length * (elementDegree A.family d low).toNat ∧
      ∀ (i g j : Nat), (gl d r)[i]? = some g → j < (elementDegree A.family d low).toNat →
        ∃ l : Nat, (dn r)[i * (elementDegree A.family d low).toNat + j]? = some l ∧ (gl low r)[l]? = some (A.conn d low g j)
  tags : ∀ d, d ≤ A.dim → List.Forall₂ (TagHolds n (gl d)) (A.tags d) (M.tags d)

/-- Two numbers count as equal. -/
def Close (o : VarCompareOpts K) (x y : K) : Prop :=
  match o.kind with
  | .none => True
  | .absolute => |x - y| ≤ o.tolerance
  | .relative => (|x| ≤ o.floor ∧ |y| ≤ o.floor) ∨ |y - x| ≤ o.tolerance * max |x| |y|

/-- Two tags of `n` entities count as equal. -/
def SameTag (o : VarCompareOpts K) (n : Nat) (x y : PlainTag K) : Prop :=
  match x.values, y.values with
  | .ints _ v, .ints _ u => o.kind = .none ∨ ∀ g j, g < n → j < x.ncomps → v g j = u g j
  | .reals v, .reals u => ∀ g j, g < n → j < x.ncomps → Close o (v g j) (u g j)
  | _, _ => False

/-- The dimensions that are compared. -/
def Compared (full : Bool) (dim d : Nat) : Prop := d ≤ dim ∧ (full = true ∨ d = 0 ∨ d = dim)

/-- Entities are compared by their sides or by their vertices. -/
def lowDim (full : Bool) (d : Nat) : Nat := if full then d - 1 else 0

/-- Entities of dimension `d` have other sides or vertices, or a tag of the first mesh is missing in the second one or not equal. -/
def DiffersAt (full : Bool) (opts : Nat → String → VarCompareOpts K) (A B : PlainMesh K) (d : Nat) : Prop :=
  (0 < d ∧ ∃ g j, g < A.count d ∧ j < (elementDegree A.family d (lowDim full d)).toNat ∧
      A.conn d (lowDim full d) g j ≠ B.conn d (lowDim full d) g j) ∨
    ∃ x ∈ A.tags d, ¬ ∃ y ∈ B.tags d, y.name = x.name ∧ SameTag (opts d x.name) (A.count d) x y

/-- The first mesh is not found in the second one. -/
def Differ (full : Bool) (opts : Nat → String → VarCompareOpts K) (A B : PlainMesh K) : Prop :=
  A.family ≠ B.family ∨ A.dim ≠ B.dim ∨ (∃ d, d ≤ A.dim ∧ A.count d ≠ B.count d) ∨
    ∃ d, Compared full A.dim d ∧ DiffersAt full opts A B d

/-- The options for tag `name`: those given for it, otherwise it is not compared. -/
def Options (l : List (String × VarCompareOpts K)) (name : String) (o : VarCompareOpts K) : Prop :=
  (name, o) ∈ l ∨ (∀ p ∈ l, p.1 ≠ name) ∧ o.kind = .none

/-- The second mesh has a tag that the first one does not have. -/
def HasMore (full : Bool) (A B : PlainMesh K) : Prop :=
  ∃ d, Compared full A.dim d ∧ ∃ y ∈ B.tags d, ¬ ∃ x ∈ A.tags d, x.name = y.name

/-- Tags of the same name have the same type and number of components, and names are not used twice. -/
def TagsFit (A B : PlainMesh K) : Prop :=
  ∀ d, ((A.tags d).map PlainTag.name).Nodup ∧ ((B.tags d).map PlainTag.name).Nodup ∧
    ∀ x ∈ A.tags d, ∀ y ∈ B.tags d, x.name = y.name → x.ncomps = y.ncomps ∧
      match x.values, y.values with
      | .ints n _, .ints m _ => n = m
      | .reals _, .reals _ => True
      | _, _ => False

end OmegaH.Spec
