import Verif.Model.Marks
import Verif.Spec.Collapse
import Verif.Spec.Marks
/-!
# Marked entities of a distributed mesh

Copies of an entity are on several ranks. An entity is identified by the rank and the index of the copy that owns it.
-/
namespace OmegaH.Spec

/-- Entity `h` is listed in the graph beside entity `l`. -/
def Beside (g : Graph) (l h : Nat) : Prop :=
  ∃ lo hi k : Nat, g.a2ab[l]? = some lo ∧ g.a2ab[l + 1]? = some hi ∧ lo ≤ k ∧ k < hi ∧ g.ab2b[k]? = some h

/-- The graph lists for each of `nl` entities some of `nh` entities. -/
def GoodGraph (g : Graph) (nl nh : Nat) : Prop :=
  IsFan g.a2ab ∧ g.a2ab.length = nl + 1 ∧ g.a2ab.getLast? = some g.ab2b.length ∧ ∀ h ∈ g.ab2b, h < nh

/-- The meshes on all ranks, and the owner of a copy by dimension, rank and index. -/
structure MarkWorld where
  rank : Nat → MarkRank
  owner : Nat → Nat → Nat → Nat × Nat

/-- `x` is an entity of dimension `d`. -/
def MarkWorld.IsEntity (W : MarkWorld) (n d : Nat) (x : Nat × Nat) : Prop :=
  x.1 < n ∧ x.2 < (W.rank x.1).nents d ∧ W.owner d x.1 x.2 = x

/-- Entity `x` of dimension `lo` is on the boundary of entity `y` of dimension `hi`: some rank has copies of both that say so. -/
def MarkWorld.Bounds (W : MarkWorld) (n lo hi : Nat) (x y : Nat × Nat) : Prop :=
  ∃ r l h : Nat, r < n ∧ l < (W.rank r).nents lo ∧ Beside ((W.rank r).up lo hi) l h ∧ W.owner lo r l = x ∧ W.owner hi r h = y

/-- Entity `x` of dimension `lo` is in the closure of entity `y` of dimension `hi`. -/
def MarkWorld.InClosure (W : MarkWorld) (n lo hi : Nat) (x y : Nat × Nat) : Prop :=
  (lo = hi ∧ x = y) ∨ (lo < hi ∧ W.Bounds n lo hi x y)

/-- Entity `x` of dimension `d` is inside the model entity of dimension `c` and number `i`. -/
def MarkWorld.ClassedOn (W : MarkWorld) (d : Nat) (x : Nat × Nat) (c i : Int) : Prop :=
  ((W.rank x.1).classDim d)[x.2]? = some c ∧ ((W.rank x.1).classId d)[x.2]? = some i

/-- Entity `x` of dimension `lo` is on one of the listed model entities, given by dimension and number: it is in the closure of an
entity that has the dimension of the model entity and is inside of it. -/
def MarkWorld.OnModel (W : MarkWorld) (n dim lo : Nat) (pairs : List (Int × Int)) (x : Nat × Nat) : Prop :=
  ∃ d, d ≤ dim ∧ ∃ y i, ((d : Int), i) ∈ pairs ∧ W.InClosure n lo d x y ∧ W.ClassedOn d y d i

/-- The arrays describe parts of one mesh of dimension `dim`: copies of an entity have the same lower entities and the same class,
and, if `allUpward` says so, an owner has copies of all entities that it bounds. -/
structure MarkWorld.Ok (W : MarkWorld) (n dim : Nat) (shared allUpward : Nat → Bool) : Prop where
  size : n ≤ 2147483648
  small : dim ≤ 3
  owners : ∀ d, d ≤ dim → OwnersFine n (shared d) (fun r => (W.rank r).nents d) (W.owner d)
  up : ∀ r lo hi, r < n → lo < hi → hi ≤ dim → GoodGraph ((W.rank r).up lo hi) ((W.rank r).nents lo) ((W.rank r).nents hi)
  down : ∀ r hi lo h, r < n → lo < hi → hi ≤ dim → h < (W.rank r).nents hi →
    (∀ j, j < (W.rank r).degree hi lo → ∃ l, ((W.rank r).down hi lo)[h * (W.rank r).degree hi lo + j]? = some l ∧ l < (W.rank r).nents lo) ∧
    ∀ x, W.Bounds n lo hi x (W.owner hi r h) ↔ ∃ j l : Nat, j < (W.rank r).degree hi lo ∧
      ((W.rank r).down hi lo)[h * (W.rank r).degree hi lo + j]? = some l ∧ W.owner lo r l = x
  classes : ∀ r d e, r < n → d ≤ dim → e < (W.rank r).nents d → ∃ c i, W.ClassedOn d (r, e) c i ∧ W.ClassedOn d (W.owner d r e) c i
  lengths : ∀ r d, r < n → d ≤ dim → ((W.rank r).classDim d).length = (W.rank r).nents d ∧
    ((W.rank r).classId d).length = (W.rank r).nents d
  upward : ∀ lo hi, allUpward lo = true → lo < hi → hi ≤ dim → ∀ x y, W.IsEntity n lo x → W.Bounds n lo hi x y →
    ∃ h, Beside ((W.rank x.1).up lo hi) x.2 h ∧ W.owner hi x.1 h = y

/-- The marks on all ranks say, on every copy, which entities of dimension `d` are in `M`. -/
def MarkWorld.Says (W : MarkWorld) (n d : Nat) (marks : Nat → List Int) (M : Nat × Nat → Prop) : Prop :=
  ∀ r, r < n → (marks r).length = (W.rank r).nents d ∧ IsMarks (marks r) ∧
    ∀ e, e < (W.rank r).nents d → (Marked (marks r) e ↔ M (W.owner d r e))

end OmegaH.Spec
