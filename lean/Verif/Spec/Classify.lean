import Verif.Model.Classify
import Verif.Spec.Collapse
/-!
# What the classification of entities is derived from

A class is a pair: the dimension of a model entity and its number, -1 if the number is not known.
-/
namespace OmegaH.Spec

/-- `L` are the entities around entity `l`. -/
def Around (g : Graph) (l : Nat) (L : List Nat) : Prop :=
  ∃ lo hi, g.a2ab[l]? = some lo ∧ g.a2ab[l + 1]? = some hi ∧ lo + L.length = hi ∧
    ∀ j h : Nat, L[j]? = some h → g.ab2b[lo + j]? = some h

/-- `m` is the lowest dimension among the class `c` of an entity and the classes `L` around it. -/
def LowestDim (c : Int × Int) (L : List (Int × Int)) (m : Int) : Prop :=
  (∃ x ∈ c :: L, x.1 = m) ∧ ∀ x ∈ c :: L, m ≤ x.1

/-- All classes of dimension `m` are on model entity number `i`, as far as they are known; -1 if none is known. -/
def AgreedId (c : Int × Int) (L : List (Int × Int)) (m i : Int) : Prop :=
  (∀ j, (m, j) ∈ c :: L → j = -1 ∨ j = i) ∧ (i = -1 ∨ (m, i) ∈ c :: L)

/-- How many of the classes around have dimension `m`. -/
def atDim (L : List (Int × Int)) (m : Int) : Nat := (L.filter (fun x => decide (x.1 = m))).length

/-- An entity of dimension `d` can be inside a model entity of dimension `m`: exactly two entities around it are on that one if it
has one dimension more, at least two if it has more. -/
def RegularIn (d : Nat) (L : List (Int × Int)) (m : Int) : Prop :=
  (m = d + 1 → atDim L m = 2) ∧ (d + 1 < m → 2 ≤ atDim L m)

/-- The class `x` that follows for an entity of dimension `d` from the class `c` it had and the classes `L` around it: it is on
the model entity of lowest dimension if they agree on it and the entity can be inside of it; otherwise it is on a model entity of its own. -/
def Derived (d : Nat) (c : Int × Int) (L : List (Int × Int)) (x : Int × Int) : Prop :=
  ∃ m, LowestDim c L m ∧
    ((∃ i, AgreedId c L m i ∧ RegularIn d L m ∧ x = (m, i)) ∨
     ((¬ ∃ i, AgreedId c L m i ∧ RegularIn d L m) ∧ x = ((d : Int), -1)))

/-- Of the classes of the lowest dimension, the number of one around is not known and that of another is. -/
def Mixed (c : Int × Int) (L : List (Int × Int)) : Prop :=
  ∃ m i, LowestDim c L m ∧ (m, -1) ∈ L ∧ i ≠ -1 ∧ (m, i) ∈ c :: L

/-- The class before: what the tags say, or else all there is. -/
def classBefore (dim : Nat) (m : ClassRank) (d e : Nat) (c : Int × Int) : Prop :=
  (match m.classDim d with
    | some a => a[e]? = some c.1
    | none => c.1 = dim) ∧
  (match m.classId d with
    | some a => a[e]? = some c.2
    | none => c.2 = -1)

/-- Meshes on `n` ranks and the owners of entities by dimension. -/
structure ClassWorld where
  rank : Nat → ClassRank
  owner : Nat → Nat → Nat → Nat × Nat

/-- The arrays describe meshes of dimension `dim`; entities in the tags are on model entities of at least their own dimension. -/
structure ClassWorld.Ok (W : ClassWorld) (n dim : Nat) (shared : Bool) : Prop where
  size : n ≤ 2147483648
  small : dim ≤ 3
  owners : ∀ d, d ≤ dim → OwnersFine n shared (fun r => (W.rank r).nents d) (W.owner d)
  up : ∀ r d, r < n → d < dim → IsFan ((W.rank r).up d).a2ab ∧ ((W.rank r).up d).a2ab.length = (W.rank r).nents d + 1 ∧
    ((W.rank r).up d).a2ab.getLast? = some ((W.rank r).up d).ab2b.length ∧
    ∀ h ∈ ((W.rank r).up d).ab2b, h < (W.rank r).nents (d + 1)
  dims : ∀ r d a, r < n → d ≤ dim → (W.rank r).classDim d = some a → a.length = (W.rank r).nents d ∧ ∀ x ∈ a, (d : Int) ≤ x ∧ x ≤ dim
  ids : ∀ r d a, r < n → d ≤ dim → (W.rank r).classId d = some a → a.length = (W.rank r).nents d

/-- The classes `cls d r` of the entities of dimension `d` on rank `r` are what follows, where an entity is owned, from its class
before and from the classes `cls (d + 1) r` around it. -/
def ClassWorld.Classified (W : ClassWorld) (n dim : Nat) (cls : Nat → Nat → List (Int × Int)) (d : Nat) : Prop :=
  ∀ r, r < n → (cls d r).length = (W.rank r).nents d ∧ ∀ e, e < (W.rank r).nents d → ∃ c x,
    (cls d r)[e]? = some x ∧ (cls d (W.owner d r e).1)[(W.owner d r e).2]? = some x ∧
    classBefore dim (W.rank (W.owner d r e).1) d (W.owner d r e).2 c ∧ (d : Int) ≤ x.1 ∧ x.1 ≤ c.1 ∧ c.1 ≤ dim ∧
    (d = dim → x = c) ∧
    (d < dim → ∃ L H, Around ((W.rank (W.owner d r e).1).up d) (W.owner d r e).2 L ∧
      L.mapM (fun h => (cls (d + 1) (W.owner d r e).1)[h]?) = some H ∧ (∀ y ∈ H, x.1 ≤ y.1) ∧
      (¬ Mixed c H → Derived d c H x))

/-- The tags of one rank are the classes, without numbers if there were none anywhere. -/
def ClassWorld.Tagged (W : ClassWorld) (dim : Nat) (cls : Nat → Nat → List (Int × Int)) (r : Nat)
    (tags : List (List Int × Option (List Int))) : Prop :=
  tags.length = dim + 1 ∧ ∀ d, d ≤ dim → ∃ dims ids, tags[d]? = some (dims, ids) ∧ dims = (cls d r).map Prod.fst ∧
    ((∃ d' a, d' ≤ dim ∧ (W.rank r).classId d' = some a) → ids = some ((cls d r).map Prod.snd)) ∧
    ((∀ d', d' ≤ dim → (W.rank r).classId d' = none) → ids = none)

end OmegaH.Spec
