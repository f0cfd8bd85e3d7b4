/-! # Specification vocabulary for index maps and fans (independent of the model) -/

namespace OmegaH.Spec

/-- Component `j` of row `i` of an array whose rows have `w` components. -/
def entry {α : Type} (data : List α) (w i j : Nat) : Option α := data[i * w + j]?

/-- Every entry of the index map is below `n`. -/
def InRange (a2b : List Nat) (n : Nat) : Prop := ∀ b ∈ a2b, b < n

/-- The index map takes no value twice. -/
def Injective (a2b : List Nat) : Prop :=
  ∀ (i j b : Nat), a2b[i]? = some b → a2b[j]? = some b → i = j

/-- `perm` is a permutation of `0 … n-1`. -/
def IsPermutation (perm : List Nat) (n : Nat) : Prop :=
  perm.length = n ∧ InRange perm n ∧ Injective perm

/-- An array of fan offsets: it starts at zero and never decreases. -/
def IsFan (offsets : List Nat) : Prop :=
  offsets[0]? = some 0 ∧
  ∀ (i lo hi : Nat), offsets[i]? = some lo → offsets[i + 1]? = some hi → lo ≤ hi

/-- `b` is one of the members `offsets[a] … offsets[a+1]-1` of fan `a`. -/
def InFan (offsets : List Nat) (a b : Nat) : Prop :=
  ∃ lo hi : Nat, offsets[a]? = some lo ∧ offsets[a + 1]? = some hi ∧ lo ≤ b ∧ b < hi

/-- `b` is in the image of the map. -/
def InImage (a2b : List Nat) (b : Nat) : Prop := ∃ a : Nat, a2b[a]? = some b

/-- The values of component `j` over the members `lo … hi-1` of a fan, in order. -/
def fanValues {α : Type} (bData : List α) (w lo hi j : Nat) : List α :=
  (List.range' lo (hi - lo)).filterMap (fun b => entry bData w b j)

end OmegaH.Spec
