import Verif.Spec.Map

/-! # Specification of stable key sorting -/

namespace OmegaH.Spec

/-- Lexicographic order of two items' keys: at the first differing component the first is smaller. -/
def KeyLt (keys : List Int) (w a b : Nat) : Prop :=
  ∃ k, k < w ∧ (∀ j, j < k → entry keys w a j = entry keys w b j) ∧
    ∃ x y, entry keys w a k = some x ∧ entry keys w b k = some y ∧ x < y

/-- The two items have the same key. -/
def KeyEq (keys : List Int) (w a b : Nat) : Prop := ∀ j, j < w → entry keys w a j = entry keys w b j

/-- `perm` lists all items `0 … n-1` so that keys never decrease and items with equal keys keep their
original order. -/
def IsStableSort (keys : List Int) (w n : Nat) (perm : List Nat) : Prop :=
  IsPermutation perm n ∧
  ∀ (i j a b : Nat), i < j → perm[i]? = some a → perm[j]? = some b →
    KeyLt keys w a b ∨ (KeyEq keys w a b ∧ a < b)

/-- Number of occurrences of `v` before position `i`. -/
def countBefore (a : List Int) (v : Int) (i : Nat) : Nat := (a.take i).count v

/-- Result of sorting an array with few distinct values: `uniq` lists the distinct values in
ascending order, `fan` the offsets of their groups, and `pos[i]` is where entry `i` goes:
group start plus the number of earlier equal entries. -/
def IsSmallSort (a pos fan uniq : List Int) : Prop :=
  uniq.Pairwise (· < ·) ∧ (∀ v, v ∈ uniq ↔ v ∈ a) ∧
  fan.length = uniq.length + 1 ∧ fan[0]? = some 0 ∧
  (∀ (k : Nat) (v lo : Int), uniq[k]? = some v → fan[k]? = some lo →
    fan[k + 1]? = some (lo + (a.count v : Int))) ∧
  pos.length = a.length ∧
  ∀ (i k : Nat) (v lo : Int), a[i]? = some v → uniq[k]? = some v → fan[k]? = some lo →
    pos[i]? = some (lo + (countBefore a v i : Int))

end OmegaH.Spec
