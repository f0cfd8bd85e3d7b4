import Verif.Model.Regex

/-! # Specification of the language of a regular expression -/

namespace OmegaH.Spec

/-- The characters a reader accepts: tabulator, line feed, carriage return and the printable ASCII characters. -/
def ReadableChar (c : Nat) : Prop := c = 9 ∨ c = 10 ∨ c = 13 ∨ (32 ≤ c ∧ c ≤ 126)

def ItemHas : SetItem → Nat → Prop
  | .char d, c => c = d
  | .range lo hi, c => lo ≤ c ∧ c ≤ hi

/-- The words, as lists of character codes, of a regular expression. -/
def Lang : Regex → List Nat → Prop
  | .char c, w => w = [c]
  | .any, w => ∃ c, ReadableChar c ∧ w = [c]
  | .set false items, w => ∃ c, (∃ i ∈ items, ItemHas i c) ∧ w = [c]
  | .set true items, w => ∃ c, ReadableChar c ∧ (∀ i ∈ items, ¬ ItemHas i c) ∧ w = [c]
  | .union a b, w => Lang a w ∨ Lang b w
  | .concat a b, w => ∃ u v, w = u ++ v ∧ Lang a u ∧ Lang b v
  | .star a, w => ∃ ws : List (List Nat), w = ws.flatten ∧ ∀ u ∈ ws, Lang a u
  | .plus a, w => ∃ ws : List (List Nat), ws ≠ [] ∧ w = ws.flatten ∧ ∀ u ∈ ws, Lang a u
  | .maybe a, w => w = [] ∨ Lang a w

/-- Single characters and those of positive sets are readable. -/
def RegexOk : Regex → Prop
  | .char c => ReadableChar c
  | .any => True
  | .set false items => ∀ i ∈ items, ∀ c, ItemHas i c → ReadableChar c
  | .set true _ => True
  | .union a b => RegexOk a ∧ RegexOk b
  | .concat a b => RegexOk a ∧ RegexOk b
  | .star a => RegexOk a
  | .plus a => RegexOk a
  | .maybe a => RegexOk a

end OmegaH.Spec
