/-! # Specification vocabulary for mark arrays -/

namespace OmegaH.Spec

/-- A mark array: every entry is 0 or 1. -/
def IsMarks (marks : List Int) : Prop := ∀ m ∈ marks, m = 0 ∨ m = 1

/-- Index `i` is marked. -/
def Marked (marks : List Int) (i : Nat) : Prop := marks[i]? = some 1

/-- `out` lists exactly the marked indices, each once, in ascending order. -/
def IsCollected (marks : List Int) (out : List Nat) : Prop :=
  out.Pairwise (· < ·) ∧ ∀ i, i ∈ out ↔ Marked marks i

end OmegaH.Spec
