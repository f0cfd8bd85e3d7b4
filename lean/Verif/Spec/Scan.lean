/-! # Specification of prefix sums and running maxima (independent of the model) -/

namespace OmegaH.Spec

/-- `out` is the array of offsets of consecutive segments with the sizes `a`: it starts at zero and
consecutive entries differ by the corresponding size. -/
def IsOffsets {α : Type} [Add α] [OfNat α 0] (a out : List α) : Prop :=
  out.length = a.length + 1 ∧ out[0]? = some 0 ∧
  ∀ i x o, a[i]? = some x → out[i]? = some o → out[i + 1]? = some (o + x)

/-- `out[i]` is the greatest of `a[0] … a[i]`. -/
def IsRunningMax (a out : List Int) : Prop :=
  out.length = a.length ∧
  ∀ (i : Nat) (m : Int), out[i]? = some m →
    (∃ j : Nat, j ≤ i ∧ a[j]? = some m) ∧ (∀ (j : Nat) (x : Int), j ≤ i → a[j]? = some x → x ≤ m)

end OmegaH.Spec
