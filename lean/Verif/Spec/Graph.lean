import Verif.Spec.Map

/-! # Specification of the inverse of a many-to-one map -/

namespace OmegaH.Spec

/-- `offsets`/`vals` is the inverse of the map `a2b` into `0 … nb-1`: there is one fan per target, all
items occur exactly once, and an item stands in the fan of `b` exactly when it is mapped to `b`. -/
def IsInverse (a2b : List Nat) (nb : Nat) (offsets vals : List Nat) : Prop :=
  offsets.length = nb + 1 ∧ IsFan offsets ∧ offsets[nb]? = some a2b.length ∧
  IsPermutation vals a2b.length ∧
  ∀ p a b : Nat, vals[p]? = some a → (InFan offsets b p ↔ a2b[a]? = some b)

/-- Within each fan the entries ascend. -/
def FansAscend (offsets vals : List Nat) : Prop :=
  ∀ b p q x y : Nat, InFan offsets b p → InFan offsets b q → p < q → vals[p]? = some x →
    vals[q]? = some y → x < y

end OmegaH.Spec
