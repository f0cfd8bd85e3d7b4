/-! # Specification of a linear partition -/

namespace OmegaH.Spec

/-- The global number of item `i` of rank `r` when rank `r'` holds `size r'` consecutive numbers. -/
def globalOf (size : Nat → Nat) (r i : Nat) : Nat := ((List.range r).map size).sum + i

/-- `size` splits `total` items over `p` ranks as evenly as possible. -/
def Balanced (size : Nat → Nat) (total p : Nat) : Prop :=
  ((List.range p).map size).sum = total ∧ ∀ r r', r < p → r' < p → size r ≤ size r' + 1

end OmegaH.Spec
