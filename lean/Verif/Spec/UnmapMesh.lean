import Verif.Spec.Migrate
import Verif.Spec.Adj

/-! # Specification of the extraction of a part of a mesh -/

namespace OmegaH.Spec

/-- The kept entities exist and are listed once. -/
structure KeptOk (n : Nat) (A : OldLevel) (kept : Nat → List Nat) : Prop where
  range : ∀ r, r < n → InRange (kept r) (A.nents r)
  inj : ∀ r, r < n → Injective (kept r)

/-- The new index of the old entity `e`: its place in the list, or -1. -/
def NewIndex (kept : List Nat) (e : Nat) (x : Int) : Prop :=
  (∃ k : Nat, kept[k]? = some e ∧ x = (k : Int)) ∨ (e ∉ kept ∧ x = -1)

/-- The lower entities of a new entity are the new copies of those of the old one, in the same order. -/
def LocalConn (n deg : Nat) (A : OldLevel) (kept keptLow : Nat → List Nat) (conn : Nat → List Int) : Prop :=
  ∀ r, r < n → (conn r).length = (kept r).length * deg ∧
    ∀ i e l j : Nat, (kept r)[i]? = some e → j < deg → entry (A.lows r) deg e j = some l →
      ∃ x, entry (conn r) deg i j = some x ∧ NewIndex (keptLow r) l x

/-- The owner of a new entity is on the rank of the old owner; its index is the new index of the old owner there. -/
def NewOwners (n : Nat) (A : OldLevel) (kept : Nat → List Nat) (ranks idxs : Nat → List Int) : Prop :=
  ∀ r, r < n → (ranks r).length = (kept r).length ∧ (idxs r).length = (kept r).length ∧
    ∀ i e p x : Nat, (kept r)[i]? = some e → A.owner (r, e) = some (p, x) →
      (ranks r)[i]? = some (p : Int) ∧ ∃ y, (idxs r)[i]? = some y ∧ NewIndex (kept p) x y

/-- Every side of a kept entity is kept. -/
def ClosedDown (n deg : Nat) (A : OldLevel) (kept keptLow : Nat → List Nat) : Prop :=
  ∀ r i j l, r < n → i ∈ kept r → j < deg → entry (A.lows r) deg i j = some l → l ∈ keptLow r

end OmegaH.Spec
