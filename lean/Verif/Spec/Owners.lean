import Verif.Spec.Dist

/-! # Specification of ownership

`ent r i` is the entity of which item `i` of rank `r` is a copy (`none`: there is no such item). -/

namespace OmegaH.Spec

/-- Every copy of an entity names the same copy of that entity as its owner; in particular the owner names itself. -/
def OwnersOk {E : Type} (n : Nat) (ent : Nat → Nat → Option E) (ranks idxs : Nat → List Int) : Prop :=
  ∀ e r i, r < n → ent r i = some e → ∃ q k : Nat, q < n ∧ ent q k = some e ∧
    ∀ r' i' : Nat, r' < n → ent r' i' = some e → (ranks r')[i']? = some (q : Int) ∧ (idxs r')[i']? = some (k : Int)

/-- The owner is a copy on a rank with the fewest items; among those, on the lowest rank. -/
def OwnersFewest {E : Type} (n : Nat) (ent : Nat → Nat → Option E) (size : Nat → Nat) (ranks : Nat → List Int) : Prop :=
  ∀ (e : E) (r i : Nat) (q : Nat), r < n → ent r i = some e → (ranks r)[i]? = some (q : Int) →
    ∀ q' k' : Nat, q' < n → ent q' k' = some e → size q < size q' ∨ (size q = size q' ∧ q ≤ q')

/-- The copies of an entity suggest the same rank. -/
def Agreed {E : Type} (n : Nat) (ent : Nat → Nat → Option E) (own : Nat → List Int) : Prop :=
  ∀ (e : E) (r i r' i' : Nat), r < n → r' < n → ent r i = some e → ent r' i' = some e → (own r)[i]? = (own r')[i']?

/-- A copy of the entity is on the rank that its copies suggest. -/
def Available {E : Type} (n : Nat) (ent : Nat → Nat → Option E) (own : Nat → List Int) (e : E) : Prop :=
  ∃ q k : Nat, q < n ∧ ent q k = some e ∧ (own q)[k]? = some (q : Int)

end OmegaH.Spec
