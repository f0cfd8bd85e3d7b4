import Verif.Spec.Polygon

/-! # Specification of derived entities on a partitioned mesh

An edge or face is known by the global numbers of its vertices. `verts r i` lists them for entity `i` of rank `r` (`none`: there is no
such entity). Two entities are copies of one another if the lists describe the same polygon. -/

namespace OmegaH.Spec

/-- The global numbers of the vertices of entity `i`, given its local vertices. -/
def vertGlobals (globals ev2v : List Nat) (deg i : Nat) : Option (List Nat) :=
  if (i + 1) * deg ≤ ev2v.length then (row ev2v deg i).mapM (fun v => globals[v]?) else none

/-- Every entity has an owner, which is a copy of it; copies have the same owner; no copy is on a lower rank than the owner. -/
structure DerivedOwners (n : Nat) (verts : Nat → Nat → Option (List Nat)) (owner : Nat → Nat → Option (Nat × Nat)) : Prop where
  copy : ∀ r i a, r < n → verts r i = some a →
    ∃ q k b, owner r i = some (q, k) ∧ q < n ∧ verts q k = some b ∧ SamePolygon a b
  agree : ∀ r i r' i' a b, r < n → r' < n → verts r i = some a → verts r' i' = some b → SamePolygon a b →
    owner r i = owner r' i'
  lowest : ∀ r i r' i' a b q k, r < n → r' < n → verts r i = some a → verts r' i' = some b → SamePolygon a b →
    owner r i = some (q, k) → q ≤ r'

end OmegaH.Spec
