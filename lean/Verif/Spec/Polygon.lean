import Verif.Spec.Align

/-! # Specification: two vertex lists that describe the same polygon (or edge) -/

namespace OmegaH.Spec

/-- `b` is `a` seen from another starting vertex and possibly in the other direction. -/
def SamePolygon {α : Type} (a b : List α) : Prop := ∃ (f : Bool) (r : Nat), align f r a = b

end OmegaH.Spec
