import Verif.Spec.Automaton
import Verif.Model.Determinise

/-! # Specification of determinisation -/

namespace OmegaH.Spec

/-- The lowest token that some run on `w` reports. -/
def LowestToken (fa : FA) (w : List Nat) (token : Int) : Prop := Accepts fa w token ∧ ∀ t, Accepts fa w t → token ≤ t

/-- No two states report the same token and have the same transitions. -/
def NoTwins (fa : FA) : Prop :=
  ∀ i j : Nat, i < fa.nstates → j < fa.nstates → fa.accepted[i]? = fa.accepted[j]? → (∀ c, fa.cell i c = fa.cell j c) → i = j

end OmegaH.Spec
