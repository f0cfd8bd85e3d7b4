import Verif.Model.Automaton

/-! # Specification of automata and regular languages -/

namespace OmegaH.Spec

/-- The table sends `s` to `t` on symbol `some a`, or on one of the two empty symbols for `none`. -/
def Edge (fa : FA) (s : Nat) (x : Option Nat) (t : Nat) : Prop :=
  match x with
  | some a => a < fa.nsym ∧ fa.cell s a = some (t : Int)
  | none => fa.det = false ∧ (fa.cell s fa.nsym = some (t : Int) ∨ fa.cell s (fa.nsym + 1) = some (t : Int))

/-- A walk along edges that reads the word `w`. -/
inductive Walk (E : Nat → Option Nat → Nat → Prop) : Nat → List Nat → Nat → Prop
  | nil (s : Nat) : Walk E s [] s
  | sym {s t u a : Nat} {w : List Nat} : E s (some a) t → Walk E t w u → Walk E s (a :: w) u
  | eps {s t u : Nat} {w : List Nat} : E s none t → Walk E t w u → Walk E s w u

/-- Some run from the start state 0 that reads `w` ends in a state that reports the token. -/
def Accepts (fa : FA) (w : List Nat) (token : Int) : Prop :=
  ∃ u, Walk (Edge fa) 0 w u ∧ fa.accepted[u]? = some token ∧ token ≠ -1

/-- Rectangular tables with entries in range. -/
structure FATable (fa : FA) : Prop where
  cols : 0 < fa.ncols
  rows : ∀ (s : Nat) row, fa.table[s]? = some row → row.length = fa.ncols
  acc : fa.accepted.length = fa.nstates
  cells : ∀ s c v, fa.cell s c = some v → v = -1 ∨ (0 ≤ v ∧ v < fa.nstates)
  toks : ∀ (s : Nat) v, fa.accepted[s]? = some v → -1 ≤ v

/-- A table with a start state. -/
def FAOk (fa : FA) : Prop := FATable fa ∧ 0 < fa.nstates

/-- No transition leaves a state that accepts. -/
def AcceptSinks (fa : FA) : Prop := ∀ (s : Nat) tok, fa.accepted[s]? = some tok → tok ≠ -1 → ∀ x t, ¬ Edge fa s x t

/-- No transition on an empty symbol leaves a state that accepts. -/
def AcceptNoEps (fa : FA) : Prop := ∀ (s : Nat) tok, fa.accepted[s]? = some tok → tok ≠ -1 → ∀ t, ¬ Edge fa s none t

end OmegaH.Spec
