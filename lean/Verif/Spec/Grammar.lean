import Verif.Model.Grammar

/-! # Specification of the strings that a grammar derives -/

namespace OmegaH.Spec

/-- Left-hand sides are nonterminals, and all symbols are in range. -/
structure GrammarOk (g : Grammar) : Prop where
  lhs : ∀ p ∈ g.prods, g.nterminals ≤ p.1 ∧ p.1 < g.nsymbols
  rhs : ∀ p ∈ g.prods, ∀ s ∈ p.2, s < g.nsymbols
  terminals : g.nterminals ≤ g.nsymbols

/-- A string of symbols becomes another when a left-hand side in it is replaced by the right-hand side of a production. -/
def Rewrite (g : Grammar) (a b : List Nat) : Prop := ∃ x y p, p ∈ g.prods ∧ a = x ++ p.1 :: y ∧ b = x ++ p.2 ++ y

/-- Any number of replacements. -/
inductive Derives (g : Grammar) : List Nat → List Nat → Prop
  | refl (a : List Nat) : Derives g a a
  | step {a b c : List Nat} : Rewrite g a b → Derives g b c → Derives g a c

end OmegaH.Spec
