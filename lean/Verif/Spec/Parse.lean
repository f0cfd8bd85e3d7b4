import Verif.Spec.Grammar
import Verif.Model.BuildParser

/-! # Specification of parses -/

namespace OmegaH.Spec

/-- A rightmost derivation: in every step the last nonterminal of the string is replaced by the right-hand side of the production with the given number. -/
inductive RightDerives (g : Grammar) : List Nat → List Nat → List Nat → Prop
  | refl (a : List Nat) : RightDerives g a a []
  | step {x w lhs_rhs_b : List Nat} {k lhs : Nat} {rhs : List Nat} {ks : List Nat} : g.prods[k]? = some (lhs, rhs) →
      (∀ t ∈ w, t < g.nterminals) → RightDerives g (x ++ rhs ++ w) lhs_rhs_b ks → RightDerives g (x ++ lhs :: w) lhs_rhs_b (k :: ks)

mutual
/-- The tree of calls is a parse of the tokens as a symbol: a token stands for itself, and a production has one value for each symbol of its right-hand side. -/
inductive ParseTree (g : Grammar) : Nat → List Nat → CallTree → Prop
  | leaf {t : Nat} : t < g.nterminals → ParseTree g t [t] (.leaf t)
  | node {k lhs : Nat} {rhs w : List Nat} {cs : List CallTree} : g.prods[k]? = some (lhs, rhs) → ParseForest g rhs w cs → ParseTree g lhs w (.node k cs)
/-- The same for a string of symbols. -/
inductive ParseForest (g : Grammar) : List Nat → List Nat → List CallTree → Prop
  | nil : ParseForest g [] [] []
  | cons {s : Nat} {ss u v : List Nat} {c : CallTree} {cs : List CallTree} : ParseTree g s u c → ParseForest g ss v cs → ParseForest g (s :: ss) (u ++ v) (c :: cs)
end

/-- A grammar with an end terminal, which no production mentions, and, last, a production of the last symbol, which no production mentions, from the goal. -/
structure Augmented (g : Grammar) (goal : Nat) : Prop where
  ok : GrammarOk g
  last : g.prods.getLast? = some (g.nsymbols - 1, [goal])
  end_ : 0 < g.nterminals ∧ ∀ p ∈ g.prods, g.nterminals - 1 ∉ p.2
  top : ∀ p ∈ g.prods, g.nsymbols - 1 ∉ p.2
  only : ∀ (k : Nat) p, g.prods[k]? = some p → p.1 = g.nsymbols - 1 → k + 1 = g.prods.length

/-- The state of the machine after a string of symbols. -/
inductive Reached (states : List LRState) : List Nat → Nat → Prop
  | start : Reached states [] 0
  | next {xs : List Nat} {x s q : Nat} {st : LRState} : Reached states xs s → states[s]? = some st → (x, q) ∈ st.shifts → Reached states (xs ++ [x]) q

/-- The look-ahead sets have every terminal, or the end terminal, that can follow a reduction in a rightmost derivation. -/
def LookAheadsCover (g : Grammar) (goal : Nat) (states : List LRState) (ctx : Nat → Nat → List Nat) : Prop :=
  ∀ (x w : List Nat) (k lhs : Nat) (rhs ks : List Nat) (s : Nat), RightDerives g [goal] (x ++ lhs :: w) ks → (∀ t ∈ w, t < g.nterminals) →
    g.prods[k]? = some (lhs, rhs) → Reached states (x ++ rhs) s → (w ++ [g.nterminals - 1]).head (by simp) ∈ ctx s k

end OmegaH.Spec
