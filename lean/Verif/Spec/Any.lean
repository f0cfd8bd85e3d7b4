import Verif.Model.Any

/-! # Specification: variables that hold a typed value or nothing, with value semantics -/

namespace OmegaH.Spec

/-- `none`: the variable does not exist; `some none`: it is empty; `some (some (t, x))`: it holds the
value `x` of type `t`. -/
abbrev AnyStore := List (Option (Option (PTy × Nat)))

/-- The contents of variable `v`. -/
def anyLook (s : AnyStore) (v : Nat) : Option (Option (PTy × Nat)) := (s[v]?).join

def anyStep (s : AnyStore) : AnyOp → AnyStore
  | .empty v => s.set v (some none)
  | .value v t x _ => s.set v (some (some (t, x)))
  | .copy v w _ => s.set v (anyLook s w)
  | .move v w => (s.set v (anyLook s w)).set w (some none)
  | .assign v w _ => s.set v (anyLook s w)
  | .moveAssign v w => if v = w then s else (s.set v (anyLook s w)).set w (some none)
  | .assignValue v t x _ => s.set v (some (some (t, x)))
  | .clear v => s.set v (some none)
  | .swap v w => (s.set v (anyLook s w)).set w (anyLook s v)
  | .destroy v => s.set v none

/-- The rules of the language: constructors run on variables that do not exist yet, everything else
on variables that do; `new` picks an address that is not in use. -/
def anyLegal (S : AnyState) : AnyOp → Prop
  | .empty v => S.vars[v]? = some none
  | .value v _ _ p => S.vars[v]? = some none ∧ p ∉ S.mem.heap.map Prod.fst
  | .copy v w p => S.vars[v]? = some none ∧ (∃ b, S.vars[w]? = some (some b)) ∧
      p ∉ S.mem.heap.map Prod.fst
  | .move v w => S.vars[v]? = some none ∧ (∃ b, S.vars[w]? = some (some b))
  | .assign v w p => (∃ a, S.vars[v]? = some (some a)) ∧ (∃ b, S.vars[w]? = some (some b)) ∧
      p ∉ S.mem.heap.map Prod.fst
  | .moveAssign v w => (∃ a, S.vars[v]? = some (some a)) ∧ (∃ b, S.vars[w]? = some (some b))
  | .assignValue v _ _ p => (∃ a, S.vars[v]? = some (some a)) ∧ p ∉ S.mem.heap.map Prod.fst
  | .clear v => ∃ a, S.vars[v]? = some (some a)
  | .swap v w => (∃ a, S.vars[v]? = some (some a)) ∧ (∃ b, S.vars[w]? = some (some b))
  | .destroy v => ∃ a, S.vars[v]? = some (some a)

/-- Every statement of the program obeys the rules when it runs. -/
def anyLegalRun : AnyState → List AnyOp → Prop
  | _, [] => True
  | S, op :: ops => anyLegal S op ∧ ∀ S', S.step op = .ok S' → anyLegalRun S' ops

end OmegaH.Spec
