/-! # Outcomes of operations that can report failure or run into undefined behaviour -/

namespace OmegaH

/-- The outcome of a C++ call: a value, a reported failure (`Omega_h_fail`, a failed
`OMEGA_H_CHECK`, or a thrown exception: src/Omega_h_fail.hpp:52-54), or undefined behaviour. -/
inductive Res (α : Type) where
  | ok (a : α)
  | fail
  | ub
deriving DecidableEq, Repr

namespace Res

def bind {α β : Type} (r : Res α) (f : α → Res β) : Res β :=
  match r with
  | .ok a => f a
  | .fail => .fail
  | .ub => .ub

instance : Monad Res where
  pure := .ok
  bind := Res.bind

/-- Undefined behaviour in place of a missing value. -/
def ofOption {α : Type} : Option α → Res α
  | some a => .ok a
  | none => .ub

@[simp] theorem bind_ok {α β : Type} (a : α) (f : α → Res β) : (Res.ok a).bind f = f a := rfl
@[simp] theorem bind_fail {α β : Type} (f : α → Res β) : (Res.fail : Res α).bind f = .fail := rfl
@[simp] theorem bind_ub {α β : Type} (f : α → Res β) : (Res.ub : Res α).bind f = .ub := rfl

theorem bind_eq_ok {α β : Type} {r : Res α} {f : α → Res β} {b : β} :
    r.bind f = .ok b ↔ ∃ a, r = .ok a ∧ f a = .ok b := by
  cases r <;> simp

end Res
end OmegaH
