import Verif.Model.Ledger

/-! # Specification: what a ledger of allocations should say about a history -/

namespace OmegaH.Spec

/-- The live allocations `(address, size)` after a history, newest first. -/
def liveAllocs : List LedgerOp → List (Nat × Nat) → List (Nat × Nat)
  | [], live => live
  | .alloc a size :: ops, live => liveAllocs ops ((a, size) :: live)
  | .free a :: ops, live => liveAllocs ops (live.filter (fun e => e.1 != a))

/-- Bytes in use. -/
def bytes (live : List (Nat × Nat)) : Nat := (live.map Prod.snd).sum

/-- The largest number of bytes in use at any time, starting from a known maximum. -/
def peak : List LedgerOp → List (Nat × Nat) → Nat → Nat
  | [], _, m => m
  | .alloc a size :: ops, live, m => peak ops ((a, size) :: live) (max m (bytes ((a, size) :: live)))
  | .free a :: ops, live, m => peak ops (live.filter (fun e => e.1 != a)) m

/-- A history a program can have: `new` returns a non-null address that is not in use, and only live
objects are destroyed. -/
def properHistory : List LedgerOp → List (Nat × Nat) → Prop
  | [], _ => True
  | .alloc a size :: ops, live =>
    a ≠ 0 ∧ a ∉ live.map Prod.fst ∧ properHistory ops ((a, size) :: live)
  | .free a :: ops, live =>
    a ∈ live.map Prod.fst ∧ properHistory ops (live.filter (fun e => e.1 != a))

instance : ∀ (ops : List LedgerOp) (live : List (Nat × Nat)), Decidable (properHistory ops live)
  | [], _ => .isTrue trivial
  | .alloc a size :: ops, live => by
    unfold properHistory
    have := instDecidableProperHistory ops ((a, size) :: live)
    infer_instance
  | .free a :: ops, live => by
    unfold properHistory
    have := instDecidableProperHistory ops (live.filter (fun e => e.1 != a))
    infer_instance

end OmegaH.Spec
