import Verif.Model.Res

/-! # Sparse neighbour discovery: `sources_from_destinations`, src/Omega_h_comm.cpp:119-165

A transition system. The ranks are `0 … n-1`; rank `r` sends one message to every entry of
`dests r`. A step is one MPI call of one rank: the scheduler picks the rank, and the MPI library
picks which of the available messages a probe reports and whether a completed operation is already
reported by a test (it may always report "not yet"). Synchronous sends complete only when the
receiver has taken the message, which is how `MPI_Issend` differs from `MPI_Isend`; the
non-blocking barrier completes on any rank only after all ranks have entered it. -/

namespace OmegaH

/-- Where a rank is. `sending`: before the sends; `active`: in the loop with
`locally_done_flag = 0`; `barrier`: in the loop with `locally_done_flag = 1`; `finished`: out of the
loop. -/
inductive NbxPhase where
  | sending
  | active
  | barrier
  | finished
deriving DecidableEq, Repr

/-- Global state: the phase of each rank, the sources each rank has recorded (newest first), and the
messages `(source, destination)` sent and not yet received. -/
structure Nbx where
  phase : Nat → NbxPhase
  sources : Nat → List Nat
  flight : List (Nat × Nat)

/-- Update of one rank. -/
def upd {α : Type} (f : Nat → α) (r : Nat) (x : α) : Nat → α := fun i => if i = r then x else f i

/-- After the first `MPI_Barrier` (src/Omega_h_comm.cpp:125). -/
def Nbx.init : Nbx := ⟨fun _ => .sending, fun _ => [], []⟩

/-- The steps of rank `r` among `n` ranks with destination lists `dests`. -/
inductive Nbx.Step (n : Nat) (dests : Nat → List Nat) : Nbx → Nbx → Prop
  /-- The `MPI_Issend` loop: src/Omega_h_comm.cpp:131-134. -/
  | send (S : Nbx) (r : Nat) (hr : r < n) (h : S.phase r = .sending) :
      Step n dests S { S with phase := upd S.phase r .active,
                              flight := (dests r).map (fun d => (r, d)) ++ S.flight }
  /-- `MPI_Iprobe` finds a message and `MPI_Recv` takes it: src/Omega_h_comm.cpp:143-149. -/
  | recv (S : Nbx) (r s : Nat) (hr : r < n) (h : S.phase r = .active ∨ S.phase r = .barrier)
      (hm : (s, r) ∈ S.flight) :
      Step n dests S { S with sources := upd S.sources r (s :: S.sources r),
                              flight := S.flight.erase (s, r) }
  /-- `MPI_Testall` reports that all sends have been matched, and the rank enters the barrier:
  src/Omega_h_comm.cpp:154-158. -/
  | enter (S : Nbx) (r : Nat) (hr : r < n) (h : S.phase r = .active)
      (hs : ∀ d, (r, d) ∉ S.flight) :
      Step n dests S { S with phase := upd S.phase r .barrier }
  /-- `MPI_Test` reports that the barrier is complete: src/Omega_h_comm.cpp:150-152. -/
  | finish (S : Nbx) (r : Nat) (hr : r < n) (h : S.phase r = .barrier)
      (hb : ∀ q, q < n → S.phase q = .barrier ∨ S.phase q = .finished) :
      Step n dests S { S with phase := upd S.phase r .finished }

/-- The states reachable under some schedule. -/
inductive Nbx.Reach (n : Nat) (dests : Nat → List Nat) : Nbx → Prop
  | init : Reach n dests Nbx.init
  | step {S S' : Nbx} (h : Reach n dests S) (h' : Nbx.Step n dests S S') : Reach n dests S'

end OmegaH
