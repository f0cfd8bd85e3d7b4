import Verif.Model.Res

/-! # Asynchronous results: src/Omega_h_future.hpp, src/Omega_h_future.cpp (MPI builds)

A receive buffer is filled by a fixed number of requests. `done[i]` says whether the communication
of request `i` is complete; it only changes by an `arrive` step of the network, or because the
program waits. Reading the buffer while some request is incomplete is a data race, hence undefined
behaviour. The buffer's final contents are a parameter `data`; callbacks are functions. -/

namespace OmegaH

/-- `Future::Status`: src/Omega_h_future.hpp:75-80. -/
inductive FStatus where
  | waiting
  | completed
  | consumed
deriving DecidableEq, Repr

/-- `Future`: src/Omega_h_future.hpp:82-86, with the state of its requests. `data` is what the
receive buffer holds once all requests are complete. -/
structure Fut (α : Type) where
  status : FStatus
  done : List Bool
  data : α
  callback : α → α

/-- Constructor with requests: src/Omega_h_future.cpp:17-24, default callback
src/Omega_h_future.hpp:46-49. -/
def Fut.start {α : Type} (n : Nat) (data : α) : Fut α :=
  ⟨.waiting, List.replicate n false, data, id⟩

/-- Constructor without communication: src/Omega_h_future.cpp:26-40. -/
def Fut.ready {α : Type} (data : α) : Fut α := ⟨.completed, [], data, id⟩

/-- The network completes request `i`. -/
def Fut.arrive {α : Type} (f : Fut α) (i : Nat) : Fut α := { f with done := f.done.set i true }

/-- `completed`: src/Omega_h_future.cpp:42-59. `MPI_Testall` sets `flag` when all requests are
complete. -/
def Fut.poll {α : Type} (f : Fut α) : Bool × Fut α :=
  if f.status ≠ .waiting then (true, f)
  else
    let flag : Nat := if f.done.all id then 1 else 0
    let f := if flag = 0 then { f with status := .completed } else f
    (flag == 0, f)

/-- `callback_(recvbuf_)` reads the receive buffer. -/
def Fut.read {α : Type} (f : Fut α) : Res (α × Fut α) :=
  if f.done.all id then .ok (f.callback f.data, { f with status := .consumed }) else .ub

/-- `get`: src/Omega_h_future.cpp:61-76. `MPI_Waitall` returns when all requests are complete. -/
def Fut.get {α : Type} (f : Fut α) : Res (α × Fut α) :=
  match f.status with
  | .completed => f.read
  | .waiting => Fut.read { f with done := f.done.map (fun _ => true) }
  | .consumed => .fail

/-- `add_callback`: src/Omega_h_future.hpp:59-64. -/
def Fut.addCallback {α : Type} (f : Fut α) (c : α → α) : Fut α :=
  { f with callback := fun x => c (f.callback x) }

/-- What a program and the network do to a future before the result is asked for. -/
inductive FutOp (α : Type) where
  | arrive (i : Nat)
  | poll
  | addCallback (c : α → α)

def Fut.step {α : Type} (f : Fut α) : FutOp α → Fut α
  | .arrive i => f.arrive i
  | .poll => f.poll.2
  | .addCallback c => f.addCallback c

def Fut.run {α : Type} (f : Fut α) (ops : List (FutOp α)) : Fut α := ops.foldl Fut.step f

/-- The callbacks added during a history, oldest first. -/
def FutOp.callbacks {α : Type} : List (FutOp α) → List (α → α)
  | [] => []
  | .addCallback c :: ops => c :: callbacks ops
  | _ :: ops => callbacks ops

end OmegaH
