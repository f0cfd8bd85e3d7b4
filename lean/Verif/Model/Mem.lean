/-!
# Arrays, uninitialised memory and parallel loops

Shared conventions of the model.  A C++ array that has just been allocated with
`Write<T>(n)` (src/Omega_h_array.cpp:34-50) holds indeterminate values; we represent it by a
`Mem`, a list of optional values.  `none` as the result of a function means
"undefined behaviour or a failed `OMEGA_H_CHECK`": an out-of-range access, or the use of
a cell that was never written.
-/

namespace OmegaH

/-- Memory of a `Write<T>`: `none` cells are uninitialised.
Models src/Omega_h_array.hpp:24-107 (`Write`). -/
abbrev Mem (α : Type) := List (Option α)

/-- `Write<T>(n)`: allocated, not initialised (src/Omega_h_array.cpp:34-50). -/
def Mem.alloc {α : Type} (n : Nat) : Mem α := List.replicate n none

/-- `Write<T>(n, value)`: allocated and filled (src/Omega_h_array.cpp:53-56). -/
def Mem.filled {α : Type} (n : Nat) (v : α) : Mem α := List.replicate n (some v)

/-- A memory whose cells all hold a value, from an array. -/
def Mem.ofList {α : Type} (l : List α) : Mem α := l.map some

/-- Using the array as a `Read<T>` value: every cell must have been initialised. -/
def Mem.toArray? {α : Type} (m : Mem α) : Option (List α) := m.mapM id

/-- A single write `m[i] = v`; out of range is undefined behaviour
(`Write::operator[]`, src/Omega_h_array.hpp:60-72). -/
def Mem.write {α : Type} (m : Mem α) (i : Nat) (v : α) : Option (Mem α) :=
  if i < m.length then some (m.set i (some v)) else none

/-- Performing a sequence of writes. -/
def Mem.writes {α : Type} (m : Mem α) : List (Nat × α) → Option (Mem α)
  | [] => some m
  | (i, v) :: ws => (m.write i v).bind (fun m' => m'.writes ws)

/-- An arbitrary execution order: for each number of tasks, a permutation of the tasks.
Models the freedom `parallel_for` has (src/Omega_h_for.hpp:38-79). -/
structure Sched where
  order : Nat → List Nat
  ok : ∀ n, (order n).Perm (List.range n)

/-- The serial schedule (src/Omega_h_for.hpp:75-77). -/
def Sched.serial : Sched := ⟨List.range, fun _ => List.Perm.refl _⟩

/-- The reversed schedule, used in non-vacuity examples. -/
def Sched.reversed : Sched := ⟨fun n => (List.range n).reverse, fun _ => List.reverse_perm _⟩

/-- The tasks `l` in the order chosen by the schedule. -/
def Sched.permute {β : Type} (s : Sched) (l : List β) : List β :=
  (s.order l.length).filterMap (fun i => l[i]?)

/-- A parallel loop each of whose iterations `i` reads only arrays that the loop does not write and
performs the writes `W i` (`none`: iteration `i` has undefined behaviour).  All writes of all
iterations are executed one by one in an arbitrary order. -/
def parScatter {α : Type} (s : Sched) (n : Nat) (W : Nat → Option (List (Nat × α)))
    (m : Mem α) : Option (Mem α) := do
  let ws ← (List.range n).mapM W
  m.writes (s.permute ws.flatten)

end OmegaH
