import Verif.Model.Res

/-! # The memory pool: src/Omega_h_pool.cpp, src/Omega_h_pool.hpp

Pointers are natural numbers. The system allocator is an arbitrary function of the time and of the
blocks it has outstanding; `sysFree` of anything that is not outstanding is undefined behaviour. -/

namespace OmegaH

/-- Replace the value of a function at one place. -/
def funSet {β : Type} (f : Nat → β) (s : Nat) (v : β) : Nat → β := fun i => if i = s then v else f i

/-- `Pool` (src/Omega_h_pool.hpp:13-24) together with the state of the system allocator: the blocks
`(pointer, size)` it has handed out and not got back, and a counter of its calls. The arrays
`used_blocks[64]`, `free_blocks[64]` are functions, used below 64 only. -/
structure Pool where
  used : Nat → List Nat
  free : Nat → List Nat
  out : List (Nat × Nat)
  calls : Nat

/-- `Pool::Pool`: src/Omega_h_pool.cpp:17-18. -/
def Pool.init : Pool := ⟨fun _ => [], fun _ => [], [], 0⟩

/-- The underlying `malloc`: given its call number, the outstanding blocks and the size, a pointer or
null. It never returns a pointer that is outstanding. -/
structure SysMalloc where
  get : Nat → List (Nat × Nat) → Nat → Option Nat
  fresh : ∀ t out size p, get t out size = some p → p ∉ out.map Prod.fst

/-- The underlying `free` of a block. -/
def sysFree (out : List (Nat × Nat)) (b : Nat × Nat) : Res (List (Nat × Nat)) :=
  if b ∈ out then .ok (out.erase b) else .ub

/-- Freeing blocks one after the other. -/
def sysFreeAll : List (Nat × Nat) → List (Nat × Nat) → Res (List (Nat × Nat))
  | out, [] => .ok out
  | out, b :: bs => (sysFree out b).bind fun out' => sysFreeAll out' bs

/-- The blocks in the first `n` lists, with the size `1 << i` used for list `i`. -/
def listedBlocks (f : Nat → List Nat) (n : Nat) : List (Nat × Nat) :=
  (List.range n).flatMap (fun i => (f i).map (fun p => (p, 2 ^ i)))

/-- The loop finding `shift`: src/Omega_h_pool.cpp:37-39. Shifting by 64 is undefined. -/
def poolShift (size : Nat) : Res Nat :=
  Res.ofOption ((List.range 64).find? (fun s => !decide (2 ^ s < size)))

/-- One call of the underlying malloc, recorded as outstanding when it succeeds. -/
def Pool.sysMalloc (m : SysMalloc) (P : Pool) (size : Nat) : Option Nat × Pool :=
  match m.get P.calls P.out size with
  | some p => (some p, { P with out := (p, size) :: P.out, calls := P.calls + 1 })
  | none => (none, { P with calls := P.calls + 1 })

/-- `call_underlying_frees(pool, pool.free_blocks)`: src/Omega_h_pool.cpp:8-15. -/
def Pool.releaseFree (P : Pool) : Res Pool :=
  (sysFreeAll P.out (listedBlocks P.free 64)).bind fun out =>
    .ok { P with free := fun _ => [], out := out }

/-- `allocate`: src/Omega_h_pool.cpp:34-62. -/
def Pool.allocate (m : SysMalloc) (P : Pool) (size : Nat) : Res (Nat × Pool) :=
  (poolShift size).bind fun s =>
    match (P.free s).getLast? with
    | some p =>
      .ok (p, { P with used := funSet P.used s (P.used s ++ [p]),
                       free := funSet P.free s (P.free s).dropLast })
    | none =>
      match P.sysMalloc m (2 ^ s) with
      | (some p, P1) => .ok (p, { P1 with used := funSet P1.used s (P1.used s ++ [p]) })
      | (none, P1) => P1.releaseFree.bind fun P2 =>
        match P2.sysMalloc m (2 ^ s) with
        | (some p, P3) => .ok (p, { P3 with used := funSet P3.used s (P3.used s ++ [p]) })
        | (none, _) => .fail

/-- `deallocate`: src/Omega_h_pool.cpp:64-80. -/
def Pool.deallocate (P : Pool) (p size : Nat) : Res Pool :=
  (poolShift size).bind fun s =>
    if p ∈ P.used s then
      .ok { P with free := funSet P.free s (P.free s ++ [p]),
                   used := funSet P.used s ((P.used s).erase p) }
    else .fail

/-- `Pool::~Pool`: src/Omega_h_pool.cpp:20-23. The result is what the system still has outstanding. -/
def Pool.destroy (P : Pool) : Res (List (Nat × Nat)) :=
  (sysFreeAll P.out (listedBlocks P.used 64)).bind fun out => sysFreeAll out (listedBlocks P.free 64)

/-- Calls a client makes. -/
inductive PoolOp where
  | alloc (size : Nat)
  | dealloc (p size : Nat)

/-- Running calls; beside the pool, the client keeps a list of the blocks `(pointer, requested
size)` it has been given and has not handed back. -/
def runPool (m : SysMalloc) : List PoolOp → Pool × List (Nat × Nat) → Res (Pool × List (Nat × Nat))
  | [], S => .ok S
  | .alloc size :: ops, (P, live) =>
    (P.allocate m size).bind fun (p, P') => runPool m ops (P', (p, size) :: live)
  | .dealloc p size :: ops, (P, live) =>
    (P.deallocate p size).bind fun P' => runPool m ops (P', live.eraseP (fun b => b.1 == p))

end OmegaH
