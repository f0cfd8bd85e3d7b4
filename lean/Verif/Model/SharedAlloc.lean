import Verif.Model.Res

/-! # Array handles: src/Omega_h_shared_alloc.hpp, src/Omega_h_shared_alloc.cpp

A handle is represented by its word `alloc` (a `uintptr_t`): 0, the address of an `Alloc`, or a size
shifted by three bits with flags in the low bits. The pointer `direct_ptr`, which never influences
the counting, is left out. The allocation ledger (`global_allocs`) is modelled separately in
`Verif/Model/Ledger.lean`. -/

namespace OmegaH

/-- `FREE_MASK`, `IN_PARALLEL`, `IS_IDENTITY`: src/Omega_h_shared_alloc.hpp:58-65. -/
def freeMask : Nat := 0x7
def inParallelBit : Nat := 0x1
def isIdentityBit : Nat := 0x2

/-- The test `alloc && !(alloc & FREE_MASK)`: the handle is counted. -/
def isCounted (w : Nat) : Bool := w != 0 && (w &&& freeMask) == 0

/-- `(size << 3) | IN_PARALLEL` in 64 bits. -/
def parallelWord (size : Nat) : Nat := (size <<< 3) % 2 ^ 64 ||| inParallelBit

/-- The program state: the handles (`none`: not constructed), the live `Alloc` objects as
`(address, size, use_count)`, the flag `entering_parallel`, and the addresses ever obtained from
`new Alloc` and given to `delete`. -/
structure Handles where
  vars : List (Option Nat)
  heap : List (Nat × Nat × Int)
  par : Bool
  news : List Nat
  dels : List Nat
deriving DecidableEq, Repr

/-- The `Alloc` at an address, if it is live. -/
def Handles.at? (S : Handles) (a : Nat) : Option (Nat × Int) :=
  (S.heap.find? (fun e => e.1 == a)).map Prod.snd

/-- Changing the use count of the live `Alloc` at `a`. -/
def Handles.addCount (S : Handles) (a : Nat) (d : Int) : Handles :=
  { S with heap := S.heap.map (fun e => if e.1 = a then (e.1, e.2.1, e.2.2 + d) else e) }

/-- `copy`: src/Omega_h_shared_alloc.hpp:74-88; the new word of the handle copied to. Dereferencing
an address that is not live is undefined. -/
def Handles.copyFrom (S : Handles) (w : Nat) : Res (Nat × Handles) :=
  if isCounted w then
    match S.at? w with
    | none => .ub
    | some (size, _) => if S.par then .ok (parallelWord size, S) else .ok (w, S.addCount w 1)
  else .ok (w, S)

/-- `move`: src/Omega_h_shared_alloc.hpp:90-105, without the reset of `other`. -/
def Handles.moveFrom (S : Handles) (w : Nat) : Res (Nat × Handles) :=
  if isCounted w && S.par then
    match S.at? w with
    | none => .ub
    | some (size, _) => .ok (parallelWord size, S.addCount w (-1))
  else .ok (w, S)

/-- `clear`: src/Omega_h_shared_alloc.hpp:118-126. The word itself is not reset. -/
def Handles.clear (S : Handles) (w : Nat) : Res Handles :=
  if isCounted w then
    match S.at? w with
    | none => .ub
    | some (_, n) =>
      if n - 1 = 0 then
        .ok { S with heap := S.heap.filter (fun e => e.1 != w), dels := w :: S.dels }
      else .ok (S.addCount w (-1))
  else .ok S

/-- Statements about handles. `new v size a`: construct `v` with a new allocation, which `new`
places at address `a`. -/
inductive HandleOp where
  | new (v size a : Nat)
  | empty (v : Nat)
  | copy (v w : Nat)
  | move (v w : Nat)
  | assign (v w : Nat)
  | moveAssign (v w : Nat)
  | destroy (v : Nat)
  | setPar (b : Bool)
deriving DecidableEq, Repr

/-- The word of a constructed handle; using an unconstructed one is undefined. -/
def Handles.word (S : Handles) (v : Nat) : Res Nat :=
  match S.vars[v]? with
  | some (some w) => .ok w
  | _ => .ub

/-- Constructing handle `v` with a word; it must name an unconstructed variable. -/
def Handles.construct (S : Handles) (v w : Nat) : Res Handles :=
  if S.vars[v]? = some none then .ok { S with vars := S.vars.set v (some w) } else .ub

def Handles.setVar (S : Handles) (v : Nat) (w : Option Nat) : Handles :=
  { S with vars := S.vars.set v w }

/-- One statement: src/Omega_h_shared_alloc.hpp:54, 89, 106-117 and
src/Omega_h_shared_alloc.cpp:115-125, with `use_count = 1` from
`Alloc::init` (src/Omega_h_shared_alloc.cpp:76-78). -/
def Handles.step (S : Handles) : HandleOp → Res Handles
  | .new v size a =>
    { S with heap := (a, size, 1) :: S.heap, news := a :: S.news }.construct v a
  | .empty v => S.construct v 0
  | .copy v w => (S.word w).bind fun x => (S.copyFrom x).bind fun (y, S') => S'.construct v y
  | .move v w => (S.word w).bind fun x => (S.moveFrom x).bind fun (y, S') =>
      (S'.construct v y).bind fun S'' => .ok (S''.setVar w (some 0))
  | .assign v w => (S.word v).bind fun old => (S.clear old).bind fun S1 =>
      (S1.word w).bind fun x => (S1.copyFrom x).bind fun (y, S2) => .ok (S2.setVar v (some y))
  | .moveAssign v w => (S.word v).bind fun old => (S.clear old).bind fun S1 =>
      (S1.word w).bind fun x => (S1.moveFrom x).bind fun (y, S2) =>
        .ok ((S2.setVar v (some y)).setVar w (some 0))
  | .destroy v => (S.word v).bind fun old => (S.clear old).bind fun S1 => .ok (S1.setVar v none)
  | .setPar b => .ok { S with par := b }

/-- The initial state, with room for `n` handles. -/
def Handles.init (n : Nat) : Handles := ⟨List.replicate n none, [], false, [], []⟩

/-- A sequence of statements. -/
def Handles.run : Handles → List HandleOp → Res Handles
  | S, [] => .ok S
  | S, op :: ops => (S.step op).bind fun S' => S'.run ops

/-- `size()`: src/Omega_h_shared_alloc.hpp:127-141. -/
def Handles.size (S : Handles) (w : Nat) : Res Nat :=
  if (w &&& inParallelBit) = 0 then
    match S.at? w with
    | none => .ub
    | some (size, _) => .ok size
  else .ok (w >>> 3)

/-- The word made by `SharedAlloc::identity`: src/Omega_h_shared_alloc.cpp:127-133. -/
def identityWord (size : Nat) : Nat := (size <<< 3) % 2 ^ 64 &&& isIdentityBit

/-- `maybe_identity_index`: src/Omega_h_shared_alloc.hpp:142-147, for a handle whose data is `data`
(`none`: null pointer). -/
def maybeIdentityIndex (w : Nat) (data : Option (List Int)) (i : Nat) : Res Int :=
  if w = isIdentityBit then .ok i else Res.ofOption (data.bind (fun d => d[i]?))

end OmegaH
