import Verif.Model.Res

/-! # The allocation ledger: src/Omega_h_shared_alloc.cpp:13-46, 58-113

`global_allocs` keeps a doubly linked list threaded through the live `Alloc` objects. Addresses are
positive natural numbers, 0 is the null pointer. The list nodes are the live `Alloc` objects;
dereferencing any other address is undefined behaviour. Names are left out (the records carry the
address instead), and byte counts are unbounded. -/

namespace OmegaH

/-- The fields of `Alloc` used by the ledger: src/Omega_h_shared_alloc.hpp:21-27. -/
structure LNode where
  size : Nat
  prev : Nat
  next : Nat
deriving DecidableEq, Repr

/-- `Allocs` (src/Omega_h_shared_alloc.hpp:43-49) and the live `Alloc` objects. -/
structure Ledger where
  nodes : List (Nat × LNode)
  first : Nat
  last : Nat
  total : Nat
  high : Nat
  records : List (Nat × Nat)
deriving DecidableEq, Repr

/-- `start_tracking_allocations`: src/Omega_h_shared_alloc.cpp:13-20. -/
def Ledger.init : Ledger := ⟨[], 0, 0, 0, 0, []⟩

/-- Dereferencing a pointer. -/
def Ledger.deref (L : Ledger) (a : Nat) : Res LNode :=
  Res.ofOption ((L.nodes.find? (fun e => e.1 == a)).map Prod.snd)

/-- Writing through a pointer. -/
def Ledger.modify (L : Ledger) (a : Nat) (f : LNode → LNode) : Res Ledger :=
  (L.deref a).bind fun _ =>
    .ok { L with nodes := L.nodes.map (fun e => if e.1 = a then (e.1, f e.2) else e) }

/-- The loops `for (auto a = ga->first; a; a = a->next)`: what they visit, as `(address, size)`.
`fail` stands for a loop that has not ended after `fuel` steps. -/
def Ledger.walk (L : Ledger) : Nat → Nat → Res (List (Nat × Nat))
  | _, 0 => .ok []
  | 0, _ => .fail
  | fuel + 1, a => (L.deref a).bind fun n => (L.walk fuel n.next).bind fun r => .ok ((a, n.size) :: r)

/-- What the ledger lists. -/
def Ledger.listing (L : Ledger) : Res (List (Nat × Nat)) := L.walk (L.nodes.length + 1) L.first

/-- `Alloc::init` after the storage was obtained, with tracking on, for an object at address `a`:
src/Omega_h_shared_alloc.cpp:93-112. `ga->last` is only updated when the list was empty. -/
def Ledger.alloc (L : Ledger) (a size : Nat) : Res Ledger :=
  let oldLast := L.last
  let L := { L with nodes := (a, ⟨size, oldLast, 0⟩) :: L.nodes }
  (if oldLast ≠ 0 then L.modify oldLast (fun n => { n with next := a })
   else .ok { L with first := a, last := a }).bind fun L =>
  let L := { L with total := L.total + size }
  if L.total > L.high then
    L.listing.bind fun r => .ok { L with high := L.total, records := r }
  else .ok L

/-- `Alloc::~Alloc` of the object at address `a`, with tracking on:
src/Omega_h_shared_alloc.cpp:58-74. The object itself is gone afterwards. -/
def Ledger.free (L : Ledger) (a : Nat) : Res Ledger :=
  (L.deref a).bind fun n =>
  (if n.next = 0 then .ok { L with last := n.prev }
   else L.modify n.next (fun m => { m with prev := n.prev })).bind fun L =>
  -- `next` is read again after the first write
  (L.deref a).bind fun n =>
  (if n.prev = 0 then .ok { L with first := n.next }
   else L.modify n.prev (fun m => { m with next := n.next })).bind fun L =>
  .ok { L with total := L.total - n.size, nodes := L.nodes.filter (fun e => e.1 != a) }

/-- A history of allocations (at an address) and frees. -/
inductive LedgerOp where
  | alloc (a size : Nat)
  | free (a : Nat)
deriving DecidableEq, Repr

def Ledger.step (L : Ledger) : LedgerOp → Res Ledger
  | .alloc a size => L.alloc a size
  | .free a => L.free a

def Ledger.run : Ledger → List LedgerOp → Res Ledger
  | L, [] => .ok L
  | L, op :: ops => (L.step op).bind fun L' => L'.run ops

end OmegaH
