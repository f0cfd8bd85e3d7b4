import Verif.Model.Res

/-! # The type-erased container `any`: src/Omega_h_any.hpp:67-364, 386-444

Payload values are natural numbers, payload types are `PTy`. The storage union either holds a live
object in place, a pointer, or nothing meaningful. Objects on the heap carry their type. The
counters `born` and `died` count payload objects constructed and destroyed. Exceptions thrown by
payload constructors are not modelled. -/

namespace OmegaH

/-- A payload type: `big` is `requires_allocation<T>` (src/Omega_h_any.hpp:271-280). -/
structure PTy where
  id : Nat
  big : Bool
deriving DecidableEq, Repr

/-- `storage_union` (src/Omega_h_any.hpp:183-189): no object, a pointer, or an object in place. -/
inductive AStore where
  | none
  | dynamic (p : Nat)
  | stack (t : PTy) (v : Nat)
deriving DecidableEq, Repr

/-- An `any`: vtable pointer (one per type) and storage. -/
structure AnyObj where
  vtable : Option PTy
  store : AStore
deriving DecidableEq, Repr

/-- Memory: payload objects on the heap, with constructor and destructor counts. -/
structure AMem where
  heap : List (Nat × PTy × Nat)
  born : Nat
  died : Nat
deriving DecidableEq, Repr

/-- The object a pointer points to. -/
def AMem.at? (m : AMem) (p : Nat) : Option (PTy × Nat) :=
  (m.heap.find? (fun e => e.1 == p)).map Prod.snd

/-- `new T(value)`, at the address `p` the allocator picks. -/
def AMem.alloc (m : AMem) (p : Nat) (t : PTy) (v : Nat) : AMem :=
  { m with heap := (p, t, v) :: m.heap, born := m.born + 1 }

/-- `delete` through a `T*`: undefined unless the pointer is to a live `T`. -/
def AMem.delete (m : AMem) (p : Nat) (t : PTy) : Res AMem :=
  match m.at? p with
  | some (t', _) =>
    if t' = t then .ok { m with heap := m.heap.filter (fun e => e.1 != p), died := m.died + 1 }
    else .ub
  | none => .ub

/-- `vtable->destroy`: src/Omega_h_any.hpp:223-226, 248-250. -/
def vtDestroy (t : PTy) (m : AMem) (s : AStore) : Res AMem :=
  match t.big, s with
  | true, .dynamic p => m.delete p t
  | false, .stack t' _ => if t' = t then .ok { m with died := m.died + 1 } else .ub
  | _, _ => .ub

/-- `vtable->copy` into uninitialised storage: src/Omega_h_any.hpp:228-230, 252-254. `p` is the
address `new` picks. -/
def vtCopy (t : PTy) (m : AMem) (src : AStore) (p : Nat) : Res (AMem × AStore) :=
  match t.big, src with
  | true, .dynamic q =>
    match m.at? q with
    | some (t', v) => if t' = t then .ok (m.alloc p t v, .dynamic p) else .ub
    | none => .ub
  | false, .stack t' v => if t' = t then .ok ({ m with born := m.born + 1 }, .stack t v) else .ub
  | _, _ => .ub

/-- `vtable->move` into uninitialised storage: src/Omega_h_any.hpp:232-235, 256-261. Returns the new
contents of the destination; the source holds nothing afterwards. -/
def vtMove (t : PTy) (m : AMem) (src : AStore) : Res (AMem × AStore) :=
  match t.big, src with
  | true, .dynamic q => .ok (m, .dynamic q)
  | false, .stack t' v =>
    if t' = t then .ok ({ m with born := m.born + 1, died := m.died + 1 }, .stack t v) else .ub
  | _, _ => .ub

/-- `vtable->swap` of two storages: src/Omega_h_any.hpp:237-240, 263-266. -/
def vtSwap (t : PTy) (a b : AStore) : Res (AStore × AStore) :=
  match t.big, a, b with
  | true, .dynamic p, .dynamic q => .ok (.dynamic q, .dynamic p)
  | false, .stack t1 v, .stack t2 w =>
    if t1 = t ∧ t2 = t then .ok (.stack t w, .stack t v) else .ub
  | _, _, _ => .ub

/-- `any()`: src/Omega_h_any.hpp:70. -/
def anyEmpty : AnyObj := ⟨none, .none⟩

/-- `any(ValueType&&)`: src/Omega_h_any.hpp:97-105, 341-363. -/
def anyOf (m : AMem) (t : PTy) (v p : Nat) : AMem × AnyObj :=
  if t.big then (m.alloc p t v, ⟨some t, .dynamic p⟩)
  else ({ m with born := m.born + 1 }, ⟨some t, .stack t v⟩)

/-- `any(const any&)`: src/Omega_h_any.hpp:73-77. -/
def anyCopy (m : AMem) (rhs : AnyObj) (p : Nat) : Res (AMem × AnyObj) :=
  match rhs.vtable with
  | none => .ok (m, ⟨none, .none⟩)
  | some t => (vtCopy t m rhs.store p).bind fun (m, s) => .ok (m, ⟨some t, s⟩)

/-- `any(any&&)`: src/Omega_h_any.hpp:81-86. Returns the new object and the source afterwards. -/
def anyMove (m : AMem) (rhs : AnyObj) : Res (AMem × AnyObj × AnyObj) :=
  match rhs.vtable with
  | none => .ok (m, ⟨none, .none⟩, rhs)
  | some t => (vtMove t m rhs.store).bind fun (m, s) => .ok (m, ⟨some t, s⟩, ⟨none, .none⟩)

/-- `clear` and the destructor: src/Omega_h_any.hpp:89, 141-146. -/
def anyClear (m : AMem) (a : AnyObj) : Res (AMem × AnyObj) :=
  match a.vtable with
  | none => .ok (m, a)
  | some t => (vtDestroy t m a.store).bind fun m => .ok (m, ⟨none, .none⟩)

/-- `dest.vtable = src.vtable; if (src.vtable != nullptr) src.vtable->move(src.storage, dest.storage)`,
twice in `swap`: src/Omega_h_any.hpp:162-166, 169-171. -/
def anyTake (m : AMem) (src : AnyObj) (dest : AStore) : Res (AMem × AnyObj) :=
  match src.vtable with
  | some t => (vtMove t m src.store).bind fun (m, s) => .ok (m, ⟨some t, s⟩)
  | none => .ok (m, ⟨none, dest⟩)

/-- `swap` of two different objects: src/Omega_h_any.hpp:158-180. Returns (`*this`, `rhs`). -/
def anySwap (m : AMem) (this rhs : AnyObj) : Res (AMem × AnyObj × AnyObj) :=
  if this.vtable ≠ rhs.vtable then
    (anyMove m rhs).bind fun (m, tmp, rhs) =>
    -- move from *this to rhs
    (anyTake m this rhs.store).bind fun (m, rhs) =>
    -- move from tmp to *this, whose storage holds nothing any more
    (anyTake m tmp .none).bind fun (m, this) =>
    -- tmp.vtable = nullptr; then the destructor of tmp
    (anyClear m { tmp with vtable := none }).bind fun (m, _) => .ok (m, this, rhs)
  else
    match this.vtable with
    | some t => (vtSwap t this.store rhs.store).bind fun (a, b) =>
        .ok (m, { this with store := a }, { rhs with store := b })
    | none => .ok (m, this, rhs)

/-- `swap` of an object with itself: the types agree, so the storages are swapped with themselves
(src/Omega_h_any.hpp:175-179), assuming that swapping a payload with itself leaves it alone. -/
def anySwapSelf (m : AMem) (this : AnyObj) : Res (AMem × AnyObj) :=
  match this.vtable with
  | some t => (vtSwap t this.store this.store).bind fun (a, _) => .ok (m, { this with store := a })
  | none => .ok (m, this)

/-- `any_cast<T>(const any*)`: src/Omega_h_any.hpp:428-443, 322-335. `none` is the null pointer, the
value is what the returned pointer points to. -/
def anyCast (m : AMem) (a : AnyObj) (t : PTy) : Res (Option Nat) :=
  if a.vtable = some t then
    match t.big, a.store with
    | true, .dynamic p =>
      match m.at? p with
      | some (t', v) => if t' = t then .ok (some v) else .ub
      | none => .ub
    | false, .stack t' v => if t' = t then .ok (some v) else .ub
    | _, _ => .ub
  else .ok none

/-- A program state: memory and named `any` variables (`none`: not constructed). -/
structure AnyState where
  mem : AMem
  vars : List (Option AnyObj)
deriving DecidableEq, Repr

/-- Statements. `p` is the address the allocator picks, if one is needed. -/
inductive AnyOp where
  | empty (v : Nat)
  | value (v : Nat) (t : PTy) (x p : Nat)
  | copy (v w p : Nat)
  | move (v w : Nat)
  | assign (v w p : Nat)
  | moveAssign (v w : Nat)
  | assignValue (v : Nat) (t : PTy) (x p : Nat)
  | clear (v : Nat)
  | swap (v w : Nat)
  | destroy (v : Nat)
deriving DecidableEq, Repr

/-- A variable that must be constructed. -/
def AnyState.get (S : AnyState) (v : Nat) : Res AnyObj :=
  match S.vars[v]? with
  | some (some a) => .ok a
  | _ => .ub

def AnyState.set (S : AnyState) (v : Nat) (a : AnyObj) : AnyState :=
  { S with vars := S.vars.set v (some a) }

/-- Construct a variable that must not be constructed. -/
def AnyState.construct (S : AnyState) (v : Nat) (m : AMem) (a : AnyObj) : Res AnyState :=
  if S.vars[v]? = some none then .ok { mem := m, vars := S.vars.set v (some a) } else .ub

/-- `tmp.swap(*this)` followed by the destructor of `tmp`, the common tail of the assignments:
src/Omega_h_any.hpp:109-112, 118-121, 131-138. -/
def AnyState.swapIn (S : AnyState) (v : Nat) (m : AMem) (tmp : AnyObj) : Res AnyState :=
  (S.get v).bind fun a =>
  (anySwap m tmp a).bind fun (m, tmp, a) =>
  (anyClear m tmp).bind fun (m, _) => .ok { mem := m, vars := S.vars.set v (some a) }

def AnyState.step (S : AnyState) : AnyOp → Res AnyState
  | .empty v => S.construct v S.mem anyEmpty
  | .value v t x p => S.construct v (anyOf S.mem t x p).1 (anyOf S.mem t x p).2
  | .copy v w p => (S.get w).bind fun b => (anyCopy S.mem b p).bind fun (m, a) => S.construct v m a
  | .move v w => (S.get w).bind fun b => (anyMove S.mem b).bind fun (m, a, b) =>
      (S.construct v m a).bind fun S => .ok (S.set w b)
  | .assign v w p => (S.get w).bind fun b => (anyCopy S.mem b p).bind fun (m, tmp) =>
      S.swapIn v m tmp
  | .moveAssign v w => (S.get w).bind fun b => (anyMove S.mem b).bind fun (m, tmp, b) =>
      (S.set w b).swapIn v m tmp
  | .assignValue v t x p => S.swapIn v (anyOf S.mem t x p).1 (anyOf S.mem t x p).2
  | .clear v => (S.get v).bind fun a => (anyClear S.mem a).bind fun (m, a) =>
      .ok { mem := m, vars := S.vars.set v (some a) }
  | .swap v w =>
    if v = w then (S.get v).bind fun a => (anySwapSelf S.mem a).bind fun (m, a) =>
      .ok { mem := m, vars := S.vars.set v (some a) }
    else (S.get v).bind fun a => (S.get w).bind fun b => (anySwap S.mem a b).bind fun (m, a, b) =>
      .ok { mem := m, vars := (S.vars.set v (some a)).set w (some b) }
  | .destroy v => (S.get v).bind fun a => (anyClear S.mem a).bind fun (m, _) =>
      .ok { mem := m, vars := S.vars.set v none }

def AnyState.run : AnyState → List AnyOp → Res AnyState
  | S, [] => .ok S
  | S, op :: ops => (S.step op).bind fun S' => S'.run ops

/-- `n` variables, none constructed, nothing on the heap. -/
def AnyState.init (n : Nat) : AnyState := ⟨⟨[], 0, 0⟩, List.replicate n none⟩

end OmegaH
