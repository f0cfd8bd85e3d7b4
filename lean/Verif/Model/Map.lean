import Verif.Model.Scan

/-! # Index maps and fans: src/Omega_h_map.cpp

Index arrays (`LOs`) are lists of naturals where the code never stores a negative entry, and lists
of integers where `-1` is used as a marker.  Every parallel loop takes a schedule.  A failed
`OMEGA_H_CHECK`, an access out of range and the use of an uninitialised cell give `none`. -/

namespace OmegaH

/-- The writes `dst[a*w+j] = src[b*w+j]`, `j < w`: the inner loop shared by the copying kernels. -/
def copyRow {α : Type} (src : List α) (w b a : Nat) : Option (List (Nat × α)) :=
  (List.range w).mapM (fun j => (src[b * w + j]?).map (fun v => (a * w + j, v)))

/-- `map_into`: src/Omega_h_map.cpp:25-37. The destination is returned. -/
def mapInto {α : Type} (s : Sched) (aData : List α) (a2b : List Nat) (bData : Mem α) (w : Nat) :
    Option (Mem α) :=
  if aData.length = a2b.length * w then
    parScatter s a2b.length (fun a => (a2b[a]?).bind (fun b => copyRow aData w a b)) bData
  else none

/-- `map_value_into`: src/Omega_h_map.cpp:39-44. -/
def mapValueInto {α : Type} (s : Sched) (v : α) (a2b : List Nat) (bData : Mem α) :
    Option (Mem α) :=
  parScatter s a2b.length (fun a => (a2b[a]?).map (fun b => [(b, v)])) bData

/-- `map_into_range`: src/Omega_h_map.cpp:46-58 (`begin ≤ end`; the C++ check would accept a negative
`na` only together with a negative array size, which does not exist). -/
def mapIntoRange {α : Type} (s : Sched) (aData : List α) (b e : Nat) (bData : Mem α) (w : Nat) :
    Option (Mem α) :=
  if b ≤ e ∧ aData.length = (e - b) * w then
    parScatter s (e - b) (fun a => copyRow aData w a (b + a)) bData
  else none

/-- `map_onto`: src/Omega_h_map.cpp:66-72. -/
def mapOnto {α : Type} (s : Sched) (aData : List α) (a2b : List Nat) (nb : Nat) (init : α)
    (w : Nat) : Option (List α) :=
  if aData.length ≤ nb * w then
    (mapInto s aData a2b (Mem.filled (nb * w) init) w).bind Mem.toArray?
  else none

/-- `unmap`: src/Omega_h_map.cpp:74-87. -/
def unmap {α : Type} (s : Sched) (a2b : List Nat) (bData : List α) (w : Nat) : Option (List α) :=
  (parScatter s a2b.length (fun a => (a2b[a]?).bind (fun b => copyRow bData w b a))
    (Mem.alloc (a2b.length * w))).bind Mem.toArray?

/-- `unmap_range`: src/Omega_h_map.cpp:89-102. -/
def unmapRange {α : Type} (s : Sched) (b e : Nat) (bData : List α) (w : Nat) : Option (List α) :=
  if b ≤ e then
    (parScatter s (e - b) (fun a => copyRow bData w (a + b) a)
      (Mem.alloc ((e - b) * w))).bind Mem.toArray?
  else none

/-- The members `a2b[a] … a2b[a+1]-1` of fan `a`, in loop order (none if the offsets decrease, as
for the C++ loop `for (b = a2b[a]; b < a2b[a+1]; ++b)`). -/
def fanMembers (a2b : List Nat) (a : Nat) : Option (List Nat) :=
  match a2b[a]?, a2b[a + 1]? with
  | some lo, some hi => some (List.range' lo (hi - lo))
  | _, _ => none

/-- `expand_into`: src/Omega_h_map.cpp:104-119. An empty offset array has `na = -1` and fails the
size check unless `width` is 0. -/
def expandInto {α : Type} (s : Sched) (aData : List α) (a2b : List Nat) (bData : Mem α) (w : Nat) :
    Option (Mem α) :=
  if a2b ≠ [] ∧ aData.length = (a2b.length - 1) * w then
    parScatter s (a2b.length - 1)
      (fun a => (fanMembers a2b a).bind (fun bs =>
        (bs.mapM (fun b => copyRow aData w a b)).map List.flatten)) bData
  else none

/-- `expand`: src/Omega_h_map.cpp:121-128. -/
def expand {α : Type} (s : Sched) (aData : List α) (a2b : List Nat) (w : Nat) :
    Option (List α) :=
  (a2b.getLast?).bind (fun nb =>
    (expandInto s aData a2b (Mem.alloc (nb * w)) w).bind Mem.toArray?)

/-- `permute`: src/Omega_h_map.cpp:130-137. -/
def permute {α : Type} (s : Sched) (aData : List α) (a2b : List Nat) (w : Nat) :
    Option (List α) :=
  (mapInto s aData a2b (Mem.alloc (a2b.length * w)) w).bind Mem.toArray?

/-- `get_degrees`: src/Omega_h_map.cpp:263-268. Degrees may be negative if the offsets decrease. -/
def getDegrees (s : Sched) (offsets : List Nat) : Option (List Int) :=
  if offsets = [] then none
  else
    (parScatter s (offsets.length - 1)
      (fun i => match offsets[i]?, offsets[i + 1]? with
        | some lo, some hi => some [(i, (hi : Int) - lo)]
        | _, _ => none)
      (Mem.alloc (offsets.length - 1))).bind Mem.toArray?

/-- `multiply_each` for `LO`: src/Omega_h_array_ops.cpp:103-118. -/
def multiplyEach (s : Sched) (a b : List Int) : Option (List Int) :=
  if b.length = 0 then (if a.length = 0 then some [] else none)
  else if a.length % b.length = 0 then
    let w := a.length / b.length
    (parScatter s b.length (fun i => (b[i]?).bind (fun y =>
        (List.range w).mapM (fun j => (a[i * w + j]?).map (fun x => (i * w + j, x * y)))))
      (Mem.alloc a.length)).bind Mem.toArray?
  else none

/-- `multiply_fans`: src/Omega_h_map.cpp:139-145. -/
def multiplyFans (s : Sched) (a2b a2c : List Nat) : Option (List Int) := do
  let bd ← getDegrees s a2b
  let cd ← getDegrees s a2c
  let d ← multiplyEach s bd cd
  pure (offsetScan d)

/-- `compound_maps`: src/Omega_h_map.cpp:147-158. -/
def compoundMaps {α : Type} (s : Sched) (a2b : List Nat) (b2c : List α) : Option (List α) :=
  (parScatter s a2b.length
    (fun a => (a2b[a]?).bind (fun b => (b2c[b]?).map (fun c => [(a, c)])))
    (Mem.alloc a2b.length)).bind Mem.toArray?

/-- `invert_permutation`: src/Omega_h_map.cpp:160-165. -/
def invertPermutation (s : Sched) (a2b : List Nat) : Option (List Nat) :=
  (parScatter s a2b.length (fun a => (a2b[a]?).map (fun b => [(b, a)]))
    (Mem.alloc a2b.length)).bind Mem.toArray?

/-- `invert_marks`: src/Omega_h_map.cpp:167-172. -/
def invertMarks (s : Sched) (marks : List Int) : Option (List Int) :=
  (parScatter s marks.length
    (fun i => (marks[i]?).map (fun m => [(i, if m = 0 then 1 else 0)]))
    (Mem.alloc marks.length)).bind Mem.toArray?

/-- The kernel of `collect_marked`: `if (marks[i]) marked[offsets[i]] = i`.
src/Omega_h_map.cpp:180-182. A negative index is undefined behaviour. -/
def collectKernel (marks offsets : List Int) (i : Nat) : Option (List (Nat × Nat)) :=
  match marks[i]?, offsets[i]? with
  | some m, some o =>
    if m = 0 then some [] else if 0 ≤ o then some [(o.toNat, i)] else none
  | _, _ => none

/-- `collect_marked`: src/Omega_h_map.cpp:174-185. -/
def collectMarked (s : Sched) (marks : List Int) : Option (List Nat) :=
  let offsets := offsetScan marks
  match offsets.getLast? with
  | some nmarked =>
    if 0 ≤ nmarked then
      (parScatter s marks.length (collectKernel marks offsets)
        (Mem.alloc nmarked.toNat)).bind Mem.toArray?
    else none
  | none => none

/-- `mark_image`: src/Omega_h_map.cpp:187-196. -/
def markImage (s : Sched) (a2b : List Nat) (nb : Nat) : Option (List Int) :=
  (parScatter s a2b.length (fun a => (a2b[a]?).map (fun b => [(b, 1)]))
    (Mem.filled nb 0)).bind Mem.toArray?

/-- `inject_map`: src/Omega_h_map.cpp:198-201. -/
def injectMap (s : Sched) (a2b : List Nat) (b2a : Mem Int) : Option (Mem Int) :=
  parScatter s a2b.length (fun a => (a2b[a]?).map (fun b => [(b, (a : Int))])) b2a

/-- `invert_injective_map`: src/Omega_h_map.cpp:203-207. -/
def invertInjectiveMap (s : Sched) (a2b : List Nat) (nb : Nat) : Option (List Int) :=
  (injectMap s a2b (Mem.filled nb (-1))).bind Mem.toArray?

/-- Kernel of `invert_funnel`: src/Omega_h_map.cpp:213-219. -/
def funnelKernel (ab2a : List Nat) (ab : Nat) : Option (List (Nat × Int)) :=
  match ab2a[ab]?, ab2a[ab + 1]? with
  | some aEnd, some aStart => if aEnd ≠ aStart then some [(aEnd + 1, (ab : Int) + 1)] else some []
  | _, _ => none

/-- `invert_funnel`: src/Omega_h_map.cpp:209-227. -/
def invertFunnel (s : Sched) (ab2a : List Nat) (na : Nat) : Option (List Int) := do
  let m0 ← (Mem.filled (na + 1) (-1 : Int)).write 0 0
  let m1 ← parScatter s (ab2a.length - 1) (funnelKernel ab2a) m0
  let m2 ← match ab2a.getLast? with
    | some aEnd => m1.write (aEnd + 1) ab2a.length
    | none => some m1
  let a2ab ← m2.toArray?
  pure (fillRight a2ab)

/-- Kernel of `invert_fan`: src/Omega_h_map.cpp:274-276. -/
def invertFanKernel (a2b : List Nat) (a : Nat) : Option (List (Nat × Int)) :=
  match a2b[a]?, a2b[a + 1]? with
  | some lo, some hi => if lo ≠ hi then some [(lo, (a : Int))] else some []
  | _, _ => none

/-- `invert_fan`: src/Omega_h_map.cpp:270-280. -/
def invertFan (s : Sched) (a2b : List Nat) : Option (List Int) := do
  let nb ← a2b.getLast?
  let m ← parScatter s (a2b.length - 1) (invertFanKernel a2b) (Mem.filled nb (-1))
  let b2a ← m.toArray?
  pure (fillRight b2a)

/-- `mark_fan_preimage`: src/Omega_h_map.cpp:282-288. -/
def markFanPreimage (s : Sched) (a2b : List Nat) : Option (List Int) :=
  if 1 ≤ a2b.length then
    (parScatter s (a2b.length - 1)
      (fun i => match a2b[i]?, a2b[i + 1]? with
        | some lo, some hi => some [(i, if lo ≠ hi then (1 : Int) else 0)]
        | _, _ => none)
      (Mem.alloc (a2b.length - 1))).bind Mem.toArray?
  else none

/-- A reduction functor: `init`, `join`, the conversion of an input to the accumulation type and
the final `static_cast` back. Models src/Omega_h_functors.hpp:17-52. -/
structure Functor (T VT : Type) where
  init : VT
  join : VT → VT → VT
  up : T → VT
  down : VT → T

/-- One output entry of `fan_reduce`: src/Omega_h_map.cpp:301-307. -/
def fanReduceEntry {T VT : Type} (f : Functor T VT) (bData : List T) (w : Nat) (bs : List Nat)
    (j : Nat) : Option T :=
  (bs.mapM (fun b => bData[b * w + j]?)).map
    (fun xs => f.down (xs.foldl (fun res x => f.join res (f.up x)) f.init))

/-- `fan_reduce_tmpl`: src/Omega_h_map.cpp:290-312. -/
def fanReduce {T VT : Type} (s : Sched) (f : Functor T VT) (a2b : List Nat) (bData : List T)
    (w : Nat) : Option (List T) :=
  match a2b.getLast? with
  | some nb =>
    if nb * w = bData.length then
      (parScatter s (a2b.length - 1)
        (fun a => (fanMembers a2b a).bind (fun bs =>
          (List.range w).mapM (fun j => (fanReduceEntry f bData w bs j).map
            (fun v => (a * w + j, v)))))
        (Mem.alloc ((a2b.length - 1) * w))).bind Mem.toArray?
    else none
  | none => none

/-- Wrapping conversion of an integer to an `nbits`-bit signed integer (`static_cast`). -/
def wrapSigned (nbits : Nat) (x : Int) : Int := x.bmod (2 ^ nbits)

/-- `SumFunctor<T>` for a signed `T` of `nbits` bits: src/Omega_h_functors.hpp:43-52. The accumulation
type (`promoted_t<T>`: `int` for 8 bits, `T` otherwise) is modelled without overflow. -/
def sumFunctor (nbits : Nat) : Functor Int Int := ⟨0, (· + ·), id, wrapSigned nbits⟩

/-- `MaxFunctor<T>` for a signed `T` of `nbits` bits: src/Omega_h_functors.hpp:17-28. -/
def maxFunctor (nbits : Nat) : Functor Int Int := ⟨-2 ^ (nbits - 1), max, id, wrapSigned nbits⟩

/-- `MinFunctor<T>` for a signed `T` of `nbits` bits: src/Omega_h_functors.hpp:30-41. -/
def minFunctor (nbits : Nat) : Functor Int Int := ⟨2 ^ (nbits - 1) - 1, min, id, wrapSigned nbits⟩

end OmegaH
