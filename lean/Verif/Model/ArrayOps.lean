import Verif.Model.Map
import Verif.Model.Linpart
import Verif.Model.Reduce

/-! # Array helpers: src/Omega_h_array_ops.cpp

Elements are integers of unbounded size (`Real` instantiations use the same kernels with the
operation on doubles; the generic kernels `mapEach`/`zipEach`/`rowEach` below are stated for every
element type). `multiply_each` is `multiplyEach` in Model/Map.lean. A byte result `(x < y)` is 0 or 1. -/

namespace OmegaH

/-- A C++ `bool` stored in an `I8`. -/
def b2i (b : Bool) : Int := if b then 1 else 0

/-- Kernel `c[i] = f(a[i])` over a new array; e.g. src/Omega_h_array_ops.cpp:120-126. -/
def mapEach {α β : Type} (s : Sched) (f : α → Option β) (a : List α) : Option (List β) :=
  (parScatter s a.length (fun i => (a[i]?).bind (fun x => (f x).map (fun y => [(i, y)])))
    (Mem.alloc a.length)).bind Mem.toArray?

/-- Kernel `c[i] = f(a[i], b[i])` after the size check; e.g. src/Omega_h_array_ops.cpp:180-187. -/
def zipEach {α β γ : Type} (s : Sched) (f : α → β → Option γ) (a : List α) (b : List β) :
    Option (List γ) :=
  if a.length = b.length then
    (parScatter s a.length
      (fun i => (a[i]?).bind (fun x => (b[i]?).bind (fun y => (f x y).map (fun z => [(i, z)]))))
      (Mem.alloc a.length)).bind Mem.toArray?
  else none

/-- `divide_no_remainder`: src/Omega_h_scalar.hpp:279-284 (array sizes). -/
def divideNoRemainder (a b : Nat) : Option Nat :=
  if b = 0 then none else if a % b = 0 then some (a / b) else none

/-- Kernel `for j: c[i*width+j] = f(a[i*width+j], b[i])`, one iteration per entry of `b`;
src/Omega_h_array_ops.cpp:110-116, 131-137. -/
def rowEach {α β γ : Type} (s : Sched) (f : α → β → Option γ) (a : List α) (b : List β)
    (width : Nat) : Option (List γ) :=
  (parScatter s b.length
    (fun i => (b[i]?).bind (fun y => (List.range width).mapM (fun j =>
      (a[i * width + j]?).bind (fun x => (f x y).map (fun z => (i * width + j, z))))))
    (Mem.alloc a.length)).bind Mem.toArray?

/-- `operator==` on arrays: src/Omega_h_array_ops.cpp:11-20. -/
def arraysEqual (t : Team) (a b : List Int) : Option Bool :=
  if a.length = b.length then
    transformReduce t and true true
      (fun i => (a[i]?).bind (fun x => (b[i]?).map (fun y => decide (x = y)))) a.length
  else none

/-- `get_sum`: src/Omega_h_array_ops.cpp:22-27. -/
def arraySum (t : Team) (a : List Int) : Option Int :=
  transformReduce t (· + ·) 0 0 (fun i => a[i]?) a.length

/-- `get_min`: src/Omega_h_array_ops.cpp:34-45; `hi` is the largest value of the type. -/
def arrayMin (t : Team) (hi : Int) (a : List Int) : Option Int :=
  transformReduce t (fun x y => if y < x then y else x) hi hi (fun i => a[i]?) a.length

/-- `get_max`: src/Omega_h_array_ops.cpp:47-58; `lo` is the smallest value of the type. -/
def arrayMax (t : Team) (lo : Int) (a : List Int) : Option Int :=
  transformReduce t (fun x y => if x < y then y else x) lo lo (fun i => a[i]?) a.length

/-- `multiply_each_by`: src/Omega_h_array_ops.cpp:120-126. -/
def multiplyEachBy (s : Sched) (a : List Int) (b : Int) := mapEach s (fun x => some (x * b)) a

/-- `divide_each`: src/Omega_h_array_ops.cpp:128-139 (integers: truncating, undefined on zero). -/
def divideEach (s : Sched) (a b : List Int) : Option (List Int) :=
  (divideNoRemainder a.length b.length).bind (fun width => rowEach s cdiv a b width)

/-- `divide_each_maybe_zero`: src/Omega_h_array_ops.cpp:141-162, with `q` standing for the division
of the element type. -/
def divideEachMaybeZero (s : Sched) (q : Int → Int → Int) (a b : List Int) : Option (List Int) :=
  if b.length = 0 then (if a.length = 0 then some a else none)
  else (divideNoRemainder a.length b.length).bind (fun width =>
    rowEach s (fun x y => if y ≠ 0 then some (q x y) else if x = 0 then some 0 else none) a b width)

/-- `divide_each_by`: src/Omega_h_array_ops.cpp:172-178. -/
def divideEachBy (s : Sched) (a : List Int) (b : Int) := mapEach s (fun x => cdiv x b) a
/-- `add_each`: src/Omega_h_array_ops.cpp:180-187. -/
def addEach (s : Sched) (a b : List Int) := zipEach s (fun x y => some (x + y)) a b
/-- `subtract_each`: src/Omega_h_array_ops.cpp:189-196. -/
def subtractEach (s : Sched) (a b : List Int) := zipEach s (fun x y => some (x - y)) a b
/-- `add_to_each`: src/Omega_h_array_ops.cpp:198-204. -/
def addToEach (s : Sched) (a : List Int) (b : Int) := mapEach s (fun x => some (x + b)) a
/-- `subtract_from_each`: src/Omega_h_array_ops.cpp:206-212. -/
def subtractFromEach (s : Sched) (a : List Int) (b : Int) := mapEach s (fun x => some (x - b)) a
/-- `each_geq_to`: src/Omega_h_array_ops.cpp:214-220. -/
def eachGeqTo (s : Sched) (a : List Int) (b : Int) := mapEach s (fun x => some (b2i (x ≥ b))) a
/-- `each_leq_to`: src/Omega_h_array_ops.cpp:222-228. -/
def eachLeqTo (s : Sched) (a : List Int) (b : Int) := mapEach s (fun x => some (b2i (x ≤ b))) a
/-- `each_gt`: src/Omega_h_array_ops.cpp:230-236. -/
def eachGt (s : Sched) (a : List Int) (b : Int) := mapEach s (fun x => some (b2i (x > b))) a
/-- `each_lt`: src/Omega_h_array_ops.cpp:238-244. -/
def eachLt (s : Sched) (a : List Int) (b : Int) := mapEach s (fun x => some (b2i (x < b))) a
/-- `gt_each`: src/Omega_h_array_ops.cpp:246-253. -/
def gtEach (s : Sched) (a b : List Int) := zipEach s (fun x y => some (b2i (x > y))) a b
/-- `lt_each`: src/Omega_h_array_ops.cpp:255-262. -/
def ltEach (s : Sched) (a b : List Int) := zipEach s (fun x y => some (b2i (x < y))) a b
/-- `eq_each`: src/Omega_h_array_ops.cpp:264-271. -/
def eqEach (s : Sched) (a b : List Int) := zipEach s (fun x y => some (b2i (x = y))) a b
/-- `neq_each`: src/Omega_h_array_ops.cpp:273-280. -/
def neqEach (s : Sched) (a b : List Int) := zipEach s (fun x y => some (b2i (x ≠ y))) a b
/-- `geq_each`: src/Omega_h_array_ops.cpp:282-289. -/
def geqEach (s : Sched) (a b : List Int) := zipEach s (fun x y => some (b2i (x ≥ y))) a b
/-- `min_each` with `min2`: src/Omega_h_array_ops.cpp:291-298, src/Omega_h_scalar.hpp:111-114. -/
def minEach (s : Sched) (a b : List Int) := zipEach s (fun x y => some (if y < x then y else x)) a b
/-- `max_each` with `max2`: src/Omega_h_array_ops.cpp:300-307, src/Omega_h_scalar.hpp:106-109. -/
def maxEach (s : Sched) (a b : List Int) := zipEach s (fun x y => some (if x < y then y else x)) a b
/-- `each_max_with`: src/Omega_h_array_ops.cpp:319-325. -/
def eachMaxWith (s : Sched) (a : List Int) (b : Int) :=
  mapEach s (fun x => some (if x < b then b else x)) a
/-- `each_neq_to`: src/Omega_h_array_ops.cpp:327-333. -/
def eachNeqTo (s : Sched) (a : List Int) (b : Int) := mapEach s (fun x => some (b2i (x ≠ b))) a
/-- `each_eq`: src/Omega_h_array_ops.cpp:335-342. -/
def eachEq (s : Sched) (a b : List Int) := zipEach s (fun x y => some (b2i (x = y))) a b
/-- `each_eq_to`: src/Omega_h_array_ops.cpp:344-350. -/
def eachEqTo (s : Sched) (a : List Int) (b : Int) := mapEach s (fun x => some (b2i (x = b))) a
/-- `land_each`: src/Omega_h_array_ops.cpp:352-358. -/
def landEach (s : Sched) (a b : List Int) :=
  zipEach s (fun x y => some (b2i (decide (x ≠ 0) && decide (y ≠ 0)))) a b
/-- `lor_each`: src/Omega_h_array_ops.cpp:360-366. -/
def lorEach (s : Sched) (a b : List Int) :=
  zipEach s (fun x y => some (b2i (decide (x ≠ 0) || decide (y ≠ 0)))) a b
/-- `bit_or_each`: src/Omega_h_array_ops.cpp:368-374, on 8-bit patterns. -/
def bitOrEach (s : Sched) (a b : List (BitVec 8)) := zipEach s (fun x y => some (x ||| y)) a b
/-- `bit_neg_each`: src/Omega_h_array_ops.cpp:376-381, on 8-bit patterns. -/
def bitNegEach (s : Sched) (a : List (BitVec 8)) := mapEach s (fun x => some (~~~ x)) a

/-- `ternary_each`: src/Omega_h_array_ops.cpp:309-317. -/
def ternaryEach {α : Type} (s : Sched) (cond : List Int) (a b : List α) : Option (List α) :=
  if a.length = b.length then
    (divideNoRemainder a.length cond.length).bind (fun width =>
      (parScatter s a.length
        (fun i => (cond[i / width]?).bind (fun c =>
          (if c ≠ 0 then a[i]? else b[i]?).map (fun v => [(i, v)])))
        (Mem.alloc a.length)).bind Mem.toArray?)
  else none

/-- `get_component`: src/Omega_h_array_ops.cpp:390-396. -/
def getComponent {α : Type} (s : Sched) (a : List α) (ncomps comp : Nat) : Option (List α) :=
  (divideNoRemainder a.length ncomps).bind (fun n =>
    (parScatter s n (fun i => (a[i * ncomps + comp]?).map (fun v => [(i, v)]))
      (Mem.alloc n)).bind Mem.toArray?)

/-- `set_component`: src/Omega_h_array_ops.cpp:398-402. The destination is returned. -/
def setComponent {α : Type} (s : Sched) (out : Mem α) (a : List α) (ncomps comp : Nat) :
    Option (Mem α) :=
  parScatter s a.length (fun i => (a[i]?).map (fun v => [(i * ncomps + comp, v)])) out

/-- `find_last`: src/Omega_h_array_ops.cpp:404-417. The OpenMP `max` reduction has the smallest `int`
as its identity. -/
def findLast (t : Team) (a : List Int) (value : Int) : Option Int :=
  transformReduce t (fun x y => if x < y then y else x) (-2 ^ 31) (-1)
    (fun i => (a[i]?).map (fun x => if x = value then (i : Int) else -1)) a.length

/-- `is_sorted`: src/Omega_h_array_ops.cpp:419-428. -/
def isSorted (t : Team) (a : List Int) : Option Bool :=
  if a.length < 2 then some true
  else transformReduce t and true true
    (fun i => (a[i]?).bind (fun x => (a[i + 1]?).map (fun y => decide (x ≤ y)))) (a.length - 1)

/-- The loop over the arrays in `interleave`: array number `i` goes to the cells `j*narrays+i`. -/
def interleaveLoop {α : Type} (s : Sched) (narrays : Nat) : Nat → List (List α) → Mem α →
    Option (Mem α)
  | _, [], m => some m
  | i, a :: as, m =>
    (parScatter s a.length (fun j => (a[j]?).map (fun v => [(j * narrays + i, v)])) m).bind
      (fun m' => interleaveLoop s narrays (i + 1) as m')

/-- `interleave`: src/Omega_h_array_ops.cpp:430-444. -/
def interleave {α : Type} (s : Sched) (arrays : List (List α)) : Option (List α) :=
  match arrays with
  | [] => some []
  | a :: as =>
    if (a :: as).all (fun b => b.length == a.length) then
      (interleaveLoop s (a :: as).length 0 (a :: as)
        (Mem.alloc ((a :: as).length * a.length))).bind Mem.toArray?
    else none

/-- The offsets computed by `coalesce`: src/Omega_h_array_ops.cpp:449-454. The loop adds the size of
array `i` — not `i-1` — for `i = 1 … n`, so the last iteration reads `arrays[n]`. -/
def coalesceOffsets {α : Type} (arrays : List (List α)) : Option (List Nat) :=
  (List.range arrays.length).foldl
    (fun acc i => acc.bind (fun o => (arrays[i + 1]?).bind (fun a =>
      (o[i]?).map (fun prev => o ++ [prev + a.length])))) (some [0])

/-- The copying loop of `coalesce`: src/Omega_h_array_ops.cpp:457-462. -/
def coalesceLoop {α : Type} (s : Sched) (offsets : List Nat) : Nat → List (List α) → Mem α →
    Option (Mem α)
  | _, [], m => some m
  | i, a :: as, m =>
    (offsets[i]?).bind (fun o =>
      (parScatter s a.length (fun j => (a[j]?).map (fun v => [(o + j, v)])) m).bind
        (fun m' => coalesceLoop s offsets (i + 1) as m'))

/-- `coalesce`: src/Omega_h_array_ops.cpp:446-464. -/
def coalesce {α : Type} (s : Sched) (arrays : List (List α)) : Option (List α) :=
  if arrays.isEmpty then some []
  else (coalesceOffsets arrays).bind (fun offsets =>
    (offsets[arrays.length]?).bind (fun total =>
      (coalesceLoop s offsets 0 arrays (Mem.alloc total)).bind Mem.toArray?))

end OmegaH
