import Verif.Model.Collapse
import Verif.Model.ArrayOps
import Mathlib.Algebra.Field.Basic
import Mathlib.Algebra.Order.Field.Basic
/-!
# Statistics of a distributed mesh: src/Omega_h_histogram.cpp, src/Omega_h_mark.cpp, src/Omega_h_adapt.cpp

A value that every rank has is a list over the ranks; `owned` is absent if entities of the dimension in question cannot be shared.
Real numbers are exact.
-/
namespace OmegaH

/-- `get_sum(CommPtr, Read<I8>)`: src/Omega_h_array_ops.cpp:22-32. The sums are made in `promoted_t<I8>`, 32 bits wide
(src/Omega_h_scalar.hpp:21-27); signed overflow is `none`. The marks are 0 or 1, so that no part of the sum is larger than the whole. -/
def sumMarks (t : Nat → Team) (rt : RankTree) (marks : List (List Int)) : Option Int :=
  (onRanks marks (fun r m => arraySum (t r) m)).bind (fun sums =>
  (allreduce rt (· + ·) sums).bind (fun total => if total < 2 ^ 31 then some total else none))

/-- `count_owned_marks`: src/Omega_h_mark.cpp:200-205. -/
def countOwnedMarks (s : Nat → Sched) (t : Nat → Team) (rt : RankTree) (owned : Option (List (List Int))) (marks : List (List Int)) :
    Option Int :=
  (match owned with
    | none => some marks
    | some owned => onRanks marks (fun r m => (owned[r]?).bind (landEach (s r) m))).bind (sumMarks t rt)

/-- `Mesh::nglobal_ents`: src/Omega_h_mesh.cpp:119-125. The numbers are 64 bits wide when they are summed over the ranks. -/
def nglobalEnts (t : Nat → Team) (rt : RankTree) (owned : Option (List (List Int))) (nents : List Nat) : Option Int :=
  match owned with
  | none => allreduce rt (· + ·) (nents.map (fun n : Nat => (n : Int)))
  | some owned => (onRanks owned (fun r o => arraySum (t r) o)).bind (allreduce rt (· + ·))

/-- `Mesh::owned_array` with width 1 on one rank: src/Omega_h_mesh.cpp:614-620. -/
def ownedArray {α : Type} (s : Nat → Sched) (nents : Nat) (owned : Option (List Int)) (a : List α) : Option (List α) :=
  if a.length = nents then
    match owned with
    | none => some a
    | some o => (collectMarked (s 0) o).bind (fun o2e => unmap (s 1) o2e a 1)
  else none

/-- `owned_array` on all ranks. -/
def ownedArrays {α : Type} (s : Nat → Nat → Sched) (nents : List Nat) (owned : Option (List (List Int))) (a : List (List α)) :
    Option (List (List α)) :=
  onRanks a (fun r x => (nents[r]?).bind (fun n =>
    match owned with
    | none => ownedArray (s r) n none x
    | some owned => (owned[r]?).bind (fun o => ownedArray (s r) n (some o) x)))

section
variable {K : Type} [Field K] [LinearOrder K]

/-- The bound between bins `i - 1` and `i`: src/Omega_h_histogram.cpp:19, 25-26. -/
def binBound (lo hi : K) (nbins i : Nat) : K := (hi - lo) / (nbins : K) * (i : K) + lo

/-- The marks of the values in bin `i` on one rank: src/Omega_h_histogram.cpp:25-34. -/
def binMarks (s : Nat → Sched) (lo hi : K) (nbins i : Nat) (values : List K) : Option (List Int) :=
  (mapEach (s 0) (fun x => some (b2i (decide (x ≥ binBound lo hi nbins i)))) values).bind (fun floorMarks =>
  (if i + 1 = nbins then mapEach (s 1) (fun x => some (b2i (decide (x ≤ hi)))) values
    else mapEach (s 1) (fun x => some (b2i (decide (x < binBound lo hi nbins (i + 1))))) values).bind (fun ceilMarks =>
  landEach (s 2) floorMarks ceilMarks))

/-- `get_histogram`: src/Omega_h_histogram.cpp:15-38. -/
def getHistogram (s : Nat → Nat → Nat → Sched) (t : Nat → Nat → Team) (rt : Nat → RankTree) (nents : List Nat)
    (owned : Option (List (List Int))) (nbins : Nat) (lo hi : K) (values : List (List K)) : Option (List Int) :=
  if values.map List.length = nents then
    (ownedArrays (s 0) nents owned values).bind (fun ownedValues =>
    (List.range nbins).mapM (fun i =>
      (onRanks ownedValues (fun r v => binMarks (s (i + 1) r) lo hi nbins i v)).bind (sumMarks (t i) (rt i))))
  else none

/-- What `print_goal_stats` prints: the numbers of values below, between and above the limits: src/Omega_h_histogram.cpp:58-63. -/
def goalStats (s : Nat → Nat → Sched) (t : Nat → Nat → Team) (rt : Nat → RankTree) (nents : List Nat) (owned : Option (List (List Int)))
    (lo hi : K) (values : List (List K)) : Option (Int × Int × Int) :=
  (onRanks values (fun r v => mapEach (s 0 r) (fun x => some (b2i (decide (x < lo)))) v)).bind (fun lowMarks =>
  (onRanks values (fun r v => mapEach (s 1 r) (fun x => some (b2i (decide (x > hi)))) v)).bind (fun highMarks =>
  (countOwnedMarks (s 2) (t 0) (rt 0) owned lowMarks).bind (fun nlow =>
  (countOwnedMarks (s 3) (t 1) (rt 1) owned highMarks).bind (fun nhigh =>
  (nglobalEnts (t 2) (rt 2) owned nents).map (fun ntotal => (nlow, ntotal - nlow - nhigh, nhigh))))))

/-- `get_min` over all ranks; `big` is the largest value of the type: src/Omega_h_array_ops.cpp:34-45, 60-63 with
src/Omega_h_scalar.hpp:317-324. -/
def globalMin (t : Nat → Team) (rt : RankTree) (big : K) (values : List (List K)) : Option K :=
  (onRanks values (fun r v => transformReduce (t r) (fun x y => if x < y then x else y) big big (fun i => v[i]?) v.length)).bind
    (allreduce rt (fun x y => if x < y then x else y))

/-- `get_max` over all ranks; `small` is the smallest value of the type: src/Omega_h_array_ops.cpp:47-58, 65-68 with
src/Omega_h_scalar.hpp:307-314. -/
def globalMax (t : Nat → Team) (rt : RankTree) (small : K) (values : List (List K)) : Option K :=
  (onRanks values (fun r v => transformReduce (t r) (fun x y => if x < y then y else x) small small (fun i => v[i]?) v.length)).bind
    (allreduce rt (fun x y => if x < y then y else x))

/-- The result of `print_adapt_status`: src/Omega_h_adapt.cpp:110-121. -/
def adaptStatus (t : Nat → Nat → Team) (rt : Nat → RankTree) (small big minQuality minLength maxLength : K) (quals lengths : List (List K)) :
    Option Bool :=
  (globalMin (t 0) (rt 0) big quals).bind (fun q =>
  (globalMin (t 1) (rt 1) big lengths).bind (fun l =>
  (globalMax (t 2) (rt 2) small lengths).map (fun u =>
    decide (q ≥ minQuality) && (decide (l ≥ minLength) && decide (u ≤ maxLength)))))

/-- The average quality that `print_adapt_histograms` prints: src/Omega_h_adapt.cpp:128-132. There is none if there are no elements. -/
def averageQuality (s : Nat → Nat → Sched) (t : Nat → Nat → Team) (rt : Nat → RankTree) (nents : List Nat) (owned : Option (List (List Int)))
    (quals : List (List K)) : Option K :=
  (ownedArrays s nents owned quals).bind (fun q =>
  (onRanks q (fun r v => transformReduce (t 0 r) (· + ·) 0 0 (fun i => v[i]?) v.length)).bind (fun sums =>
  (allreduce (rt 0) (· + ·) sums).bind (fun total =>
  (nglobalEnts (t 1) (rt 1) owned nents).bind (fun n => if n = 0 then none else some (total / (n : K))))))

end

end OmegaH
