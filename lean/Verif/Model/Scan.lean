import Verif.Model.Mem

/-! # Prefix scans: src/Omega_h_scan.hpp, src/Omega_h_int_scan.cpp -/

namespace OmegaH

/-- The loop of the serial scan, starting after `value` has been initialised.
Models src/Omega_h_scan.hpp:222-225 (and 203-206 with `op = +`). -/
def scanFrom {α : Type} (op : α → α → α) (value : α) : List α → List α
  | [] => []
  | x :: xs => op value x :: scanFrom op (op value x) xs

/-- Serial `inclusive_scan` / `transform_inclusive_scan` with the transform already applied.
Models src/Omega_h_scan.hpp:195-227 (non-OpenMP, non-CUDA branch). The in-place use by `fill_right`
gives the same result because entry `i` is read before it is overwritten. -/
def inclusiveScan {α : Type} (op : α → α → α) : List α → List α
  | [] => []
  | x :: xs => x :: scanFrom op x xs

/-- `begin_i` of thread `t` of `T` on `n` items. Models src/Omega_h_scan.hpp:103-107, 157-161. -/
def chunkBegin (n T t : Nat) : Nat :=
  let quotient := n / T
  let remainder := n % T
  if t > remainder then quotient * t + remainder else (quotient + 1) * t

/-- `end_i` of thread `t`. Models src/Omega_h_scan.hpp:108-109, 162-163. -/
def chunkEnd (n T t : Nat) : Nat :=
  let quotient := n / T
  let remainder := n % T
  if t ≥ remainder then chunkBegin n T t + quotient else chunkBegin n T t + quotient + 1

/-- The values `first[b] … first[e-1]`; out of range is undefined behaviour. -/
def readRange {α : Type} (first : List α) (b e : Nat) : Option (List α) :=
  if e ≤ first.length then some ((first.drop b).take (e - b)) else none

/-- First pass of a thread: `thread_sums[t] = first[begin] op … op first[end-1]`, nothing if the
chunk is empty. Models src/Omega_h_scan.hpp:110-117, 164-171. -/
def scanPass1 {α : Type} (op : α → α → α) (first : List α) (T t : Nat) :
    Option (List (Nat × α)) :=
  let b := chunkBegin first.length T t
  let e := chunkEnd first.length T t
  if b < e then
    match readRange first b e with
    | some (x :: xs) => some [(t, xs.foldl op x)]
    | _ => none
  else some []

/-- The value the second pass starts from: `x = first[begin]`, combined with the totals of the
lower threads unless this is thread 0. Models src/Omega_h_scan.hpp:120-128, 174-182. -/
def scanStart {α : Type} (op : α → α → α) (sums : Mem α) (t : Nat) (x : α) : Option α :=
  if t = 0 then some x
  else
    match (List.range t).mapM (fun i => (sums[i]?).join) with
    | some (s0 :: ss) => some (op (ss.foldl op s0) x)
    | _ => none

/-- Second pass of a thread: combine the totals of the lower threads, then scan the own chunk.
Reading a total that no thread wrote is undefined behaviour (`none`).
Models src/Omega_h_scan.hpp:119-134, 173-188. -/
def scanPass2 {α : Type} (op : α → α → α) (first : List α) (sums : Mem α) (T t : Nat) :
    Option (List (Nat × α)) :=
  let b := chunkBegin first.length T t
  let e := chunkEnd first.length T t
  if b < e then
    match readRange first b e with
    | some (x :: xs) =>
      (scanStart op sums t x).map (fun start =>
        ((start :: scanFrom op start xs).zipIdx b).map (fun p => (p.2, p.1)))
    | _ => none
  else some []

/-- Size of the array of thread totals: src/Omega_h_scan.hpp:94, 148. -/
def maxNumThreads : Nat := 512

/-- OpenMP `inclusive_scan` with `T` threads; `s1`, `s2` order the threads' writes in the two phases
separated by the barrier. Models src/Omega_h_scan.hpp:89-137 and 139-191. -/
def ompInclusiveScan {α : Type} (s1 s2 : Sched) (T : Nat) (op : α → α → α) (first : List α) :
    Option (List α) :=
  if first.length = 0 then some []
  else do
    let sums ← parScatter s1 T (scanPass1 op first T) (Mem.alloc maxNumThreads)
    let out ← parScatter s2 T (scanPass2 op first sums T) (Mem.alloc first.length)
    out.toArray?

/-- `offset_scan`: `out[0] = 0`, then the inclusive scan of the entries cast to `LO`.
Models src/Omega_h_int_scan.cpp:10-20. -/
def offsetScan {α : Type} [Add α] [OfNat α 0] (a : List α) : List α :=
  (0 : α) :: inclusiveScan (· + ·) a

/-- `offset_scan` on the OpenMP scan. Models src/Omega_h_int_scan.cpp:10-20. -/
def ompOffsetScan {α : Type} [Add α] [OfNat α 0] (s1 s2 : Sched) (T : Nat) (a : List α) :
    Option (List α) := do
  let r ← ompInclusiveScan s1 s2 T (· + ·) a
  some ((0 : α) :: r)

/-- `fill_right`: in-place inclusive scan with `maximum` and the identity transform.
Models src/Omega_h_int_scan.cpp:25-33. -/
def fillRight (a : List Int) : List Int := inclusiveScan max a

end OmegaH
