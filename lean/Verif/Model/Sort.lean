import Verif.Model.Map

/-! # Sorting: src/Omega_h_sort.cpp -/

namespace OmegaH

/-- The key components `keys[a*N] … keys[a*N+N-1]` of item `a`.
Models the pointer reads of src/Omega_h_sort.cpp:63-64. Items are below `keys.size()/N`, so the reads
are in range; the default is never used. -/
def keyRow (keys : List Int) (N a : Nat) : List Int :=
  (List.range N).map (fun i => (keys[a * N + i]?).getD 0)

/-- The loop of `CompareKeySets::operator()`: src/Omega_h_sort.cpp:61-68. -/
def lexLt : List Int → List Int → Bool
  | x :: xs, y :: ys => if x ≠ y then decide (x < y) else lexLt xs ys
  | _, _ => false

/-- `CompareKeySets<T,N>`: src/Omega_h_sort.cpp:57-69. -/
def compareKeySets (keys : List Int) (N a b : Nat) : Bool := lexLt (keyRow keys N a) (keyRow keys N b)

/-- Insert `x` before the first element that is not smaller than it. -/
def insertStable {α : Type} (lt : α → α → Bool) (x : α) : List α → List α
  | [] => [x]
  | y :: ys => if lt y x then y :: insertStable lt x ys else x :: y :: ys

/-- A stable sort by the strict comparison `lt`; stands for `std::stable_sort`
(src/Omega_h_sort.cpp:42-55) and its parallel and CUDA replacements. The library sort is trusted to
meet its contract; the contract determines the result (theorem `C02_stable_sort_unique`), so the
algorithm chosen here does not matter. -/
def stableSort {α : Type} (lt : α → α → Bool) (l : List α) : List α :=
  l.foldr (insertStable lt) []

/-- `sort_by_keys` / `sort_by_keys_tmpl`: src/Omega_h_sort.cpp:71-92. `Write<LO>(n,0,1)` is `0,1,…,n-1`. -/
def sortByKeys (keys : List Int) (width : Nat) : Option (List Nat) :=
  if 1 ≤ width ∧ width ≤ 4 then
    if keys.length % width = 0 then
      some (stableSort (compareKeySets keys width) (List.range (keys.length / width)))
    else none
  else none

/-- `next_smallest_value` (`maxVal` is `ArithTraits<T>::max()`): src/Omega_h_sort.cpp:99-109. -/
def nextSmallestValue (maxVal : Int) (a : List Int) (value : Int) : Int :=
  a.foldl (fun acc x => min acc (if x > value then x else maxVal)) maxVal

/-- `number_same_values`: the scanned array `tmp_perm`, src/Omega_h_sort.cpp:111-124. -/
def numberSameValues (a : List Int) (value : Int) : List Int :=
  offsetScan (a.map (fun x => if x = value then (1 : Int) else 0))

/-- `combine_perms`: src/Omega_h_sort.cpp:126-134 (each iteration writes only its own
entry; `tmp` has one entry more than `a`, so the default is never used). -/
def combinePerms (a : List Int) (value : Int) (tmp perm : List Int) (ndone : Int) : List Int :=
  perm.mapIdx (fun i p => if a[i]? = some value then (tmp[i]?).getD 0 + ndone else p)

/-- The `while (true)` loop of `sort_small_range`; `fuel` bounds the number of rounds, running out
means the loop would go on. src/Omega_h_sort.cpp:146-154. -/
def sortSmallLoop (maxVal : Int) (a : List Int) : Nat → Int → Int → List Int → List Int → List Int →
    Option (List Int × List Int × List Int)
  | 0, _, _, _, _, _ => none
  | fuel + 1, value, ndone, perm, fan, uniq =>
    let uniq' := uniq ++ [value]
    let tmp := numberSameValues a value
    let ndid := (tmp.getLast?).getD 0
    let perm' := combinePerms a value tmp perm ndone
    let ndone' := ndone + ndid
    let fan' := fan ++ [ndone']
    if ndone' = a.length then some (perm', fan', uniq')
    else sortSmallLoop maxVal a fuel (nextSmallestValue maxVal a value) ndone' perm' fan' uniq'

/-- `get_min`: src/Omega_h_array_ops.cpp:34-45. -/
def getMin (maxVal : Int) (a : List Int) : Int := a.foldl min maxVal

/-- `get_max`: src/Omega_h_array_ops.cpp:47-58. -/
def getMax (minVal : Int) (a : List Int) : Int := a.foldl max minVal

/-- `sort_small_range`: src/Omega_h_sort.cpp:136-167. -/
def sortSmallRange (maxVal : Int) (a : List Int) (fuel : Nat) :
    Option (List Int × List Int × List Int) :=
  if a.length = 0 then some ([], [0], [])
  else sortSmallLoop maxVal a fuel (getMin maxVal a) 0 (List.replicate a.length (-42)) [0] []

end OmegaH
