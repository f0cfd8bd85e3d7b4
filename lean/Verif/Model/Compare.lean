import Verif.Model.Owners
import Verif.Model.ArrayOps
import Verif.Model.Element
import Verif.Model.Collapse
import Mathlib.Algebra.Order.Field.Basic
import Mathlib.Algebra.Order.Ring.Abs
/-!
# Comparing meshes: src/Omega_h_compare.cpp

What is printed is left out, except where finding what to print can go wrong.
-/
namespace OmegaH

/-- `VarCompareOpts::type`: src/Omega_h_compare.hpp:15. -/
inductive CompareKind where
  | none
  | relative
  | absolute
  deriving DecidableEq

/-- `VarCompareOpts`: src/Omega_h_compare.hpp:14-21. -/
structure VarCompareOpts (K : Type) where
  kind : CompareKind
  tolerance : K
  floor : K

/-- The values of a tag on all ranks; integers have 8, 32 or 64 bits. -/
inductive TagValues (K : Type) where
  | ints (bits : Nat) (data : List (List Int))
  | reals (data : List (List K))

/-- A tag: src/Omega_h_tag.hpp:14-50. -/
structure CompareTag (K : Type) where
  name : String
  ncomps : Nat
  values : TagValues K

/-- What is compared of a mesh: family, dimension, numbers of entities by dimension, global numbers by dimension and rank, downward
adjacencies by dimensions and rank, tags by dimension. -/
structure CompareMesh (K : Type) where
  family : Family
  dim : Nat
  nglobal : Nat → Int
  globals : Nat → List (List Int)
  down : Nat → Nat → List (List Nat)
  tags : Nat → List (CompareTag K)

/-- `Omega_h_Comparison`: src/Omega_h_defines.hpp:27. -/
inductive Comparison where
  | same
  | more
  | diff
  deriving DecidableEq

/-- `Comm::reduce_and`: src/Omega_h_comm.cpp:218-222. -/
def reduceAnd (rt : RankTree) (bs : List Bool) : Option Bool :=
  (allreduce rt (fun x y => if y < x then y else x) (bs.map b2i)).map (fun y => decide (y ≠ 0))

/-- `CompareArrays<T>::compare` for integers, except for what it prints: src/Omega_h_compare.cpp:54-58. -/
def compareInts (t : Nat → Team) (rt : RankTree) (a b : List (List Int)) : Option Bool :=
  (onRanks a (fun r x => (b[r]?).bind (arraysEqual (t r) x))).bind (reduceAnd rt)

section
variable {K : Type} [Field K] [LinearOrder K]

/-- `rel_diff_with_floor`: src/Omega_h_scalar.hpp:266-272. Zero by zero is `none`. -/
def relDiffWithFloor (a b floor : K) : Option K :=
  if |a| ≤ floor ∧ |b| ≤ floor then some 0
  else if max |a| |b| = 0 then none
  else some (|b - a| / max |a| |b|)

/-- `get_real_diff`: src/Omega_h_compare.cpp:86-92. -/
def getRealDiff (o : VarCompareOpts K) (a b : K) : Option K :=
  if o.kind = .relative then relDiffWithFloor a b o.floor else some |a - b|

/-- `are_close` and `are_close_abs` on arrays: src/Omega_h_array_ops.cpp:75-101, src/Omega_h_scalar.hpp:274-277. Which one is called
depends on the options in the same way as in `get_real_diff`: src/Omega_h_compare.cpp:105-109. -/
def areClose (t : Team) (o : VarCompareOpts K) (a b : List K) : Option Bool :=
  if a.length = b.length then
    transformReduce t and true true
      (fun i => (a[i]?).bind (fun x => (b[i]?).bind (fun y => (getRealDiff o x y).map (fun d => decide (d ≤ o.tolerance))))) a.length
  else none

/-- The loop that looks for the largest difference: src/Omega_h_compare.cpp:118-126. -/
def worstDiff (o : VarCompareOpts K) (a b : List K) : Option (Int × K) :=
  (List.range a.length).foldlM (fun (st : Int × K) (i : Nat) => (a[i]?).bind (fun x => (b[i]?).bind (fun y =>
    (getRealDiff o x y).map (fun d => if d > st.2 then ((i : Int), d) else st)))) (-1, 0)

/-- What is printed of the largest difference: src/Omega_h_compare.cpp:118-145. The result is the two values; an index of -1 is out of
range. -/
def worstValues (rt : Nat → RankTree) (o : VarCompareOpts K) (a b : List (List K)) : Option (K × K) :=
  (onRanks a (fun r x => (b[r]?).bind (worstDiff o x))).bind (fun worst =>
  (allreduce (rt 0) (fun x y => if x < y then y else x) (worst.map Prod.snd)).bind (fun most =>
  (allreduce (rt 1) (fun x y => if y < x then y else x)
    (worst.zipIdx.map (fun p => if p.1.2 = most then (p.2 : Int) else 2147483647))).bind (fun best =>
  (worst[best.toNat]?).bind (fun w => if w.1 < 0 then none
    else (a[best.toNat]?).bind (fun x => (x[w.1.toNat]?).bind (fun v => (b[best.toNat]?).bind (fun y => (y[w.1.toNat]?).map (fun u => (v, u)))))))))

/-- `CompareArrays<Real>::compare` unless there is nothing to be compared: src/Omega_h_compare.cpp:103-148. -/
def compareReals (t : Nat → Team) (rt : Nat → RankTree) (verbose : Bool) (o : VarCompareOpts K) (a b : List (List K)) : Option Bool :=
  (onRanks a (fun r x => (b[r]?).bind (areClose (t r) o x))).bind (fun close =>
  (reduceAnd (rt 0) close).bind (fun ok =>
    if ok then some true
    else if verbose then (worstValues (fun k => rt (k + 1)) o a b).map (fun _ => false)
    else some false))

/-- `compare_copy_data`: src/Omega_h_compare.cpp:158-171; the comparison of sizes is that of the functions called. -/
def compareCopyData {α : Type} (s : Nat → Nat → Nat → Sched) (cmp : List (List α) → List (List α) → Option Bool) (aD bD : List Dist) (w : Nat)
    (a b : List (List α)) : Option Bool :=
  (reduceDataToOwners (s 0) aD w a).bind (fun al => (reduceDataToOwners (s 1) bD w b).bind (fun bl => cmp al bl))

/-- `get_local_conn`: src/Omega_h_compare.cpp:173-178. -/
def localConn (s : Nat → Sched) (m : CompareMesh K) (dim low : Nat) : Option (List (List Int)) :=
  onRanks (m.down dim low) (fun r h2l => ((m.globals low)[r]?).bind (fun g => unmap (s r) h2l g 1))

/-- Comparing one tag: src/Omega_h_compare.cpp:227-260. `Mesh::get_array` fails if the type is another one
(src/Omega_h_tag.cpp:21-25), also if there is nothing to be compared. -/
def compareTag (s : Nat → Nat → Nat → Sched) (t : Nat → Team) (rt : Nat → RankTree) (verbose : Bool) (o : VarCompareOpts K) (aD bD : List Dist)
    (btags : List (CompareTag K)) (a : CompareTag K) : Option Bool :=
  match btags.find? (fun b => b.name == a.name) with
  | none => some false
  | some b =>
    match a.values, b.values with
    | .ints n x, .ints m y =>
      if n = m then (if o.kind = .none then some true else compareCopyData s (compareInts t (rt 0)) aD bD a.ncomps x y) else none
    | .reals x, .reals y => if o.kind = .none then some true else compareCopyData s (compareReals t rt verbose o) aD bD a.ncomps x y
    | _, _ => none

/-- `MeshCompareOpts::tag_opts`: src/Omega_h_compare.cpp:30-37. `opts` lists names and options by dimension. -/
def tagOpts (opts : Nat → List (String × VarCompareOpts K)) (dim : Nat) (name : String) : VarCompareOpts K :=
  match (opts dim).find? (fun p => p.1 == name) with
  | none => ⟨.none, 0, 0⟩
  | some p => p.2

/-- The loop over dimensions of `compare_meshes`: src/Omega_h_compare.cpp:195-275. Schedules are numbered by dimension and use. -/
def compareDims (s : Nat → Nat → Nat → Nat → Nat → Sched) (t : Nat → Nat → Nat → Team) (rt : Nat → Nat → Nat → RankTree) (verbose full : Bool)
    (opts : Nat → List (String × VarCompareOpts K)) (a b : CompareMesh K) : List Nat → Comparison → Option Comparison
  | [], res => some res
  | d :: ds, res =>
    if a.nglobal d ≠ b.nglobal d then some .diff
    else if full = false ∧ 0 < d ∧ d < a.dim then compareDims s t rt verbose full opts a b ds res
    else
      (copiesToLinearOwners (s d 0 0) (a.globals d)).bind (fun aD => (copiesToLinearOwners (s d 0 1) (b.globals d)).bind (fun bD =>
      let low := if full then d - 1 else 0
      (if 0 < d then (localConn (fun r => s d 1 0 r 0) a d low).bind (fun ac => (localConn (fun r => s d 1 1 r 0) b d low).bind (fun bc =>
          compareCopyData (s d 2) (compareInts (t d 0) (rt d 0 0)) aD bD (elementDegree a.family d low).toNat ac bc))
        else some true).bind (fun ok =>
      if ok then
        ((a.tags d).zipIdx.mapM (fun p => compareTag (s d (p.2 + 3)) (t d (p.2 + 1)) (rt d (p.2 + 1)) verbose (tagOpts opts d p.1.name) aD bD
            (b.tags d) p.1)).bind (fun oks =>
          let res := if oks.all id then res else .diff
          let extra := (b.tags d).any (fun x => (a.tags d).all (fun y => !(y.name == x.name)))
          compareDims s t rt verbose full opts a b ds (if extra = true ∧ res = .same then .more else res))
      else compareDims s t rt verbose full opts a b ds .diff)))

/-- `compare_meshes`, on the same number of ranks: src/Omega_h_compare.cpp:180-277. -/
def compareMeshes (s : Nat → Nat → Nat → Nat → Nat → Sched) (t : Nat → Nat → Nat → Team) (rt : Nat → Nat → Nat → RankTree) (verbose full : Bool)
    (opts : Nat → List (String × VarCompareOpts K)) (a b : CompareMesh K) : Option Comparison :=
  if a.family ≠ b.family then some .diff
  else if a.dim ≠ b.dim then some .diff
  else compareDims s t rt verbose full opts a b (List.range (a.dim + 1)) .same

end

end OmegaH
