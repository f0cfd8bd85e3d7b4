import Verif.Model.SmallMat
import Mathlib.Algebra.Order.Group.Unbundled.Abs
import Mathlib.Algebra.BigOperators.Group.List.Basic

/-! # Where the inertial bisection cuts

src/Omega_h_inertia.cpp:17-160. What happens to the marks afterwards is in `Model/Bipart.lean`.
Simplifications: the points of all ranks are one list, since the marks are made point by point and
all sums and extremes are taken over all ranks; a point and its mass are a pair, so the checks that
there are as many masses as points are not modelled; arithmetic and sums are exact. -/

namespace OmegaH

section
variable {K : Type} [Field K]

/-- `get_center`, src/Omega_h_inertia.cpp:19-30 -/
def massCenter (pts : List (Vec K 3 × K)) (totalMass : K) : Vec K 3 :=
  vdiv (fun i => (pts.map fun p => p.2 * p.1 i).sum) totalMass

/-- `get_matrix`: the packed contributions are summed and unpacked.
src/Omega_h_inertia.cpp:32-45 -/
def inertiaMatrix (pts : List (Vec K 3 × K)) (center : Vec K 3) : Mat K 3 3 :=
  let contrib := fun p : Vec K 3 × K =>
    let dxc := crossMat (vsub p.1 center)
    symm2vec3 (mscale (matMul dxc dxc) (-p.2))
  vec2symm3 fun i => (pts.map fun p => contrib p i).sum

/-- `get_distances`, together with the masses. src/Omega_h_inertia.cpp:61-69 -/
def axisDistances (pts : List (Vec K 3 × K)) (center axis : Vec K 3) : List (K × K) :=
  pts.map fun p => (vdot (vsub p.1 center) axis, p.2)
end

section
variable {K : Type} [Field K] [LinearOrder K]

/-- `get_axis`; `l` and `q` are what `decompose_eigen` found.
src/Omega_h_inertia.cpp:47-59 -/
def inertiaAxis (l : Vec K 3) (q : Mat K 3 3) : Vec K 3 :=
  let minI : Fin 3 := Fin.foldl 2 (fun m i => if l i.succ < l m then i.succ else m) 0
  positivize (q minI)

/-- `mark_half`, src/Omega_h_inertia.cpp:81-87 -/
def markHalf (pts : List (K × K)) (distance : K) : List Bool :=
  pts.map fun p => decide (p.1 > distance)

/-- `get_half_weight`, src/Omega_h_inertia.cpp:71-79 -/
def halfWeight (pts : List (K × K)) (marked : List Bool) : K :=
  (List.zipWith (fun (b : Bool) (p : K × K) => (if b then 1 else 0) * p.2) marked pts).sum

/-- The range in which `mark_axis_bisection` looks. With no point at all the extremes are the
identities of the reductions, but then the first cut is as good as any other.
src/Omega_h_inertia.cpp:93-94 -/
def axisRange : List (K × K) → K
  | [] => 0
  | p :: rest => max |rest.foldl (fun a q => min a q.1) p.1| |rest.foldl (fun a q => max a q.1) p.1|

/-- The loop of `mark_axis_bisection`, for the rounds that are left.
src/Omega_h_inertia.cpp:97-108 -/
def axisLoop (pts : List (K × K)) (totalMass tolerance : K) :
    Nat → K → K → List Bool → Bool × List Bool
  | 0, _, _, marked => (false, marked)
  | n + 1, distance, step, _ =>
    let marked := markHalf pts distance
    let half := halfWeight pts marked
    if |half - totalMass / 2| ≤ tolerance then (true, marked)
    else if half > totalMass / 2 then
      axisLoop pts totalMass tolerance n (distance + step) (step / 2) marked
    else axisLoop pts totalMass tolerance n (distance - step) (step / 2) marked

/-- `MANTISSA_BITS`, the number of rounds. src/Omega_h_macros.h:24 -/
def bisectionRounds : Nat := 52

/-- `mark_axis_bisection`: whether it found a cut, and the marks, which are an output argument.
src/Omega_h_inertia.cpp:89-110 -/
def markAxisBisection (pts : List (K × K)) (totalMass tolerance : K) : Bool × List Bool :=
  axisLoop pts totalMass tolerance bisectionRounds 0 (axisRange pts / 2) []

/-- The axes that `mark_bisection_internal` tries after the first, in order.
src/Omega_h_inertia.cpp:122-124 -/
def perturbedAxis (axis : Vec K 3) (i : Fin 6) : Vec K 3 := fun c =>
  if c.val = i.val / 2 then axis c + (if i.val % 2 = 1 then 1 / 1000 else -(1 / 1000)) else axis c

/-- The loop over the perturbed axes from number `i` on.
src/Omega_h_inertia.cpp:122-130 -/
def perturbedLoop (pts : List (Vec K 3 × K)) (center axis : Vec K 3) (totalMass tolerance : K) :
    List (Fin 6) → List Bool → List Bool
  | [], marked => marked
  | i :: rest, _ =>
    let r := markAxisBisection (axisDistances pts center (perturbedAxis axis i)) totalMass tolerance
    if r.1 then r.2 else perturbedLoop pts center axis totalMass tolerance rest r.2

/-- `mark_bisection_internal`, without the warning. src/Omega_h_inertia.cpp:112-138 -/
def markBisectionInternal (pts : List (Vec K 3 × K)) (tolerance : K) (axis center : Vec K 3)
    (totalMass : K) : List Bool :=
  let r := markAxisBisection (axisDistances pts center axis) totalMass tolerance
  if r.1 then r.2
  else perturbedLoop pts center axis totalMass tolerance [0, 1, 2, 3, 4, 5] r.2

/-- `mark_bisection_given_axis`, src/Omega_h_inertia.cpp:152-160 -/
def markBisectionGivenAxis (pts : List (Vec K 3 × K)) (tolerance : K) (axis : Vec K 3) :
    List Bool :=
  let totalMass := (pts.map (·.2)).sum
  let center := massCenter pts totalMass
  markBisectionInternal pts tolerance axis center totalMass
end
end OmegaH
