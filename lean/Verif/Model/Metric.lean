import Verif.Model.SmallMat
import Verif.Model.Shape

/-! # Clamping, choosing and intersecting metrics

One metric at a time, in exact arithmetic; `eig` stands for `decompose_eigen` (eigenvalues and the
matrix of eigenvectors) and `sqrt` for `std::sqrt`. src/Omega_h_metric.hpp,
src/Omega_h_metric_intersect.hpp -/

namespace OmegaH

section
variable {K : Type} [Field K] [LinearOrder K] {k : Nat}

/-- `metric_eigenvalue_from_length`, src/Omega_h_metric.hpp:34-36 -/
def eigenvalueFromLength (h : K) : K := 1 / (h * h)

/-- `clamp`, src/Omega_h_scalar.hpp:163-165 -/
def clampReal (x low high : K) : K := min (max x low) high

/-- `compose_ortho`, src/Omega_h_eigen.hpp:332-334 -/
def composeOrtho (q : Mat K (k + 1) (k + 1)) (l : Vec K (k + 1)) : Mat K (k + 1) (k + 1) :=
  matMul (matMul q (diagMat l)) (transp q)

/-- `clamp_metric` in three dimensions, src/Omega_h_metric.hpp:152-160 -/
def clampMetric (eig : Mat K 3 3 → Vec K 3 × Mat K 3 3) (m : Mat K 3 3) (hMin hMax : K) :
    Mat K 3 3 :=
  let ed := eig m
  let lMax := eigenvalueFromLength hMin
  let lMin := eigenvalueFromLength hMax
  composeOrtho ed.2 fun i => clampReal (ed.1 i) lMin lMax

/-- `maxdet_metric`; `det` is `determinant`. src/Omega_h_metric.hpp:170-182 -/
def maxdetMetric {M : Type} (det : M → K) (first : M) (rest : List M) : M :=
  (rest.foldl (fun (acc : M × K) m => let d := det m; if d > acc.2 then (m, d) else acc)
    (first, det first)).1

/-- `m2_bar` in `intersect_metrics`: the second metric in the coordinates in which the first is the
identity. src/Omega_h_metric_intersect.hpp:244-255 -/
def intersectBar (sqrt : K → K) (eig : Mat K 3 3 → Vec K 3 × Mat K 3 3) (m1 m2 : Mat K 3 3) :
    Mat K 3 3 :=
  let dc := eig m1
  let s : Vec K 3 := fun i => sqrt (dc.1 i)
  let m1InvSqrt := composeOrtho dc.2 fun i => 1 / s i
  matMul (matMul (transp m1InvSqrt) m2) m1InvSqrt

/-- `intersect_metrics` in three dimensions if the first metric has no degenerate direction.
src/Omega_h_metric_intersect.hpp:244-264 -/
def intersectNormal (sqrt : K → K) (eig : Mat K 3 3 → Vec K 3 × Mat K 3 3) (m1 m2 : Mat K 3 3) :
    Mat K 3 3 :=
  let dc := eig m1
  let s : Vec K 3 := fun i => sqrt (dc.1 i)
  let m1Sqrt := composeOrtho dc.2 s
  let barDc := eig (intersectBar sqrt eig m1 m2)
  let mIntBar := composeOrtho barDc.2 fun i => max (barDc.1 i) 1
  matMul (matMul (transp m1Sqrt) mIntBar) m1Sqrt

/-- The two vectors and the eigenvalue that the loop of `intersect_degenerate_metrics` takes from a
decomposition in two dimensions: the degenerate direction, the other one and its eigenvalue; what
is not there is zero, or minus one. src/Omega_h_metric_intersect.hpp:31-48 -/
def degenDir2 (q : Mat K 2 2) (degen : Fin 2 → Bool) : Vec K 2 :=
  if degen 1 then q 1 else if degen 0 then q 0 else fun _ => 0
def otherDir2 (q : Mat K 2 2) (degen : Fin 2 → Bool) : Vec K 2 :=
  if !degen 1 then q 1 else if !degen 0 then q 0 else fun _ => 0
def otherEigenvalue2 (l : Vec K 2) (degen : Fin 2 → Bool) : K :=
  if !degen 1 then l 1 else if !degen 0 then l 0 else -1

/-- `intersect_degenerate_metrics` in two dimensions; `none` if the matrix to be inverted has
determinant zero, which gives entries that are not numbers.
src/Omega_h_metric_intersect.hpp:26-63 -/
def intersectDegen2 (eps : K) (m1 : Mat K 2 2) (l1 : Vec K 2) (q1 : Mat K 2 2)
    (degen1 : Fin 2 → Bool) (m2 : Mat K 2 2) (l2 : Vec K 2) (q2 : Mat K 2 2)
    (degen2 : Fin 2 → Bool) : Option (Mat K 2 2) :=
  let v1 := degenDir2 q1 degen1
  let v2 := degenDir2 q2 degen2
  let u1 := otherDir2 q1 degen1
  if vdot v1 v2 < eps then
    some (mscale (outerMat u1 u1) (max (otherEigenvalue2 l1 degen1) (otherEigenvalue2 l2 degen2)))
  else
    let p : Mat K 2 2 := ![v1, v2]
    if det2 p = 0 then none
    else
      let pInv := invert2 p
      let l : Vec K 2 := ![vdot v1 (mulVec m2 v1), vdot v2 (mulVec m1 v2)]
      some (matMul (matMul (transp pInv) (diagMat l)) pInv)
end
end OmegaH
