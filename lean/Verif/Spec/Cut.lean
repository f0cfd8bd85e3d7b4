import Verif.Model.Cut
import Verif.Spec.SmallMat

/-! # What a cut is -/

namespace OmegaH.Spec
open OmegaH

section
variable {K : Type} [Field K] [LinearOrder K]

/-- The mass of the points that lie farther along the axis than `c`. -/
def massBeyond (pts : List (K × K)) (c : K) : K :=
  ((pts.filter fun p => decide (c < p.1)).map (·.2)).sum

/-- The mass of the marked points. -/
def markedMass : List Bool → List (Vec K 3 × K) → K
  | true :: ms, p :: ps => p.2 + markedMass ms ps
  | false :: ms, _ :: ps => markedMass ms ps
  | _, _ => 0

/-- The marks tell which points lie beyond a plane that is at right angles to the axis. -/
def CutBy (marks : List Bool) (pts : List (Vec K 3 × K)) (center axis : Vec K 3) : Prop :=
  ∃ c, marks = pts.map fun p => decide (c < vdot (vsub p.1 center) axis)

/-- The second axis is the first, or differs from it by a thousandth in one component. -/
def NearAxis (a b : Vec K 3) : Prop :=
  a = b ∨ ∃ c, |b c - a c| = 1 / 1000 ∧ ∀ d, d ≠ c → b d = a d
end

section
variable {K : Type} [Field K]

/-- The moment of inertia of the points about an axis through `center`: every mass times the square
of its distance from the axis (for an axis of length one). -/
def momentAbout (pts : List (Vec K 3 × K)) (center axis : Vec K 3) : K :=
  (pts.map fun p => p.2 * vdot (cross3 (vsub p.1 center) axis) (cross3 (vsub p.1 center) axis)).sum

/-- What `decompose_eigen` is to find: `q` is orthonormal and its columns are stretched by `l`. -/
def Eigen (m : Mat K 3 3) (l : Vec K 3) (q : Mat K 3 3) : Prop :=
  Orthonormal q ∧ ∀ i, mulVec m (q i) = vscale (q i) (l i)
end
end OmegaH.Spec
