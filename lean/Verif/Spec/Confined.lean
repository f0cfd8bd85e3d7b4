import Verif.Model.Confined
import Verif.Spec.Shape

/-! # Distances -/

namespace OmegaH.Spec
open OmegaH

variable {K : Type} [Field K] {k : Nat}

/-- Square of the distance of two points. -/
def distSq (x y : Vec K k) : K := ∑ i, (x i - y i) ^ 2

/-- The point of the plane through three points with two given coordinates. -/
def planePoint (a b c : Vec K k) (s t : K) : Vec K k :=
  fun i => a i + s * (b i - a i) + t * (c i - a i)

end OmegaH.Spec
