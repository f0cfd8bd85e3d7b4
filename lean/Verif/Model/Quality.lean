import Verif.Model.Shape

/-! # Quality of triangles

`sqrt` stands for `std::sqrt` and `eq` for the size of an equilateral triangle of side one.
src/Omega_h_quality.hpp -/

namespace OmegaH

section
variable {K : Type} [Field K] [LinearOrder K]

/-- `metric_size` in the plane: the power is reduced to a square root.
src/Omega_h_shape.hpp:399-403 -/
def metricSize2 (sqrt : K → K) (realSize : K) (m : Mat K 2 2) : K := realSize * sqrt (det2 m)

/-- `mean_squared_metric_length` of the three edges. src/Omega_h_shape.hpp:218-227 -/
def meanSquaredLength2 (ev : Fin 3 → Vec K 2) (m : Mat K 2 2) : K :=
  (0 + metricProduct m (ev 0) + metricProduct m (ev 1) + metricProduct m (ev 2)) / 3

/-- `mean_ratio<2>`: the power is one. src/Omega_h_quality.hpp:8-12 -/
def meanRatio2 (eq size msl : K) : K := size / eq / msl

/-- `metric_element_quality` of a triangle in the plane. src/Omega_h_quality.hpp:26-36 -/
def triQuality (sqrt : K → K) (eq : K) (p : Fin 3 → Vec K 2) (m : Mat K 2 2) : K :=
  let b := simplexBasis p
  let rs := triangleArea2 b
  let s := metricSize2 sqrt rs m
  if s < 0 then s
  else
    let ev := triEdgeVectors p b
    let msl := meanSquaredLength2 ev m
    meanRatio2 eq s msl

/-- `get_1d_cavity_qualities`, one key. src/Omega_h_quality.cpp:80-85 -/
def cavityQuality1 (global : Int) : Int := global.tmod 2
end
end OmegaH
