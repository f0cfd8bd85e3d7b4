import Verif.Model.SmallMat
import Verif.Model.Element

/-! # Sizes, normals and coordinates of one simplex

The functions of src/Omega_h_shape.hpp on the corners of one triangle in the plane or one
tetrahedron in space. Simplification: exact arithmetic, see `Model/SmallMat.lean`. -/

namespace OmegaH

section
variable {K : Type} [Field K] {s e k : Nat}

/-- `simplex_basis`: the vectors from the first corner to the others.
src/Omega_h_shape.hpp:14-19 -/
def simplexBasis (p : Fin (e + 1) → Vec K s) : Mat K s e := fun i => vsub (p i.succ) (p 0)

/-- `Plane<dim>`: a normal, and its product with any point of the plane.
src/Omega_h_shape.hpp:27-31 -/
structure Plane (K : Type) (n : Nat) where
  n : Vec K n
  d : K

/-- `distance`, src/Omega_h_shape.hpp:33-36 -/
def Plane.distance (plane : Plane K (k + 1)) (point : Vec K (k + 1)) : K :=
  vdot plane.n point - plane.d

/-- `form_barycentric`: the first coordinate is what the others leave of one.
src/Omega_h_shape.hpp:44-54 -/
def formBary (c : Vec K e) : Vec K (e + 1) :=
  Fin.cons (Fin.foldl e (fun x0 i => x0 - c i) 1) c

/-- `barycentric_from_global`; `pinv` is the `pseudo_invert` for its dimensions.
src/Omega_h_shape.hpp:56-63 -/
def baryFromGlobal (pinv : Mat K (s + 1) e → Mat K e (s + 1)) (x : Vec K (s + 1))
    (p : Fin (e + 1) → Vec K (s + 1)) : Vec K (e + 1) :=
  formBary (mulVec (pinv (simplexBasis p)) (vsub x (p 0)))

/-- `triangle_area_from_basis` in the plane, src/Omega_h_shape.hpp:81-83 -/
def triangleArea2 (b : Mat K 2 2) : K := cross2 (b 0) (b 1) / 2

/-- `tet_volume_from_basis`, src/Omega_h_shape.hpp:94-96 -/
def tetVolume3 (b : Mat K 3 3) : K := vdot (cross3 (b 0) (b 1)) (b 2) / 6

/-- `real_simplex_size` of a triangle in the plane, src/Omega_h_shape.hpp:166-170 -/
def triSize (p : Fin 3 → Vec K 2) : K := triangleArea2 (simplexBasis p)

/-- `real_simplex_size` of a tetrahedron, src/Omega_h_shape.hpp:166-170 -/
def tetSize (p : Fin 4 → Vec K 3) : K := tetVolume3 (simplexBasis p)

/-- `element_edge_vectors` of a triangle, src/Omega_h_shape.hpp:191-198 -/
def triEdgeVectors (p : Fin 3 → Vec K 2) (b : Mat K 2 2) : Fin 3 → Vec K 2 :=
  ![b 0, vsub (p 2) (p 1), vneg (b 1)]

/-- `element_edge_vectors` of a tetrahedron, src/Omega_h_shape.hpp:200-210 -/
def tetEdgeVectors (p : Fin 4 → Vec K 3) (b : Mat K 3 3) : Fin 6 → Vec K 3 :=
  ![b 0, vsub (p 2) (p 1), vneg (b 1), b 2, vsub (p 3) (p 1), vsub (p 3) (p 2)]

/-- `metric_product`, src/Omega_h_metric.hpp:8-11 -/
def metricProduct (m : Mat K (k + 1) (k + 1)) (v : Vec K (k + 1)) : K := vdot v (mulVec m v)

/-- `element_implied_metric` of a triangle: the linear system with one row for each edge.
src/Omega_h_shape.hpp:240-254 -/
def impliedMetric2 (p : Fin 3 → Vec K 2) : Mat K 2 2 :=
  let b := simplexBasis p
  let ev := triEdgeVectors p b
  let a : Mat K 3 3 := ![fun i => ev i 0 * ev i 0, fun i => ev i 1 * ev i 1,
    fun i => 2 * ev i 0 * ev i 1]
  let rhs : Vec K 3 := fun _ => 1
  vec2symm2 (mulVec (invert3 a) rhs)

/-- The corner of a triangle that `simplex_down_template(2, 1, iedge, i)` names. That the table
has a corner for every edge is part of this definition, and that it is the one of the table is
`triCorner_table`. src/Omega_h_simplex.hpp:23-88 -/
def triCorner (iedge : Fin 3) (i : Fin 2) : Fin 3 :=
  ⟨(simplexDownTemplate 2 1 iedge.val i.val).toNat, by revert iedge i; decide⟩

theorem triCorner_table : ∀ (iedge : Fin 3) (i : Fin 2),
    ((triCorner iedge i).val : Int) = simplexDownTemplate 2 1 iedge.val i.val := by decide

/-- The corner of a tetrahedron that `simplex_down_template(3, 2, iface, i)` names. -/
def tetCorner (iface : Fin 4) (i : Fin 3) : Fin 4 :=
  ⟨(simplexDownTemplate 3 2 iface.val i.val).toNat, by revert iface i; decide⟩

theorem tetCorner_table : ∀ (iface : Fin 4) (i : Fin 3),
    ((tetCorner iface i).val : Int) = simplexDownTemplate 3 2 iface.val i.val := by decide

/-- The side `simplex_opposite_template(2, VERT, ivert)` names.
src/Omega_h_simplex.hpp:232-300 -/
def triOpposite (ivert : Fin 3) : Fin 3 :=
  ⟨(simplexOppositeTemplate 2 0 ivert.val).toNat, by revert ivert; decide⟩

theorem triOpposite_table : ∀ ivert : Fin 3,
    ((triOpposite ivert).val : Int) = simplexOppositeTemplate 2 0 ivert.val := by decide

/-- The side `simplex_opposite_template(3, VERT, ivert)` names. -/
def tetOpposite (ivert : Fin 4) : Fin 4 :=
  ⟨(simplexOppositeTemplate 3 0 ivert.val).toNat, by revert ivert; decide⟩

theorem tetOpposite_table : ∀ ivert : Fin 4,
    ((tetOpposite ivert).val : Int) = simplexOppositeTemplate 3 0 ivert.val := by decide

/-- `get_triangle_normal`, src/Omega_h_shape.hpp:275-279 -/
def triangleNormal (a b c : Vec K 3) : Vec K 3 := cross3 (vsub b a) (vsub c a)

/-- `get_side_vector` of a triangle, src/Omega_h_shape.hpp:285-294 -/
def triSideVector (p : Fin 3 → Vec K 2) (iedge : Fin 3) : Vec K 2 :=
  vneg (perp2 (vsub (p (triCorner iedge 1)) (p (triCorner iedge 0))))

/-- `get_side_vector` of a tetrahedron, src/Omega_h_shape.hpp:296-306 -/
def tetSideVector (p : Fin 4 → Vec K 3) (iface : Fin 4) : Vec K 3 :=
  triangleNormal (p (tetCorner iface 0)) (p (tetCorner iface 1)) (p (tetCorner iface 2))

/-- `get_side_plane` of a triangle, src/Omega_h_shape.hpp:308-314 -/
def triSidePlane (p : Fin 3 → Vec K 2) (iside : Fin 3) : Plane K 2 :=
  let n := triSideVector p iside
  let o := p (triCorner iside 0)
  ⟨n, vdot n o⟩

/-- `get_side_plane` of a tetrahedron, src/Omega_h_shape.hpp:308-314 -/
def tetSidePlane (p : Fin 4 → Vec K 3) (iside : Fin 4) : Plane K 3 :=
  let n := tetSideVector p iside
  let o := p (tetCorner iside 0)
  ⟨n, vdot n o⟩

/-- `get_size_gradient` of a triangle, src/Omega_h_shape.hpp:337-343 -/
def triSizeGradient (p : Fin 3 → Vec K 2) (ivert : Fin 3) : Vec K 2 :=
  vdiv (vneg (triSideVector p (triOpposite ivert))) 2

/-- `get_size_gradient` of a tetrahedron, src/Omega_h_shape.hpp:337-343 -/
def tetSizeGradient (p : Fin 4 → Vec K 3) (ivert : Fin 4) : Vec K 3 :=
  vdiv (vneg (tetSideVector p (tetOpposite ivert))) 6

/-- `get_circumcenter_vector`, src/Omega_h_shape.hpp:366-384 -/
def circumcenterVector (ba ca : Vec K 3) : Vec K 3 :=
  let balength := vdot ba ba
  let calength := vdot ca ca
  let crossbc := cross3 ba ca
  let factor := 1 / 2 / vdot crossbc crossbc
  ![((balength * ca 1 - calength * ba 1) * crossbc 2 -
      (balength * ca 2 - calength * ba 2) * crossbc 1) * factor,
    ((balength * ca 2 - calength * ba 2) * crossbc 0 -
      (balength * ca 0 - calength * ba 0) * crossbc 2) * factor,
    ((balength * ca 0 - calength * ba 0) * crossbc 1 -
      (balength * ca 1 - calength * ba 1) * crossbc 0) * factor]
end

section
variable {K : Type} [Field K] [LinearOrder K] {k : Nat}

/-- `is_barycentric_inside`, with `reduce` of src/Omega_h_few.hpp:129-134.
src/Omega_h_shape.hpp:65-69 -/
def isBaryInside (xi : Vec K (k + 1)) : Bool :=
  decide (0 ≤ Fin.foldl k (fun out i => if xi i.succ < out then xi i.succ else out) (xi 0)) &&
  decide (Fin.foldl k (fun out i => if out < xi i.succ then xi i.succ else out) (xi 0) ≤ 1)
end
end OmegaH
