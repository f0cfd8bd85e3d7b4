import Verif.Spec.Shape
import Verif.Props.C76
import Mathlib.Algebra.BigOperators.Field
import Mathlib.Algebra.Order.BigOperators.Group.Finset

namespace OmegaH
open OmegaH.Spec

section
variable {K : Type} [Field K] {n k s e : Nat}

/-- Twice the signed area of a triangle, written out. -/
def tri2 (a b c : Vec K 2) : K :=
  (b 0 - a 0) * (c 1 - a 1) - (b 1 - a 1) * (c 0 - a 0)

/-- Six times the signed volume of a tetrahedron, written out. -/
def tet6 (a b c d : Vec K 3) : K :=
  ((b 1 - a 1) * (c 2 - a 2) - (b 2 - a 2) * (c 1 - a 1)) * (d 0 - a 0) +
  ((b 2 - a 2) * (c 0 - a 0) - (b 0 - a 0) * (c 2 - a 2)) * (d 1 - a 1) +
  ((b 0 - a 0) * (c 1 - a 1) - (b 1 - a 1) * (c 0 - a 0)) * (d 2 - a 2)

theorem triSize_eq (p : Fin 3 → Vec K 2) : triSize p = tri2 (p 0) (p 1) (p 2) / 2 := rfl

theorem tetSize_eq (p : Fin 4 → Vec K 3) : tetSize p = tet6 (p 0) (p 1) (p 2) (p 3) / 6 :=
  congrArg (· / 6) (vdot3 _ _)

theorem tri_det (p : Fin 3 → Vec K 2) : det2 (simplexBasis p) = tri2 (p 0) (p 1) (p 2) := by
  show (p 1 0 - p 0 0) * (p 2 1 - p 0 1) - (p 2 0 - p 0 0) * (p 1 1 - p 0 1) = _
  unfold tri2; ring

theorem tet_det (p : Fin 4 → Vec K 3) :
    det3 (simplexBasis p) = tet6 (p 0) (p 1) (p 2) (p 3) := by
  show (p 1 0 - p 0 0) * (p 2 1 - p 0 1) * (p 3 2 - p 0 2) +
    (p 2 0 - p 0 0) * (p 3 1 - p 0 1) * (p 1 2 - p 0 2) +
    (p 3 0 - p 0 0) * (p 1 1 - p 0 1) * (p 2 2 - p 0 2) -
    (p 3 0 - p 0 0) * (p 2 1 - p 0 1) * (p 1 2 - p 0 2) -
    (p 2 0 - p 0 0) * (p 1 1 - p 0 1) * (p 3 2 - p 0 2) -
    (p 1 0 - p 0 0) * (p 3 1 - p 0 1) * (p 2 2 - p 0 2) = _
  unfold tet6; ring

/-- An affine map multiplies every size by its determinant, so shifting keeps sizes, turning
keeps them and mirroring changes their sign. -/
theorem C77_mapped (a : Affine K 2) (p : Fin 3 → Vec K 2) (b : Affine K 3) (q : Fin 4 → Vec K 3) :
    triSize (fun i => a.app (p i)) = det2 a.r * triSize p ∧
    tetSize (fun i => b.app (q i)) = det3 b.r * tetSize q := by
  have h2 : ∀ x i, a.app x i = a.r 0 i * x 0 + a.r 1 i * x 1 + a.t i :=
    fun x i => congrArg (· + a.t i) (mulVec2 a.r x i)
  have h3 : ∀ x i, b.app x i = b.r 0 i * x 0 + b.r 1 i * x 1 + b.r 2 i * x 2 + b.t i :=
    fun x i => congrArg (· + b.t i) (mulVec3 b.r x i)
  constructor
  · rw [triSize_eq, triSize_eq]
    simp only [tri2, h2, det2]
    ring
  · rw [tetSize_eq, tetSize_eq]
    simp only [tet6, h3, det3]
    ring

theorem tri_exchange (p : Fin 3 → Vec K 2) (a b : Fin 3) (h : a ≠ b) :
    triSize (exchanged p a b) = -triSize p := by
  rw [triSize_eq, triSize_eq]
  match a, b with
  | 0, 1 => show tri2 (p 1) (p 0) (p 2) / 2 = _; unfold tri2; ring
  | 1, 0 => show tri2 (p 1) (p 0) (p 2) / 2 = _; unfold tri2; ring
  | 0, 2 => show tri2 (p 2) (p 1) (p 0) / 2 = _; unfold tri2; ring
  | 2, 0 => show tri2 (p 2) (p 1) (p 0) / 2 = _; unfold tri2; ring
  | 1, 2 => show tri2 (p 0) (p 2) (p 1) / 2 = _; unfold tri2; ring
  | 2, 1 => show tri2 (p 0) (p 2) (p 1) / 2 = _; unfold tri2; ring
  | 0, 0 => exact absurd rfl h
  | 1, 1 => exact absurd rfl h
  | 2, 2 => exact absurd rfl h

theorem tet_exchange (p : Fin 4 → Vec K 3) (a b : Fin 4) (h : a ≠ b) :
    tetSize (exchanged p a b) = -tetSize p := by
  rw [tetSize_eq, tetSize_eq]
  match a, b with
  | 0, 1 => show tet6 (p 1) (p 0) (p 2) (p 3) / 6 = _; unfold tet6; ring
  | 1, 0 => show tet6 (p 1) (p 0) (p 2) (p 3) / 6 = _; unfold tet6; ring
  | 0, 2 => show tet6 (p 2) (p 1) (p 0) (p 3) / 6 = _; unfold tet6; ring
  | 2, 0 => show tet6 (p 2) (p 1) (p 0) (p 3) / 6 = _; unfold tet6; ring
  | 0, 3 => show tet6 (p 3) (p 1) (p 2) (p 0) / 6 = _; unfold tet6; ring
  | 3, 0 => show tet6 (p 3) (p 1) (p 2) (p 0) / 6 = _; unfold tet6; ring
  | 1, 2 => show tet6 (p 0) (p 2) (p 1) (p 3) / 6 = _; unfold tet6; ring
  | 2, 1 => show tet6 (p 0) (p 2) (p 1) (p 3) / 6 = _; unfold tet6; ring
  | 1, 3 => show tet6 (p 0) (p 3) (p 2) (p 1) / 6 = _; unfold tet6; ring
  | 3, 1 => show tet6 (p 0) (p 3) (p 2) (p 1) / 6 = _; unfold tet6; ring
  | 2, 3 => show tet6 (p 0) (p 1) (p 3) (p 2) / 6 = _; unfold tet6; ring
  | 3, 2 => show tet6 (p 0) (p 1) (p 3) (p 2) / 6 = _; unfold tet6; ring
  | 0, 0 => exact absurd rfl h
  | 1, 1 => exact absurd rfl h
  | 2, 2 => exact absurd rfl h
  | 3, 3 => exact absurd rfl h

/-- Exchanging two corners changes the sign of the size. -/
theorem C77_exchanged (p : Fin 3 → Vec K 2) (q : Fin 4 → Vec K 3) :
    (∀ a b, a ≠ b → triSize (exchanged p a b) = -triSize p) ∧
    ∀ a b, a ≠ b → tetSize (exchanged q a b) = -tetSize q :=
  ⟨tri_exchange p, tet_exchange q⟩

/-- Whatever the point, the simplices it makes with the sides of a simplex have together the size
of the simplex: so neither splitting at a point nor filling a cavity from a point changes the
total. -/
theorem C77_parts (p : Fin 3 → Vec K 2) (x : Vec K 2) (q : Fin 4 → Vec K 3) (y : Vec K 3) :
    ∑ v, triSize (moved p v x) = triSize p ∧ ∑ v, tetSize (moved q v y) = tetSize q := by
  constructor
  · rw [Fin.sum_univ_three]
    simp only [triSize_eq]
    show tri2 x (p 1) (p 2) / 2 + tri2 (p 0) x (p 2) / 2 + tri2 (p 0) (p 1) x / 2 = _
    unfold tri2; ring
  · rw [Fin.sum_univ_four]
    simp only [tetSize_eq]
    show tet6 y (q 1) (q 2) (q 3) / 6 + tet6 (q 0) y (q 2) (q 3) / 6 +
      tet6 (q 0) (q 1) y (q 3) / 6 + tet6 (q 0) (q 1) (q 2) y / 6 = _
    unfold tet6; ring

theorem tri_split (p : Fin 3 → Vec K 2) (a b : Fin 3) (h : a ≠ b) (t : K) :
    triSize (moved p a (between (p a) (p b) t)) = (1 - t) * triSize p := by
  rw [triSize_eq, triSize_eq]
  match a, b with
  | 0, 1 => show tri2 (between (p 0) (p 1) t) (p 1) (p 2) / 2 = _; unfold tri2 between; ring
  | 0, 2 => show tri2 (between (p 0) (p 2) t) (p 1) (p 2) / 2 = _; unfold tri2 between; ring
  | 1, 0 => show tri2 (p 0) (between (p 1) (p 0) t) (p 2) / 2 = _; unfold tri2 between; ring
  | 1, 2 => show tri2 (p 0) (between (p 1) (p 2) t) (p 2) / 2 = _; unfold tri2 between; ring
  | 2, 0 => show tri2 (p 0) (p 1) (between (p 2) (p 0) t) / 2 = _; unfold tri2 between; ring
  | 2, 1 => show tri2 (p 0) (p 1) (between (p 2) (p 1) t) / 2 = _; unfold tri2 between; ring
  | 0, 0 => exact absurd rfl h
  | 1, 1 => exact absurd rfl h
  | 2, 2 => exact absurd rfl h

theorem tet_move (p : Fin 4 → Vec K 3) (v : Fin 4) (x : Vec K 3) :
    tetSize (moved p v x) = match v with
      | 0 => tet6 x (p 1) (p 2) (p 3) / 6
      | 1 => tet6 (p 0) x (p 2) (p 3) / 6
      | 2 => tet6 (p 0) (p 1) x (p 3) / 6
      | 3 => tet6 (p 0) (p 1) (p 2) x / 6 := by
  rw [tetSize_eq]
  match v with
  | 0 => rfl
  | 1 => rfl
  | 2 => rfl
  | 3 => rfl

theorem tet_split (p : Fin 4 → Vec K 3) (a b : Fin 4) (h : a ≠ b) (t : K) :
    tetSize (moved p a (between (p a) (p b) t)) = (1 - t) * tetSize p := by
  rw [tet_move, tetSize_eq]
  match a, b with
  | 0, 1 => simp only [tet6, between]; ring
  | 0, 2 => simp only [tet6, between]; ring
  | 0, 3 => simp only [tet6, between]; ring
  | 1, 0 => simp only [tet6, between]; ring
  | 1, 2 => simp only [tet6, between]; ring
  | 1, 3 => simp only [tet6, between]; ring
  | 2, 0 => simp only [tet6, between]; ring
  | 2, 1 => simp only [tet6, between]; ring
  | 2, 3 => simp only [tet6, between]; ring
  | 3, 0 => simp only [tet6, between]; ring
  | 3, 1 => simp only [tet6, between]; ring
  | 3, 2 => simp only [tet6, between]; ring
  | 0, 0 => exact absurd rfl h
  | 1, 1 => exact absurd rfl h
  | 2, 2 => exact absurd rfl h
  | 3, 3 => exact absurd rfl h

/-- Splitting any edge of a simplex at any point of it: the part that keeps the one end has the
fraction of the size that is left from the point to that end. At the middle each has half. -/
theorem C77_split (p : Fin 3 → Vec K 2) (q : Fin 4 → Vec K 3) :
    (∀ a b, a ≠ b → ∀ t, triSize (moved p a (between (p a) (p b) t)) = (1 - t) * triSize p) ∧
    ∀ a b, a ≠ b → ∀ t, tetSize (moved q a (between (q a) (q b) t)) = (1 - t) * tetSize q :=
  ⟨tri_split p, tet_split q⟩

/-- The gradient of the size with respect to a corner: moving the corner changes the size by
exactly the gradient times the displacement, however far it is moved. -/
theorem C77_gradient (p : Fin 3 → Vec K 2) (d : Vec K 2) (q : Fin 4 → Vec K 3) (f : Vec K 3) :
    (∀ v, triSize (moved p v (vadd (p v) d)) = triSize p + vdot (triSizeGradient p v) d) ∧
    ∀ v, tetSize (moved q v (vadd (q v) f)) = tetSize q + vdot (tetSizeGradient q v) f := by
  constructor
  · intro v
    rw [triSize_eq, triSize_eq, vdot2]
    match v with
    | 0 =>
      show tri2 (vadd (p 0) d) (p 1) (p 2) / 2 = _ +
        (-(-(-(p 2 1 - p 1 1))) / 2 * d 0 + -(-(p 2 0 - p 1 0)) / 2 * d 1)
      unfold tri2 vadd; ring
    | 1 =>
      show tri2 (p 0) (vadd (p 1) d) (p 2) / 2 = _ +
        (-(-(-(p 0 1 - p 2 1))) / 2 * d 0 + -(-(p 0 0 - p 2 0)) / 2 * d 1)
      unfold tri2 vadd; ring
    | 2 =>
      show tri2 (p 0) (p 1) (vadd (p 2) d) / 2 = _ +
        (-(-(-(p 1 1 - p 0 1))) / 2 * d 0 + -(-(p 1 0 - p 0 0)) / 2 * d 1)
      unfold tri2 vadd; ring
  · intro v
    rw [tet_move, tetSize_eq, vdot3]
    have hg : ∀ v i, tetSizeGradient q v i = -(triangleNormal (q (tetCorner (tetOpposite v) 0))
      (q (tetCorner (tetOpposite v) 1)) (q (tetCorner (tetOpposite v) 2)) i) / 6 := fun _ _ => rfl
    have n0 : ∀ a b c : Vec K 3, triangleNormal a b c 0 =
      (b 1 - a 1) * (c 2 - a 2) - (b 2 - a 2) * (c 1 - a 1) := fun _ _ _ => rfl
    have n1 : ∀ a b c : Vec K 3, triangleNormal a b c 1 =
      (b 2 - a 2) * (c 0 - a 0) - (b 0 - a 0) * (c 2 - a 2) := fun _ _ _ => rfl
    have n2 : ∀ a b c : Vec K 3, triangleNormal a b c 2 =
      (b 0 - a 0) * (c 1 - a 1) - (b 1 - a 1) * (c 0 - a 0) := fun _ _ _ => rfl
    rw [hg, hg, hg, n0, n1, n2]
    match v with
    | 0 =>
      rw [show tetCorner (tetOpposite 0) 0 = 1 from rfl, show tetCorner (tetOpposite 0) 1 = 2 from rfl,
        show tetCorner (tetOpposite 0) 2 = 3 from rfl]
      simp only [tet6, vadd]; ring
    | 1 =>
      rw [show tetCorner (tetOpposite 1) 0 = 2 from rfl, show tetCorner (tetOpposite 1) 1 = 0 from rfl,
        show tetCorner (tetOpposite 1) 2 = 3 from rfl]
      simp only [tet6, vadd]; ring
    | 2 =>
      rw [show tetCorner (tetOpposite 2) 0 = 0 from rfl, show tetCorner (tetOpposite 2) 1 = 1 from rfl,
        show tetCorner (tetOpposite 2) 2 = 3 from rfl]
      simp only [tet6, vadd]; ring
    | 3 =>
      rw [show tetCorner (tetOpposite 3) 0 = 0 from rfl, show tetCorner (tetOpposite 3) 1 = 2 from rfl,
        show tetCorner (tetOpposite 3) 2 = 1 from rfl]
      simp only [tet6, vadd]; ring

theorem tri_distance (two : (2 : K) ≠ 0) (p : Fin 3 → Vec K 2) (x : Vec K 2) (v : Fin 3) :
    (triSidePlane p (triOpposite v)).distance x = -(2 * triSize (moved p v x)) := by
  show vdot (triSideVector p (triOpposite v)) x - vdot (triSideVector p (triOpposite v))
    (p (triCorner (triOpposite v) 0)) = _
  rw [triSize_eq, vdot2, vdot2]
  match v with
  | 0 =>
    show -(-(p 2 1 - p 1 1)) * x 0 + -(p 2 0 - p 1 0) * x 1 -
      (-(-(p 2 1 - p 1 1)) * p 1 0 + -(p 2 0 - p 1 0) * p 1 1) =
      -(2 * (tri2 x (p 1) (p 2) / 2))
    rw [mul_div_cancel₀ _ two]; unfold tri2; ring
  | 1 =>
    show -(-(p 0 1 - p 2 1)) * x 0 + -(p 0 0 - p 2 0) * x 1 -
      (-(-(p 0 1 - p 2 1)) * p 2 0 + -(p 0 0 - p 2 0) * p 2 1) =
      -(2 * (tri2 (p 0) x (p 2) / 2))
    rw [mul_div_cancel₀ _ two]; unfold tri2; ring
  | 2 =>
    show -(-(p 1 1 - p 0 1)) * x 0 + -(p 1 0 - p 0 0) * x 1 -
      (-(-(p 1 1 - p 0 1)) * p 0 0 + -(p 1 0 - p 0 0) * p 0 1) =
      -(2 * (tri2 (p 0) (p 1) x / 2))
    rw [mul_div_cancel₀ _ two]; unfold tri2; ring

theorem normal_distance (a b c x : Vec K 3) :
    vdot (triangleNormal a b c) x - vdot (triangleNormal a b c) a = tet6 a b c x := by
  rw [vdot3, vdot3]
  show ((b 1 - a 1) * (c 2 - a 2) - (b 2 - a 2) * (c 1 - a 1)) * x 0 +
    ((b 2 - a 2) * (c 0 - a 0) - (b 0 - a 0) * (c 2 - a 2)) * x 1 +
    ((b 0 - a 0) * (c 1 - a 1) - (b 1 - a 1) * (c 0 - a 0)) * x 2 -
    (((b 1 - a 1) * (c 2 - a 2) - (b 2 - a 2) * (c 1 - a 1)) * a 0 +
    ((b 2 - a 2) * (c 0 - a 0) - (b 0 - a 0) * (c 2 - a 2)) * a 1 +
    ((b 0 - a 0) * (c 1 - a 1) - (b 1 - a 1) * (c 0 - a 0)) * a 2) = _
  unfold tet6; ring

theorem tet_distance (six : (6 : K) ≠ 0) (p : Fin 4 → Vec K 3) (x : Vec K 3) (v : Fin 4) :
    (tetSidePlane p (tetOpposite v)).distance x = -(6 * tetSize (moved p v x)) := by
  rw [tet_move]
  refine (normal_distance _ _ _ x).trans ?_
  match v with
  | 0 =>
    show tet6 (p 1) (p 2) (p 3) x = -(6 * (tet6 x (p 1) (p 2) (p 3) / 6))
    rw [mul_div_cancel₀ _ six]; unfold tet6; ring
  | 1 =>
    show tet6 (p 2) (p 0) (p 3) x = -(6 * (tet6 (p 0) x (p 2) (p 3) / 6))
    rw [mul_div_cancel₀ _ six]; unfold tet6; ring
  | 2 =>
    show tet6 (p 0) (p 1) (p 3) x = -(6 * (tet6 (p 0) (p 1) x (p 3) / 6))
    rw [mul_div_cancel₀ _ six]; unfold tet6; ring
  | 3 =>
    show tet6 (p 0) (p 2) (p 1) x = -(6 * (tet6 (p 0) (p 1) (p 2) x / 6))
    rw [mul_div_cancel₀ _ six]; unfold tet6; ring

omit [Field K] in
theorem moved_self (p : Fin (n + 1) → Vec K k) (v : Fin (n + 1)) : moved p v (p v) = p := by
  funext i
  unfold moved
  split
  · rename_i h; rw [h]
  · rfl

theorem tri_flat (p : Fin 3 → Vec K 2) (a b : Fin 3) (h : a ≠ b) :
    triSize (moved p a (p b)) = 0 := by
  have e : between (p a) (p b) 1 = p b := by funext i; simp [between]
  have := tri_split p a b h 1
  rwa [e, sub_self, zero_mul] at this

theorem tet_flat (p : Fin 4 → Vec K 3) (a b : Fin 4) (h : a ≠ b) :
    tetSize (moved p a (p b)) = 0 := by
  have e : between (p a) (p b) 1 = p b := by funext i; simp [between]
  have := tet_split p a b h 1
  rwa [e, sub_self, zero_mul] at this

/-- The plane of the side opposite to a corner contains all other corners; its normal points
outward, so that the corner itself is on the inner side if the size is positive, by an amount
that measures the size; and the normals of all sides cancel. -/
theorem C77_sides (two : (2 : K) ≠ 0) (three : (3 : K) ≠ 0) (p : Fin 3 → Vec K 2)
    (q : Fin 4 → Vec K 3) :
    (∀ v, (triSidePlane p (triOpposite v)).distance (p v) = -(2 * triSize p)) ∧
    (∀ v w, v ≠ w → (triSidePlane p (triOpposite v)).distance (p w) = 0) ∧
    (∀ i, ∑ e, triSideVector p e i = 0) ∧
    (∀ v, (tetSidePlane q (tetOpposite v)).distance (q v) = -(6 * tetSize q)) ∧
    (∀ v w, v ≠ w → (tetSidePlane q (tetOpposite v)).distance (q w) = 0) ∧
    ∀ i, ∑ f, tetSideVector q f i = 0 := by
  have six : (6 : K) ≠ 0 := by
    have : (6 : K) = 2 * 3 := by norm_num
    rw [this]; exact mul_ne_zero two three
  refine ⟨fun v => ?_, fun v w h => ?_, fun i => ?_, fun v => ?_, fun v w h => ?_, fun i => ?_⟩
  · rw [tri_distance two, moved_self]
  · rw [tri_distance two, tri_flat p v w h, mul_zero, neg_zero]
  · rw [Fin.sum_univ_three]
    match i with
    | 0 =>
      show -(-(p 1 1 - p 0 1)) + -(-(p 2 1 - p 1 1)) + -(-(p 0 1 - p 2 1)) = 0
      ring
    | 1 =>
      show -(p 1 0 - p 0 0) + -(p 2 0 - p 1 0) + -(p 0 0 - p 2 0) = 0
      ring
  · rw [tet_distance six, moved_self]
  · rw [tet_distance six, tet_flat q v w h, mul_zero, neg_zero]
  · rw [Fin.sum_univ_four]
    show triangleNormal (q 0) (q 2) (q 1) i + triangleNormal (q 0) (q 1) (q 3) i +
      triangleNormal (q 1) (q 2) (q 3) i + triangleNormal (q 2) (q 0) (q 3) i = 0
    have n0 : ∀ a b c : Vec K 3, triangleNormal a b c 0 =
      (b 1 - a 1) * (c 2 - a 2) - (b 2 - a 2) * (c 1 - a 1) := fun _ _ _ => rfl
    have n1 : ∀ a b c : Vec K 3, triangleNormal a b c 1 =
      (b 2 - a 2) * (c 0 - a 0) - (b 0 - a 0) * (c 2 - a 2) := fun _ _ _ => rfl
    have n2 : ∀ a b c : Vec K 3, triangleNormal a b c 2 =
      (b 0 - a 0) * (c 1 - a 1) - (b 1 - a 1) * (c 0 - a 0) := fun _ _ _ => rfl
    match i with
    | 0 => rw [n0, n0, n0, n0]; ring
    | 1 => rw [n1, n1, n1, n1]; ring
    | 2 => rw [n2, n2, n2, n2]; ring

/-! ### Weights -/

theorem finFoldl_sub (f : Fin e → K) (z : K) :
    Fin.foldl e (fun c j => c - f j) z = z - ∑ j, f j := by
  induction e with
  | zero => simp
  | succ k ih => rw [Fin.foldl_succ_last, ih, Fin.sum_univ_castSucc]; ring

theorem formBary_zero (c : Vec K e) : formBary c 0 = 1 - ∑ j, c j := finFoldl_sub c 1

theorem formBary_sum (c : Vec K e) : ∑ v, formBary c v = 1 := by
  rw [Fin.sum_univ_succ, formBary_zero]
  show 1 - ∑ j, c j + ∑ j, c j = 1
  ring

theorem weighted_form (w : Vec K (e + 1)) (h : ∑ v, w v = 1) (p : Fin (e + 1) → Vec K s)
    (i : Fin s) : weighted w p i = p 0 i + ∑ j : Fin e, simplexBasis p j i * w j.succ := by
  have h0 : w 0 = 1 - ∑ j : Fin e, w j.succ := by
    rw [Fin.sum_univ_succ] at h; linear_combination h
  show ∑ v, w v * p v i = p 0 i + ∑ j : Fin e, (p j.succ i - p 0 i) * w j.succ
  rw [Fin.sum_univ_succ, h0]
  simp only [sub_mul, Finset.sum_sub_distrib, ← Finset.mul_sum, mul_comm (w _)]
  ring

theorem mulVec_vsub_left {inv : Mat K (k + 1) (k + 1) → Mat K (k + 1) (k + 1)}
    (p : Fin (k + 2) → Vec K (k + 1)) (h : Undo (simplexBasis p) (inv (simplexBasis p)))
    (x : Vec K (k + 1)) :
    Weights (baryFromGlobal inv x p) p x ∧ ∀ w, Weights w p x → w = baryFromGlobal inv x p := by
  have hr := mulVec_ident _ (undo_left h)
  have hl := mulVec_ident _ (undo_left (undo_swap h))
  constructor
  · refine ⟨formBary_sum _, ?_⟩
    funext i
    rw [baryFromGlobal, weighted_form _ (formBary_sum _)]
    have := congrFun (hr (vsub x (p 0))) i
    rw [← mulVec_mulVec, mulVec_sum] at this
    refine (congrArg (p 0 i + ·) this).trans ?_
    show p 0 i + (x i - p 0 i) = x i
    ring
  · intro w hw
    have ht : vsub x (p 0) = mulVec (simplexBasis p) (fun j => w j.succ) := by
      funext i
      rw [mulVec_sum]
      have := (weighted_form w hw.1 p i).symm.trans (congrFun hw.2 i)
      show x i - p 0 i = _
      linear_combination -this
    unfold baryFromGlobal
    rw [ht, mulVec_mulVec, hl]
    funext v
    refine Fin.cases ?_ (fun j => rfl) v
    rw [formBary_zero]
    have := hw.1
    rw [Fin.sum_univ_succ] at this
    linear_combination this

theorem tall_weights {inv : Mat K (k + 1) (k + 1) → Mat K (k + 1) (k + 1)}
    (p : Fin (k + 2) → Vec K (s + 1))
    (h : Undo (matMul (transp (simplexBasis p)) (simplexBasis p))
      (inv (matMul (transp (simplexBasis p)) (simplexBasis p)))) (x : Vec K (s + 1)) :
    (∑ v, baryFromGlobal (pinvTall inv) x p v = 1) ∧
    (∀ j, ∑ i, simplexBasis p j i * (x i - weighted (baryFromGlobal (pinvTall inv) x p) p i) = 0) ∧
    ∀ w, Weights w p x → w = baryFromGlobal (pinvTall inv) x p := by
  have hl := mulVec_ident _ (pinvTall_left (simplexBasis p) h)
  have hn := pinvTall_normal (simplexBasis p) h
  refine ⟨formBary_sum _, fun j => ?_, fun w hw => ?_⟩
  · have e1 : ∀ i, x i - weighted (baryFromGlobal (pinvTall inv) x p) p i =
        vsub x (p 0) i - mulVec (simplexBasis p)
          (mulVec (pinvTall inv (simplexBasis p)) (vsub x (p 0))) i := by
      intro i
      rw [baryFromGlobal, weighted_form _ (formBary_sum _), mulVec_sum]
      show x i - (p 0 i + ∑ j, simplexBasis p j i *
        mulVec (pinvTall inv (simplexBasis p)) (vsub x (p 0)) j) = x i - p 0 i - _
      ring
    simp only [e1, mul_sub, Finset.sum_sub_distrib]
    have e2 : ∀ y : Vec K (s + 1), ∑ i, simplexBasis p j i * y i =
        mulVec (transp (simplexBasis p)) y j := fun y =>
      (mulVec_sum (transp (simplexBasis p)) y j).symm
    rw [e2, e2, mulVec_mulVec, mulVec_mulVec, hn, sub_self]
  · have ht : vsub x (p 0) = mulVec (simplexBasis p) (fun j => w j.succ) := by
      funext i
      rw [mulVec_sum]
      have := (weighted_form w hw.1 p i).symm.trans (congrFun hw.2 i)
      show x i - p 0 i = _
      linear_combination -this
    unfold baryFromGlobal
    rw [ht, mulVec_mulVec, hl]
    funext v
    refine Fin.cases ?_ (fun j => rfl) v
    rw [formBary_zero]
    have := hw.1
    rw [Fin.sum_univ_succ] at this
    linear_combination this

theorem tri_undo (p : Fin 3 → Vec K 2) (h : triSize p ≠ 0) :
    Undo (simplexBasis p) (invert2 (simplexBasis p)) := by
  refine invert2_undo _ fun hd => h ?_
  rw [tri_det] at hd
  rw [triSize_eq, hd, zero_div]

theorem tet_undo (p : Fin 4 → Vec K 3) (h : tetSize p ≠ 0) :
    Undo (simplexBasis p) (invert3 (simplexBasis p)) := by
  refine invert3_undo _ fun hd => h ?_
  rw [tet_det] at hd
  rw [tetSize_eq, hd, zero_div]

/-- The barycentric coordinates of a point with respect to a simplex that is not flat are the one
and only set of weights that add up to one and give the point; and each of them is the size of
the simplex with that corner moved to the point, relative to the whole. -/
theorem C77_barycentric (p : Fin 3 → Vec K 2) (x : Vec K 2) (q : Fin 4 → Vec K 3) (y : Vec K 3) :
    (triSize p ≠ 0 → Weights (baryFromGlobal invert2 x p) p x ∧
      (∀ w, Weights w p x → w = baryFromGlobal invert2 x p) ∧
      ∀ v, baryFromGlobal invert2 x p v = triSize (moved p v x) / triSize p) ∧
    (tetSize q ≠ 0 → Weights (baryFromGlobal invert3 y q) q y ∧
      (∀ w, Weights w q y → w = baryFromGlobal invert3 y q) ∧
      ∀ v, baryFromGlobal invert3 y q v = tetSize (moved q v y) / tetSize q) := by
  constructor
  · intro h
    obtain ⟨h1, h2⟩ := mulVec_vsub_left p (tri_undo p h) x
    refine ⟨h1, h2, fun v => ?_⟩
    refine (congrFun (h2 (fun v => triSize (moved p v x) / triSize p) ⟨?_, ?_⟩) v).symm
    · rw [← Finset.sum_div, (C77_parts p x (fun _ _ => 0) (fun _ => 0)).1, div_self h]
    · funext i
      have e : ∑ v, triSize (moved p v x) * p v i = triSize p * x i := by
        rw [Fin.sum_univ_three]
        simp only [triSize_eq]
        show tri2 x (p 1) (p 2) / 2 * p 0 i + tri2 (p 0) x (p 2) / 2 * p 1 i +
          tri2 (p 0) (p 1) x / 2 * p 2 i = tri2 (p 0) (p 1) (p 2) / 2 * x i
        match i with
        | 0 => unfold tri2; ring
        | 1 => unfold tri2; ring
      show ∑ v, triSize (moved p v x) / triSize p * p v i = x i
      simp only [div_mul_eq_mul_div]
      rw [← Finset.sum_div, e, mul_div_assoc, mul_div_cancel₀ _ h]
  · intro h
    obtain ⟨h1, h2⟩ := mulVec_vsub_left q (tet_undo q h) y
    refine ⟨h1, h2, fun v => ?_⟩
    refine (congrFun (h2 (fun v => tetSize (moved q v y) / tetSize q) ⟨?_, ?_⟩) v).symm
    · rw [← Finset.sum_div, (C77_parts (fun _ _ => 0) (fun _ => 0) q y).2, div_self h]
    · funext i
      have e : ∑ v, tetSize (moved q v y) * q v i = tetSize q * y i := by
        rw [Fin.sum_univ_four]
        simp only [tetSize_eq]
        show tet6 y (q 1) (q 2) (q 3) / 6 * q 0 i + tet6 (q 0) y (q 2) (q 3) / 6 * q 1 i +
          tet6 (q 0) (q 1) y (q 3) / 6 * q 2 i + tet6 (q 0) (q 1) (q 2) y / 6 * q 3 i =
          tet6 (q 0) (q 1) (q 2) (q 3) / 6 * y i
        match i with
        | 0 => unfold tet6; ring
        | 1 => unfold tet6; ring
        | 2 => unfold tet6; ring
      show ∑ v, tetSize (moved q v y) / tetSize q * q v i = y i
      simp only [div_mul_eq_mul_div]
      rw [← Finset.sum_div, e, mul_div_assoc, mul_div_cancel₀ _ h]

/-- For a triangle or an edge in a space of more dimensions the coordinates add up to one, belong
to the foot of the perpendicular from the point, and are the weights of the point if it has
any. -/
theorem C77_barycentric_flat (p : Fin 3 → Vec K (s + 1)) (q : Fin 2 → Vec K (s + 1))
    (x : Vec K (s + 1)) :
    (det2 (matMul (transp (simplexBasis p)) (simplexBasis p)) ≠ 0 →
      (∑ v, baryFromGlobal (pinvTall invert2) x p v = 1) ∧
      (∀ j, ∑ i, simplexBasis p j i *
        (x i - weighted (baryFromGlobal (pinvTall invert2) x p) p i) = 0) ∧
      ∀ w, Weights w p x → w = baryFromGlobal (pinvTall invert2) x p) ∧
    (det1 (matMul (transp (simplexBasis q)) (simplexBasis q)) ≠ 0 →
      (∑ v, baryFromGlobal (pinvTall invert1) x q v = 1) ∧
      (∀ j, ∑ i, simplexBasis q j i *
        (x i - weighted (baryFromGlobal (pinvTall invert1) x q) q i) = 0) ∧
      ∀ w, Weights w q x → w = baryFromGlobal (pinvTall invert1) x q) :=
  ⟨fun h => tall_weights p (invert2_undo _ h) x, fun h => tall_weights q (invert1_undo _ h) x⟩

/-! ### Edges, the implied metric and the centre of the circle -/

/-- Every edge vector goes from the first to the second end that the tables give the edge. -/
theorem C77_edges (p : Fin 3 → Vec K 2) (q : Fin 4 → Vec K 3) :
    (∀ e a b, (a.val : Int) = simplexDownTemplate 2 1 e.val 0 →
      (b.val : Int) = simplexDownTemplate 2 1 e.val 1 →
      triEdgeVectors p (simplexBasis p) e = vsub (p b) (p a)) ∧
    ∀ e a b, (a.val : Int) = simplexDownTemplate 3 1 e.val 0 →
      (b.val : Int) = simplexDownTemplate 3 1 e.val 1 →
      tetEdgeVectors q (simplexBasis q) e = vsub (q b) (q a) := by
  have hneg : ∀ {n : Nat} (x y : Vec K n), vneg (vsub x y) = vsub y x := fun x y => by
    funext i; show -(x i - y i) = y i - x i; ring
  constructor
  · intro e a b ha hb
    match e with
    | 0 =>
      obtain rfl : a = 0 := Fin.ext (Int.ofNat_inj.1 ha)
      obtain rfl : b = 1 := Fin.ext (Int.ofNat_inj.1 hb)
      rfl
    | 1 =>
      obtain rfl : a = 1 := Fin.ext (Int.ofNat_inj.1 ha)
      obtain rfl : b = 2 := Fin.ext (Int.ofNat_inj.1 hb)
      rfl
    | 2 =>
      obtain rfl : a = 2 := Fin.ext (Int.ofNat_inj.1 ha)
      obtain rfl : b = 0 := Fin.ext (Int.ofNat_inj.1 hb)
      exact hneg (p 2) (p 0)
  · intro e a b ha hb
    match e with
    | 0 =>
      obtain rfl : a = 0 := Fin.ext (Int.ofNat_inj.1 ha)
      obtain rfl : b = 1 := Fin.ext (Int.ofNat_inj.1 hb)
      rfl
    | 1 =>
      obtain rfl : a = 1 := Fin.ext (Int.ofNat_inj.1 ha)
      obtain rfl : b = 2 := Fin.ext (Int.ofNat_inj.1 hb)
      rfl
    | 2 =>
      obtain rfl : a = 2 := Fin.ext (Int.ofNat_inj.1 ha)
      obtain rfl : b = 0 := Fin.ext (Int.ofNat_inj.1 hb)
      exact hneg (q 2) (q 0)
    | 3 =>
      obtain rfl : a = 0 := Fin.ext (Int.ofNat_inj.1 ha)
      obtain rfl : b = 3 := Fin.ext (Int.ofNat_inj.1 hb)
      rfl
    | 4 =>
      obtain rfl : a = 1 := Fin.ext (Int.ofNat_inj.1 ha)
      obtain rfl : b = 3 := Fin.ext (Int.ofNat_inj.1 hb)
      rfl
    | 5 =>
      obtain rfl : a = 2 := Fin.ext (Int.ofNat_inj.1 ha)
      obtain rfl : b = 3 := Fin.ext (Int.ofNat_inj.1 hb)
      rfl

/-- The system of `element_implied_metric`. -/
def impliedSystem (p : Fin 3 → Vec K 2) : Mat K 3 3 :=
  let ev := triEdgeVectors p (simplexBasis p)
  ![fun i => ev i 0 * ev i 0, fun i => ev i 1 * ev i 1, fun i => 2 * ev i 0 * ev i 1]

theorem impliedSystem_det (p : Fin 3 → Vec K 2) :
    det3 (impliedSystem p) = 2 * tri2 (p 0) (p 1) (p 2) ^ 3 := by
  have e0 : ∀ i, triEdgeVectors p (simplexBasis p) 0 i = p 1 i - p 0 i := fun _ => rfl
  have e1 : ∀ i, triEdgeVectors p (simplexBasis p) 1 i = p 2 i - p 1 i := fun _ => rfl
  have e2 : ∀ i, triEdgeVectors p (simplexBasis p) 2 i = -(p 2 i - p 0 i) := fun _ => rfl
  have a0 : ∀ i, impliedSystem p 0 i = triEdgeVectors p (simplexBasis p) i 0 *
    triEdgeVectors p (simplexBasis p) i 0 := fun _ => rfl
  have a1 : ∀ i, impliedSystem p 1 i = triEdgeVectors p (simplexBasis p) i 1 *
    triEdgeVectors p (simplexBasis p) i 1 := fun _ => rfl
  have a2 : ∀ i, impliedSystem p 2 i = 2 * triEdgeVectors p (simplexBasis p) i 0 *
    triEdgeVectors p (simplexBasis p) i 1 := fun _ => rfl
  simp only [det3, a0, a1, a2, e0, e1, e2, tri2]
  ring

theorem impliedSystem_row (p : Fin 3 → Vec K 2) (v : Vec K 3) (e : Fin 3) :
    mulVec (impliedSystem p) v e =
      metricProduct (vec2symm2 v) (triEdgeVectors p (simplexBasis p) e) := by
  rw [mulVec3, metricProduct, vdot2, mulVec2, mulVec2]
  have a0 : impliedSystem p 0 e = triEdgeVectors p (simplexBasis p) e 0 *
    triEdgeVectors p (simplexBasis p) e 0 := rfl
  have a1 : impliedSystem p 1 e = triEdgeVectors p (simplexBasis p) e 1 *
    triEdgeVectors p (simplexBasis p) e 1 := rfl
  have a2 : impliedSystem p 2 e = 2 * triEdgeVectors p (simplexBasis p) e 0 *
    triEdgeVectors p (simplexBasis p) e 1 := rfl
  have m00 : vec2symm2 v 0 0 = v 0 := rfl
  have m01 : vec2symm2 v 0 1 = v 2 := rfl
  have m10 : vec2symm2 v 1 0 = v 2 := rfl
  have m11 : vec2symm2 v 1 1 = v 1 := rfl
  rw [a0, a1, a2, m00, m01, m10, m11]
  ring

/-- The metric implied by a triangle that is not flat is the one and only symmetric matrix in
which all edges of the triangle have length one. -/
theorem C77_implied (two : (2 : K) ≠ 0) (p : Fin 3 → Vec K 2) (h : triSize p ≠ 0) :
    Spec.Symmetric (impliedMetric2 p) ∧
    (∀ a b, a ≠ b → metricProduct (impliedMetric2 p) (vsub (p b) (p a)) = 1) ∧
    ∀ m, Spec.Symmetric m → (∀ a b, a ≠ b → metricProduct m (vsub (p b) (p a)) = 1) →
      m = impliedMetric2 p := by
  have hd : det3 (impliedSystem p) ≠ 0 := by
    rw [impliedSystem_det]
    refine mul_ne_zero two (pow_ne_zero _ fun h0 => h ?_)
    rw [triSize_eq, h0, zero_div]
  have hu := invert3_undo _ hd
  have hr := mulVec_ident _ (undo_left hu)
  have hl := mulVec_ident _ (undo_left (undo_swap hu))
  have hm : impliedMetric2 p = vec2symm2 (mulVec (invert3 (impliedSystem p)) fun _ => 1) := rfl
  have hpack := fun (a : Mat K 2 2) v => C76_packing a (fun _ _ => (0 : K)) v (fun _ => (0 : K))
  have e0 : triEdgeVectors p (simplexBasis p) 0 = vsub (p 1) (p 0) := rfl
  have e1 : triEdgeVectors p (simplexBasis p) 1 = vsub (p 2) (p 1) := rfl
  have e2 : triEdgeVectors p (simplexBasis p) 2 = vsub (p 0) (p 2) := by
    funext i; show -(p 2 i - p 0 i) = p 0 i - p 2 i; ring
  have hrow : ∀ e, metricProduct (impliedMetric2 p) (triEdgeVectors p (simplexBasis p) e) = 1 := by
    intro e
    rw [hm, ← impliedSystem_row, mulVec_mulVec, hr]
  have hflip : ∀ (m : Mat K 2 2) (x y : Vec K 2),
      metricProduct m (vsub x y) = metricProduct m (vsub y x) := by
    intro m x y
    simp only [metricProduct, vdot2, mulVec2, vsub]
    ring
  refine ⟨?_, fun a b hab => ?_, fun m hs hone => ?_⟩
  · rw [hm]; exact (hpack (fun _ _ => 0) _).2.2.1.1
  · have r0 := hrow 0
    have r1 := hrow 1
    have r2 := hrow 2
    rw [e0] at r0; rw [e1] at r1; rw [e2] at r2
    match a, b with
    | 0, 0 => exact absurd rfl hab
    | 1, 1 => exact absurd rfl hab
    | 2, 2 => exact absurd rfl hab
    | 0, 1 => exact r0
    | 1, 0 => rw [hflip]; exact r0
    | 1, 2 => exact r1
    | 2, 1 => rw [hflip]; exact r1
    | 2, 0 => exact r2
    | 0, 2 => rw [hflip]; exact r2
  · have hv : vec2symm2 (symm2vec2 m) = m := ((hpack m (fun _ => 0)).1 hs).1
    have hs1 : mulVec (impliedSystem p) (symm2vec2 m) = fun _ => 1 := by
      funext e
      rw [impliedSystem_row, hv]
      match e with
      | 0 => rw [e0]; exact hone 0 1 (by decide)
      | 1 => rw [e1]; exact hone 1 2 (by decide)
      | 2 => rw [e2]; exact hone 2 0 (by decide)
    rw [hm, ← hs1, mulVec_mulVec, hl, hv]

/-- The vector from the first corner of a triangle in space to the centre of the circle around it:
it is as far from all three corners, and in the plane of the triangle. -/
theorem C77_circumcenter (two : (2 : K) ≠ 0) (ba ca : Vec K 3)
    (h : vdot (cross3 ba ca) (cross3 ba ca) ≠ 0) :
    let c := circumcenterVector ba ca
    vdot (vsub c ba) (vsub c ba) = vdot c c ∧ vdot (vsub c ca) (vsub c ca) = vdot c c ∧
    vdot c (cross3 ba ca) = 0 := by
  have hx0 : cross3 ba ca 0 = ba 1 * ca 2 - ba 2 * ca 1 := rfl
  have hx1 : cross3 ba ca 1 = ba 2 * ca 0 - ba 0 * ca 2 := rfl
  have hx2 : cross3 ba ca 2 = ba 0 * ca 1 - ba 1 * ca 0 := rfl
  have hf : 2 * (1 / 2 / vdot (cross3 ba ca) (cross3 ba ca)) *
      vdot (cross3 ba ca) (cross3 ba ca) = 1 := by
    rw [mul_assoc, div_mul_cancel₀ _ h, mul_one_div_cancel two]
  generalize hg : 1 / 2 / vdot (cross3 ba ca) (cross3 ba ca) = f at hf
  have c0 : circumcenterVector ba ca 0 = ((vdot ba ba * ca 1 - vdot ca ca * ba 1) *
      cross3 ba ca 2 - (vdot ba ba * ca 2 - vdot ca ca * ba 2) * cross3 ba ca 1) * f := by
    rw [← hg]; rfl
  have c1 : circumcenterVector ba ca 1 = ((vdot ba ba * ca 2 - vdot ca ca * ba 2) *
      cross3 ba ca 0 - (vdot ba ba * ca 0 - vdot ca ca * ba 0) * cross3 ba ca 2) * f := by
    rw [← hg]; rfl
  have c2 : circumcenterVector ba ca 2 = ((vdot ba ba * ca 0 - vdot ca ca * ba 0) *
      cross3 ba ca 1 - (vdot ba ba * ca 1 - vdot ca ca * ba 1) * cross3 ba ca 0) * f := by
    rw [← hg]; rfl
  have expand : ∀ c b : Vec K 3, vdot (vsub c b) (vsub c b) =
      vdot c c - (2 * vdot c b - vdot b b) := by
    intro c b; simp only [vdot3, vsub]; ring
  have k1 : 2 * vdot (circumcenterVector ba ca) ba - vdot ba ba = 0 := by
    rw [vdot3 (circumcenterVector ba ca), c0, c1, c2]
    generalize hb : vdot ba ba = B at *
    generalize vdot ca ca = C at *
    rw [vdot3] at hf
    simp only [hx0, hx1, hx2] at *
    linear_combination B * hf
  have k2 : 2 * vdot (circumcenterVector ba ca) ca - vdot ca ca = 0 := by
    rw [vdot3 (circumcenterVector ba ca), c0, c1, c2]
    generalize hb : vdot ba ba = B at *
    generalize vdot ca ca = C at *
    rw [vdot3] at hf
    simp only [hx0, hx1, hx2] at *
    linear_combination C * hf
  refine ⟨?_, ?_, ?_⟩
  · rw [expand, k1, sub_zero]
  · rw [expand, k2, sub_zero]
  · rw [vdot3, c0, c1, c2, hx0, hx1, hx2]
    generalize vdot ba ba = B
    generalize vdot ca ca = C
    ring
end

/-! ### Inside -/

section
variable {K : Type} [Field K] [LinearOrder K] [IsStrictOrderedRing K] {k : Nat}

omit [Field K] [IsStrictOrderedRing K] in
theorem finFoldl_min_le : ∀ {k : Nat} (d : Fin k → K) (z y : K),
    y ≤ Fin.foldl k (fun acc i => if d i < acc then d i else acc) z ↔ y ≤ z ∧ ∀ i, y ≤ d i
  | 0, d, z, y => ⟨fun h => ⟨by simpa using h, fun i => i.elim0⟩, fun h => by simpa using h.1⟩
  | k + 1, d, z, y => by
    have ih := finFoldl_min_le (fun i : Fin k => d i.castSucc) z y
    rw [Fin.foldl_succ_last]
    generalize Fin.foldl k (fun acc i => if d i.castSucc < acc then d i.castSucc else acc) z = r at *
    rw [Fin.forall_fin_succ']
    split
    · rename_i h
      exact ⟨fun hy => ⟨(ih.1 (le_trans hy h.le)).1, (ih.1 (le_trans hy h.le)).2, hy⟩,
        fun hy => hy.2.2⟩
    · rename_i h
      exact ⟨fun hy => ⟨(ih.1 hy).1, (ih.1 hy).2, le_trans hy (not_lt.1 h)⟩,
        fun hy => ih.2 ⟨hy.1, hy.2.1⟩⟩

omit [Field K] [IsStrictOrderedRing K] in
theorem finFoldl_max_le : ∀ {k : Nat} (d : Fin k → K) (z y : K),
    Fin.foldl k (fun acc i => if acc < d i then d i else acc) z ≤ y ↔ z ≤ y ∧ ∀ i, d i ≤ y
  | 0, d, z, y => ⟨fun h => ⟨by simpa using h, fun i => i.elim0⟩, fun h => by simpa using h.1⟩
  | k + 1, d, z, y => by
    have ih := finFoldl_max_le (fun i : Fin k => d i.castSucc) z y
    rw [Fin.foldl_succ_last]
    generalize Fin.foldl k (fun acc i => if acc < d i.castSucc then d i.castSucc else acc) z = r at *
    rw [Fin.forall_fin_succ']
    split
    · rename_i h
      exact ⟨fun hy => ⟨(ih.1 (le_trans h.le hy)).1, (ih.1 (le_trans h.le hy)).2, hy⟩,
        fun hy => hy.2.2⟩
    · rename_i h
      exact ⟨fun hy => ⟨(ih.1 hy).1, (ih.1 hy).2, le_trans (not_lt.1 h) hy⟩,
        fun hy => ih.2 ⟨hy.1, hy.2.1⟩⟩

omit [IsStrictOrderedRing K] in
theorem inside_iff (xi : Vec K (k + 1)) :
    isBaryInside xi = true ↔ ∀ v, 0 ≤ xi v ∧ xi v ≤ 1 := by
  unfold isBaryInside
  rw [Bool.and_eq_true, decide_eq_true_iff, decide_eq_true_iff,
    finFoldl_min_le (fun i : Fin k => xi i.succ), finFoldl_max_le (fun i : Fin k => xi i.succ),
    Fin.forall_fin_succ]
  exact ⟨fun h => ⟨⟨h.1.1, h.2.1⟩, fun i => ⟨h.1.2 i, h.2.2 i⟩⟩,
    fun h => ⟨⟨h.1.1, fun i => (h.2 i).1⟩, h.1.2, fun i => (h.2 i).2⟩⟩

theorem inside_weights (xi : Vec K (k + 1)) (h : ∑ v, xi v = 1) :
    isBaryInside xi = true ↔ ∀ v, 0 ≤ xi v := by
  rw [inside_iff]
  refine ⟨fun g v => (g v).1, fun g v => ⟨g v, ?_⟩⟩
  rw [← h]
  exact Finset.single_le_sum (f := xi) (fun i _ => g i) (Finset.mem_univ v)

/-- A point is found inside a simplex that is not flat exactly if it is some weighted mean of the
corners with no weight below zero, that is, if it is in the simplex; and a simplex of positive
size contains it exactly if it is not beyond any side. -/
theorem C77_inside (p : Fin 3 → Vec K 2) (x : Vec K 2) (q : Fin 4 → Vec K 3) (y : Vec K 3) :
    (triSize p ≠ 0 → (isBaryInside (baryFromGlobal invert2 x p) = true ↔
      ∃ w, Weights w p x ∧ ∀ v, 0 ≤ w v)) ∧
    (0 < triSize p → (isBaryInside (baryFromGlobal invert2 x p) = true ↔
      ∀ e, (triSidePlane p e).distance x ≤ 0)) ∧
    (tetSize q ≠ 0 → (isBaryInside (baryFromGlobal invert3 y q) = true ↔
      ∃ w, Weights w q y ∧ ∀ v, 0 ≤ w v)) ∧
    (0 < tetSize q → (isBaryInside (baryFromGlobal invert3 y q) = true ↔
      ∀ f, (tetSidePlane q f).distance y ≤ 0)) := by
  have o3 : ∀ e : Fin 3, ∃ v, triOpposite v = e := by decide
  have o4 : ∀ e : Fin 4, ∃ v, tetOpposite v = e := by decide
  refine ⟨fun h => ?_, fun h => ?_, fun h => ?_, fun h => ?_⟩
  · obtain ⟨h1, h2, -⟩ := (C77_barycentric p x (fun _ _ => 0) (fun _ => 0)).1 h
    rw [inside_weights _ h1.1]
    exact ⟨fun g => ⟨_, h1, g⟩, fun ⟨w, hw, g⟩ => h2 w hw ▸ g⟩
  · obtain ⟨h1, -, h3⟩ := (C77_barycentric p x (fun _ _ => 0) (fun _ => 0)).1 h.ne'
    rw [inside_weights _ h1.1]
    have key : ∀ v, 0 ≤ baryFromGlobal invert2 x p v ↔
        (triSidePlane p (triOpposite v)).distance x ≤ 0 := by
      intro v
      rw [h3, tri_distance two_ne_zero, neg_nonpos, mul_nonneg_iff_of_pos_left two_pos,
        le_div_iff₀ h, zero_mul]
    exact ⟨fun g e => let ⟨v, hv⟩ := o3 e; hv ▸ (key v).1 (g v), fun g v => (key v).2 (g _)⟩
  · obtain ⟨h1, h2, -⟩ := (C77_barycentric (fun _ _ => 0) (fun _ => 0) q y).2 h
    rw [inside_weights _ h1.1]
    exact ⟨fun g => ⟨_, h1, g⟩, fun ⟨w, hw, g⟩ => h2 w hw ▸ g⟩
  · obtain ⟨h1, -, h3⟩ := (C77_barycentric (fun _ _ => 0) (fun _ => 0) q y).2 h.ne'
    rw [inside_weights _ h1.1]
    have six : (0 : K) < 6 := by norm_num
    have key : ∀ v, 0 ≤ baryFromGlobal invert3 y q v ↔
        (tetSidePlane q (tetOpposite v)).distance y ≤ 0 := by
      intro v
      rw [h3, tet_distance six.ne', neg_nonpos, mul_nonneg_iff_of_pos_left six,
        le_div_iff₀ h, zero_mul]
    exact ⟨fun g e => let ⟨v, hv⟩ := o4 e; hv ▸ (key v).1 (g v), fun g v => (key v).2 (g _)⟩
end

/-! ### The hypotheses are met -/

/-- A triangle of area six. -/
def shapeTri : Fin 3 → Vec ℚ 2 := ![![1, 1], ![5, 1], ![2, 4]]
/-- A tetrahedron of volume one. -/
def shapeTet : Fin 4 → Vec ℚ 3 := ![![0, 0, 0], ![1, 0, 0], ![0, 2, 0], ![1, 1, 3]]

example : triSize shapeTri = 6 ∧ tetSize shapeTet = 1 := by decide +kernel
example : baryFromGlobal invert2 ![2, 2] shapeTri = ![1/2, 1/6, 1/3] := by
  funext i; revert i; decide +kernel
example : isBaryInside (baryFromGlobal invert2 ![2, 2] shapeTri) = true ∧
    isBaryInside (baryFromGlobal invert2 ![0, 2] shapeTri) = false ∧
    isBaryInside (baryFromGlobal invert3 ![1/2, 1/2, 1/2] shapeTet) = true := by decide +kernel
example : (∀ e, metricProduct (impliedMetric2 shapeTri)
    (triEdgeVectors shapeTri (simplexBasis shapeTri) e) = 1) ∧
    impliedMetric2 shapeTri 0 0 = 1 / 16 := by decide +kernel
example : det2 (matMul (transp (simplexBasis ![(![0, 0, 1] : Vec ℚ 3), ![1, 0, 1], ![0, 2, 2]]))
    (simplexBasis ![(![0, 0, 1] : Vec ℚ 3), ![1, 0, 1], ![0, 2, 2]])) ≠ 0 := by decide +kernel
example : vdot (cross3 (![1, 0, 0] : Vec ℚ 3) ![0, 2, 0]) (cross3 (![1, 0, 0] : Vec ℚ 3) ![0, 2, 0])
    = 4 ∧ circumcenterVector (![1, 0, 0] : Vec ℚ 3) ![0, 2, 0] 1 = 1 := by decide +kernel

end OmegaH
