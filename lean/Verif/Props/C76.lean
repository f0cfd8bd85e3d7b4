import Verif.Spec.SmallMat
import Mathlib.Algebra.Order.Ring.Abs
import Mathlib.Algebra.Order.Field.Basic
import Mathlib.Algebra.Order.Ring.Rat
import Mathlib.Algebra.Field.Rat
import Mathlib.Tactic.Ring
import Mathlib.Tactic.FieldSimp
import Mathlib.Tactic.LinearCombination
import Mathlib.Tactic.Linarith
import Mathlib.Tactic.FinCases
import Mathlib.Tactic.NormNum

namespace OmegaH
open OmegaH.Spec

section
variable {K : Type} [Field K] {m n k p : Nat}

/-- The loop of additions is the sum. -/
theorem finFoldl_add (f : Fin k → K) (z : K) :
    Fin.foldl k (fun c j => c + f j) z = z + ∑ j, f j := by
  induction k with
  | zero => simp
  | succ k ih => rw [Fin.foldl_succ_last, ih, Fin.sum_univ_castSucc, add_assoc]

theorem foldl_vadd (f : Fin k → Vec K m) (z : Vec K m) (i : Fin m) :
    Fin.foldl k (fun c j => vadd c (f j)) z i = z i + ∑ j, f j i := by
  induction k with
  | zero => simp
  | succ k ih =>
    rw [Fin.foldl_succ_last]
    show Fin.foldl k (fun c j => vadd c (f j.castSucc)) z i + f (Fin.last k) i = _
    rw [ih, Fin.sum_univ_castSucc, add_assoc]

theorem vdot_sum (a b : Vec K (k + 1)) : vdot a b = ∑ i, a i * b i := by
  rw [vdot, finFoldl_add (fun i : Fin k => a i.succ * b i.succ), Fin.sum_univ_succ]

theorem mulVec_sum (a : Mat K m (k + 1)) (b : Vec K (k + 1)) (i : Fin m) :
    mulVec a b i = ∑ j, a j i * b j := by
  rw [mulVec, foldl_vadd (fun j : Fin k => vscale (a j.succ) (b j.succ)), Fin.sum_univ_succ]
  rfl

theorem matMul_sum (a : Mat K m (k + 1)) (b : Mat K (k + 1) n) (i : Fin m) (j : Fin n) :
    matMul a b j i = ∑ l, a l i * b j l := mulVec_sum a (b j) i

theorem traceMat_sum (a : Mat K (k + 1) (k + 1)) : traceMat a = ∑ i, a i i := by
  rw [traceMat, finFoldl_add (fun i : Fin k => a i.succ i.succ), Fin.sum_univ_succ]

theorem vdot2 (a b : Vec K 2) : vdot a b = a 0 * b 0 + a 1 * b 1 :=
  (vdot_sum a b).trans (Fin.sum_univ_two _)

theorem vdot3 (a b : Vec K 3) : vdot a b = a 0 * b 0 + a 1 * b 1 + a 2 * b 2 :=
  (vdot_sum a b).trans (Fin.sum_univ_three _)

theorem mulVec2 (a : Mat K m 2) (b : Vec K 2) (i : Fin m) :
    mulVec a b i = a 0 i * b 0 + a 1 i * b 1 :=
  (mulVec_sum a b i).trans (Fin.sum_univ_two _)

theorem mulVec3 (a : Mat K m 3) (b : Vec K 3) (i : Fin m) :
    mulVec a b i = a 0 i * b 0 + a 1 i * b 1 + a 2 i * b 2 :=
  (mulVec_sum a b i).trans (Fin.sum_univ_three _)

theorem matMul2 (a : Mat K m 2) (b : Mat K 2 n) (i : Fin m) (j : Fin n) :
    matMul a b j i = a 0 i * b j 0 + a 1 i * b j 1 := mulVec2 a (b j) i

theorem matMul3 (a : Mat K m 3) (b : Mat K 3 n) (i : Fin m) (j : Fin n) :
    matMul a b j i = a 0 i * b j 0 + a 1 i * b j 1 + a 2 i * b j 2 := mulVec3 a (b j) i

theorem trace2 (a : Mat K 2 2) : traceMat a = a 0 0 + a 1 1 :=
  (traceMat_sum a).trans (Fin.sum_univ_two _)

theorem trace3 (a : Mat K 3 3) : traceMat a = a 0 0 + a 1 1 + a 2 2 :=
  (traceMat_sum a).trans (Fin.sum_univ_three _)

theorem mulVec_mulVec (a : Mat K m (k + 1)) (b : Mat K (k + 1) (p + 1)) (v : Vec K (p + 1)) :
    mulVec a (mulVec b v) = mulVec (matMul a b) v := by
  funext i
  simp only [mulVec_sum, matMul_sum, Finset.mul_sum, Finset.sum_mul]
  rw [Finset.sum_comm]
  exact Finset.sum_congr rfl fun _ _ => Finset.sum_congr rfl fun _ _ => (mul_assoc _ _ _).symm

theorem matMul_assoc (a : Mat K m (k + 1)) (b : Mat K (k + 1) (p + 1)) (c : Mat K (p + 1) n) :
    matMul a (matMul b c) = matMul (matMul a b) c := by
  funext j; exact mulVec_mulVec a b (c j)

theorem mulVec_vadd (a : Mat K m (k + 1)) (v w : Vec K (k + 1)) :
    mulVec a (vadd v w) = vadd (mulVec a v) (mulVec a w) := by
  funext i
  simp only [mulVec_sum, vadd, mul_add, Finset.sum_add_distrib]

theorem mulVec_vneg (a : Mat K m (k + 1)) (v : Vec K (k + 1)) :
    mulVec a (vneg v) = vneg (mulVec a v) := by
  funext i
  simp only [mulVec_sum, vneg, mul_neg, Finset.sum_neg_distrib]

theorem mulVec_ident (a : Mat K (k + 1) (k + 1)) (h : IsIdentity a) (v : Vec K (k + 1)) :
    mulVec a v = v := by
  funext i
  rw [mulVec_sum]
  simp only [h _ i, ite_mul, one_mul, zero_mul, Finset.sum_ite_eq', Finset.mem_univ, if_true]

theorem undo_left {a b : Mat K (k + 1) (k + 1)} (h : Undo a b) : IsIdentity (matMul a b) := by
  intro j i
  rw [matMul_sum, h.1]
  by_cases e : i = j
  · rw [if_pos e, if_pos e.symm]
  · rw [if_neg e, if_neg (Ne.symm e)]

theorem undo_swap {a b : Mat K n n} (h : Undo a b) : Undo b a := ⟨h.2, h.1⟩

theorem invert1_undo (a : Mat K 1 1) (h : det1 a ≠ 0) : Undo a (invert1 a) := by
  have h' : a 0 0 ≠ 0 := h
  refine ⟨fun i j => ?_, fun i j => ?_⟩ <;> fin_cases i <;> fin_cases j <;>
    simp [invert1, h']

theorem invert2_undo (a : Mat K 2 2) (h : det2 a ≠ 0) : Undo a (invert2 a) := by
  have hd : det2 a * (det2 a)⁻¹ = 1 := mul_inv_cancel₀ h
  have e0 : ∀ i, invert2 a 0 i = ![a 1 1, -a 0 1] i * (det2 a)⁻¹ := fun i => div_eq_mul_inv _ _
  have e1 : ∀ i, invert2 a 1 i = ![-a 1 0, a 0 0] i * (det2 a)⁻¹ := fun i => div_eq_mul_inv _ _
  generalize (det2 a)⁻¹ = e at *
  simp only [det2] at hd
  refine ⟨fun i j => ?_, fun i j => ?_⟩ <;> fin_cases i <;> fin_cases j <;>
    simp [Fin.sum_univ_two, e0, e1] <;> first | ring1 | linear_combination hd

theorem invert3_undo (a : Mat K 3 3) (h : det3 a ≠ 0) : Undo a (invert3 a) := by
  have hd : det3 a * (det3 a)⁻¹ = 1 := mul_inv_cancel₀ h
  have e0 : ∀ i, invert3 a i 0 = cross3 (a 1) (a 2) i * (det3 a)⁻¹ := fun i => div_eq_mul_inv _ _
  have e1 : ∀ i, invert3 a i 1 = cross3 (a 2) (a 0) i * (det3 a)⁻¹ := fun i => div_eq_mul_inv _ _
  have e2 : ∀ i, invert3 a i 2 = cross3 (a 0) (a 1) i * (det3 a)⁻¹ := fun i => div_eq_mul_inv _ _
  generalize (det3 a)⁻¹ = e at *
  simp only [det3] at hd
  refine ⟨fun i j => ?_, fun i j => ?_⟩ <;> fin_cases i <;> fin_cases j <;>
    simp [Fin.sum_univ_three, e0, e1, e2, cross3] <;> first | ring1 | linear_combination hd

/-- An affine map and its inverse. -/
theorem affine_undo {inv : Mat K (k + 1) (k + 1) → Mat K (k + 1) (k + 1)} (a : Affine K (k + 1))
    (h : Undo a.r (inv a.r)) (v : Vec K (k + 1)) :
    (a.invert inv).app (a.app v) = v ∧ a.app ((a.invert inv).app v) = v := by
  have h1 := mulVec_ident _ (undo_left h)
  have h2 := mulVec_ident _ (undo_left (undo_swap h))
  constructor
  · simp only [Affine.app, Affine.invert, mulVec_vadd, mulVec_mulVec, h2]
    funext i; simp [vadd, vneg]
  · simp only [Affine.app, Affine.invert, mulVec_vadd, mulVec_vneg, mulVec_mulVec, h1]
    funext i; simp [vadd, vneg]

/-- `pseudo_invert` of a tall matrix is a left inverse. -/
theorem pinvTall_left {inv : Mat K (k + 1) (k + 1) → Mat K (k + 1) (k + 1)}
    (a : Mat K (p + 1) (k + 1))
    (h : Undo (matMul (transp a) a) (inv (matMul (transp a) a))) :
    IsIdentity (matMul (pinvTall inv a) a) := by
  have := undo_left (undo_swap h)
  rwa [pinvTall, ← matMul_assoc]

theorem pinvWide_right {inv : Mat K (p + 1) (p + 1) → Mat K (p + 1) (p + 1)}
    (a : Mat K (p + 1) (k + 1))
    (h : Undo (matMul a (transp a)) (inv (matMul a (transp a)))) :
    IsIdentity (matMul a (pinvWide inv a)) := by
  have := undo_left h
  rwa [pinvWide, matMul_assoc]

theorem pinvTall_normal {inv : Mat K (k + 1) (k + 1) → Mat K (k + 1) (k + 1)}
    (a : Mat K (p + 1) (k + 1))
    (h : Undo (matMul (transp a) a) (inv (matMul (transp a) a))) :
    matMul (matMul (transp a) a) (pinvTall inv a) = transp a := by
  rw [pinvTall, matMul_assoc]
  funext j
  exact mulVec_ident _ (undo_left h) _

/-! ## The theorems -/

/-- Products, inner products, transposes and traces are what they are called: the entry in row
`i` and column `j` of a product is the sum of row `i` times column `j`. -/
theorem C76_product (a : Mat K m (k + 1)) (b : Mat K (k + 1) n) (v w : Vec K (k + 1))
    (s : Mat K (k + 1) (k + 1)) :
    (∀ i j, matMul a b j i = ∑ l, a l i * b j l) ∧
    (∀ i, mulVec a v i = ∑ l, a l i * v l) ∧
    vdot v w = ∑ l, v l * w l ∧
    (∀ i j, transp a i j = a j i) ∧
    traceMat s = ∑ l, s l l :=
  ⟨matMul_sum a b, mulVec_sum a v, vdot_sum v w, fun _ _ => rfl, traceMat_sum s⟩

/-- Multiplying in one order of brackets or the other is the same, so a product of matrices
applied to a vector is one applied after the other. -/
theorem C76_compose (a : Mat K m (k + 1)) (b : Mat K (k + 1) (p + 1)) (c : Mat K (p + 1) n)
    (v : Vec K (p + 1)) :
    matMul a (matMul b c) = matMul (matMul a b) c ∧
    mulVec a (mulVec b v) = mulVec (matMul a b) v :=
  ⟨matMul_assoc a b c, mulVec_mulVec a b v⟩

/-- The determinant of a product is the product of the determinants, that of the transpose is
that of the matrix, and that of the identity is one. -/
theorem C76_determinant (a b : Mat K 3 3) (c d : Mat K 2 2) :
    det3 (matMul a b) = det3 a * det3 b ∧ det3 (transp a) = det3 a ∧
    det3 (identMat : Mat K 3 3) = 1 ∧
    det2 (matMul c d) = det2 c * det2 d ∧ det2 (transp c) = det2 c ∧
    det2 (identMat : Mat K 2 2) = 1 := by
  refine ⟨?_, ?_, ?_, ?_, ?_, ?_⟩
  · simp only [det3, matMul3]; ring
  · simp only [det3, transp]; ring
  · show (1 : K) * 1 * 1 + 0 * 0 * 0 + 0 * 0 * 0 - 0 * 1 * 0 - 0 * 0 * 1 - 1 * 0 * 0 = 1
    ring
  · simp only [det2, matMul2]; ring
  · simp only [det2, transp]; ring
  · show (1 : K) * 1 - 0 * 0 = 1
    ring

/-- `invert` gives, for a matrix of one, two or three dimensions whose determinant is not zero,
the matrix that undoes it, from either side. -/
theorem C76_inverse (a : Mat K 1 1) (b : Mat K 2 2) (c : Mat K 3 3) :
    (det1 a ≠ 0 → Undo a (invert1 a)) ∧ (det2 b ≠ 0 → Undo b (invert2 b)) ∧
    (det3 c ≠ 0 → Undo c (invert3 c)) :=
  ⟨invert1_undo a, invert2_undo b, invert3_undo c⟩

/-- The inverse of an affine map takes every image back to where it came from, and the map takes
every point of the inverse back. -/
theorem C76_affine (a : Affine K 1) (b : Affine K 2) (c : Affine K 3) :
    (det1 a.r ≠ 0 → ∀ v, (a.invert invert1).app (a.app v) = v ∧
      a.app ((a.invert invert1).app v) = v) ∧
    (det2 b.r ≠ 0 → ∀ v, (b.invert invert2).app (b.app v) = v ∧
      b.app ((b.invert invert2).app v) = v) ∧
    (det3 c.r ≠ 0 → ∀ v, (c.invert invert3).app (c.app v) = v ∧
      c.app ((c.invert invert3).app v) = v) :=
  ⟨fun h => affine_undo a (invert1_undo _ h), fun h => affine_undo b (invert2_undo _ h),
   fun h => affine_undo c (invert3_undo _ h)⟩

/-- The pseudo-inverse of a matrix with more rows than columns undoes it from the left, and
applied to a vector leaves a remainder at right angles to all columns (least squares). Stated for
any number of rows, and one or two columns with independent columns. -/
theorem C76_pseudo_tall (a : Mat K (p + 1) 1) (b : Mat K (p + 1) 2) :
    (det1 (matMul (transp a) a) ≠ 0 → IsIdentity (matMul (pinvTall invert1 a) a) ∧
      ∀ v, mulVec (transp a) (mulVec a (mulVec (pinvTall invert1 a) v)) = mulVec (transp a) v) ∧
    (det2 (matMul (transp b) b) ≠ 0 → IsIdentity (matMul (pinvTall invert2 b) b) ∧
      ∀ v, mulVec (transp b) (mulVec b (mulVec (pinvTall invert2 b) v)) =
        mulVec (transp b) v) := by
  refine ⟨fun h => ⟨pinvTall_left a (invert1_undo _ h), fun v => ?_⟩,
    fun h => ⟨pinvTall_left b (invert2_undo _ h), fun v => ?_⟩⟩
  · rw [mulVec_mulVec, mulVec_mulVec, pinvTall_normal a (invert1_undo _ h)]
  · rw [mulVec_mulVec, mulVec_mulVec, pinvTall_normal b (invert2_undo _ h)]

/-- The pseudo-inverse of a matrix with more columns than rows undoes it from the right. -/
theorem C76_pseudo_wide (a : Mat K 1 (k + 1)) (b : Mat K 2 (k + 1)) :
    (det1 (matMul a (transp a)) ≠ 0 → IsIdentity (matMul a (pinvWide invert1 a))) ∧
    (det2 (matMul b (transp b)) ≠ 0 → IsIdentity (matMul b (pinvWide invert2 b))) :=
  ⟨fun h => pinvWide_right a (invert1_undo _ h), fun h => pinvWide_right b (invert2_undo _ h)⟩

omit [Field K] in
/-- Packing a symmetric matrix into its three or six numbers and unpacking gives it back, in this
library's order and in INRIA's; unpacking gives a symmetric matrix, and packing that gives back
the numbers. So converting between the two orders loses nothing. -/
theorem C76_packing (a : Mat K 2 2) (b : Mat K 3 3) (v : Vec K 3) (w : Vec K 6) :
    (Symmetric a → vec2symm2 (symm2vec2 a) = a ∧ vec2inria2 (inria2vec2 a) = a) ∧
    (Symmetric b → vec2symm3 (symm2vec3 b) = b ∧ vec2inria3 (inria2vec3 b) = b) ∧
    (Symmetric (vec2symm2 v) ∧ symm2vec2 (vec2symm2 v) = v) ∧
    (Symmetric (vec2inria2 v) ∧ inria2vec2 (vec2inria2 v) = v) ∧
    (Symmetric (vec2symm3 w) ∧ symm2vec3 (vec2symm3 w) = w) ∧
    (Symmetric (vec2inria3 w) ∧ inria2vec3 (vec2inria3 w) = w) := by
  refine ⟨fun h => ⟨?_, ?_⟩, fun h => ⟨?_, ?_⟩, ⟨?_, ?_⟩, ⟨?_, ?_⟩, ⟨?_, ?_⟩, ?_, ?_⟩
  · funext i j
    fin_cases i <;> fin_cases j
    exacts [rfl, h 1 0, rfl, rfl]
  · funext i j
    fin_cases i <;> fin_cases j
    exacts [rfl, rfl, h 0 1, rfl]
  · funext i j
    fin_cases i <;> fin_cases j
    exacts [rfl, h 1 0, h 2 0, rfl, rfl, h 2 1, rfl, rfl, rfl]
  · funext i j
    fin_cases i <;> fin_cases j
    exacts [rfl, rfl, rfl, h 0 1, rfl, rfl, h 0 2, h 1 2, rfl]
  · intro i j; fin_cases i <;> fin_cases j <;> rfl
  · funext i; fin_cases i <;> rfl
  · intro i j; fin_cases i <;> fin_cases j <;> rfl
  · funext i; fin_cases i <;> rfl
  · intro i j; fin_cases i <;> fin_cases j <;> rfl
  · funext i; fin_cases i <;> rfl
  · intro i j; fin_cases i <;> fin_cases j <;> rfl
  · funext i; fin_cases i <;> rfl

omit [Field K] in
/-- INRIA's order is row by row of the lower triangle: `a00, a10, a11, a20, a21, a22`; this
library's is the diagonal first, then `a01, a12, a02`. -/
theorem C76_packing_order (a : Mat K 3 3) (h : Symmetric a) :
    (fun i => inria2vec3 a i) = ![a 0 0, a 1 0, a 1 1, a 2 0, a 2 1, a 2 2] ∧
    (fun i => symm2vec3 a i) = ![a 0 0, a 1 1, a 2 2, a 0 1, a 1 2, a 0 2] := by
  constructor <;> funext i <;> fin_cases i
  exacts [rfl, h 0 1, rfl, h 0 2, h 1 2, rfl, rfl, rfl, rfl, h 1 0, h 2 1, h 2 0]

/-- The cross product is at right angles to both vectors, changes sign when they are swapped, and
is zero for a vector with itself; the matrix of a vector's cross product does the cross product,
and the vector can be read back from it. -/
theorem C76_cross (a b : Vec K 3) (two : (2 : K) ≠ 0) :
    vdot (cross3 a b) a = 0 ∧ vdot (cross3 a b) b = 0 ∧ cross3 b a = vneg (cross3 a b) ∧
    cross3 a a = (fun _ => 0) ∧ mulVec (crossMat a) b = cross3 a b ∧
    uncrossMat (crossMat a) = a := by
  refine ⟨?_, ?_, ?_, ?_, ?_, ?_⟩
  · rw [vdot3]
    show (a 1 * b 2 - a 2 * b 1) * a 0 + (a 2 * b 0 - a 0 * b 2) * a 1 +
      (a 0 * b 1 - a 1 * b 0) * a 2 = 0
    ring
  · rw [vdot3]
    show (a 1 * b 2 - a 2 * b 1) * b 0 + (a 2 * b 0 - a 0 * b 2) * b 1 +
      (a 0 * b 1 - a 1 * b 0) * b 2 = 0
    ring
  · funext i
    fin_cases i
    · show b 1 * a 2 - b 2 * a 1 = -(a 1 * b 2 - a 2 * b 1); ring
    · show b 2 * a 0 - b 0 * a 2 = -(a 2 * b 0 - a 0 * b 2); ring
    · show b 0 * a 1 - b 1 * a 0 = -(a 0 * b 1 - a 1 * b 0); ring
  · funext i
    fin_cases i
    · show a 1 * a 2 - a 2 * a 1 = 0; ring
    · show a 2 * a 0 - a 0 * a 2 = 0; ring
    · show a 0 * a 1 - a 1 * a 0 = 0; ring
  · funext i
    rw [mulVec3]
    fin_cases i
    · show 0 * b 0 + -a 2 * b 1 + a 1 * b 2 = a 1 * b 2 - a 2 * b 1; ring
    · show a 2 * b 0 + 0 * b 1 + -a 0 * b 2 = a 2 * b 0 - a 0 * b 2; ring
    · show -a 1 * b 0 + a 0 * b 1 + 0 * b 2 = a 0 * b 1 - a 1 * b 0; ring
  · funext i
    fin_cases i
    · show (a 0 - -a 0) * (1 / 2) = a 0; field_simp; ring
    · show (a 1 - -a 1) * (1 / 2) = a 1; field_simp; ring
    · show (a 2 - -a 2) * (1 / 2) = a 2; field_simp; ring

theorem orthonormal3 (a : Mat K 3 3)
    (h00 : a 0 0 * a 0 0 + a 0 1 * a 0 1 + a 0 2 * a 0 2 = 1)
    (h01 : a 0 0 * a 1 0 + a 0 1 * a 1 1 + a 0 2 * a 1 2 = 0)
    (h02 : a 0 0 * a 2 0 + a 0 1 * a 2 1 + a 0 2 * a 2 2 = 0)
    (h11 : a 1 0 * a 1 0 + a 1 1 * a 1 1 + a 1 2 * a 1 2 = 1)
    (h12 : a 1 0 * a 2 0 + a 1 1 * a 2 1 + a 1 2 * a 2 2 = 0)
    (h22 : a 2 0 * a 2 0 + a 2 1 * a 2 1 + a 2 2 * a 2 2 = 1) : Orthonormal a := by
  have h10 : a 1 0 * a 0 0 + a 1 1 * a 0 1 + a 1 2 * a 0 2 = 0 := by linear_combination h01
  have h20 : a 2 0 * a 0 0 + a 2 1 * a 0 1 + a 2 2 * a 0 2 = 0 := by linear_combination h02
  have h21 : a 2 0 * a 1 0 + a 2 1 * a 1 1 + a 2 2 * a 1 2 = 0 := by linear_combination h12
  intro i j
  rw [Fin.sum_univ_three]
  fin_cases i <;> fin_cases j
  exacts [h00, h01, h02, h10, h11, h12, h20, h21, h22]

theorem rotate3_entries (c s : K) (a : Vec K 3) : rotate3 c s a =
    ![![1 * c + 0 * s + a 0 * a 0 * (1 - c), 0 * c + a 2 * s + a 1 * a 0 * (1 - c),
        0 * c + -a 1 * s + a 2 * a 0 * (1 - c)],
      ![0 * c + -a 2 * s + a 0 * a 1 * (1 - c), 1 * c + 0 * s + a 1 * a 1 * (1 - c),
        0 * c + a 0 * s + a 2 * a 1 * (1 - c)],
      ![0 * c + a 1 * s + a 0 * a 2 * (1 - c), 0 * c + -a 0 * s + a 1 * a 2 * (1 - c),
        1 * c + 0 * s + a 2 * a 2 * (1 - c)]] := by
  funext j i
  fin_cases j <;> fin_cases i <;> rfl

/-- A rotation keeps lengths and angles and does not mirror; in space it leaves its axis alone;
turning back is the transpose; and the angle can be read back: the numbers given to the inverse
trigonometric functions are its sine and cosine. -/
theorem C76_rotate (c s : K) (axis : Vec K 3) (two : (2 : K) ≠ 0)
    (hcs : c * c + s * s = 1) (unit : vdot axis axis = 1) :
    Orthonormal (rotate2 c s) ∧ det2 (rotate2 c s) = 1 ∧
    rotate2 c (-s) = transp (rotate2 c s) ∧ angleSinCos2 (rotate2 c s) = (s, c) ∧
    Orthonormal (rotate3 c s axis) ∧ det3 (rotate3 c s axis) = 1 ∧
    mulVec (rotate3 c s axis) axis = axis ∧
    rotate3 c (-s) axis = transp (rotate3 c s axis) ∧ angleCos3 (rotate3 c s axis) = c := by
  rw [vdot3] at unit
  generalize h0 : axis 0 = x at *
  generalize h1 : axis 1 = y at *
  generalize h2 : axis 2 = z at *
  refine ⟨?_, ?_, ?_, ?_, ?_, ?_, ?_, ?_, ?_⟩
  · intro i j
    fin_cases i <;> fin_cases j <;> simp [Fin.sum_univ_two, rotate2, mat2] <;>
      first | ring1 | linear_combination hcs
  · simp [det2, rotate2, mat2]; linear_combination hcs
  · funext i j; fin_cases i <;> fin_cases j <;> simp [transp, rotate2, mat2]
  · simp only [angleSinCos2, trace2, rotate2, mat2]
    refine Prod.ext ?_ ?_ <;> simp <;> field_simp <;> ring
  · rw [rotate3_entries, h0, h1, h2]
    refine orthonormal3 _ ?_ ?_ ?_ ?_ ?_ ?_
    · show (1 * c + 0 * s + x * x * (1 - c)) * (1 * c + 0 * s + x * x * (1 - c)) +
        (0 * c + z * s + y * x * (1 - c)) * (0 * c + z * s + y * x * (1 - c)) +
        (0 * c + -y * s + z * x * (1 - c)) * (0 * c + -y * s + z * x * (1 - c)) = 1
      linear_combination (1 - x * x) * hcs + (s * s + x * x * (1 - c) ^ 2) * unit
    · show (1 * c + 0 * s + x * x * (1 - c)) * (0 * c + -z * s + x * y * (1 - c)) +
        (0 * c + z * s + y * x * (1 - c)) * (1 * c + 0 * s + y * y * (1 - c)) +
        (0 * c + -y * s + z * x * (1 - c)) * (0 * c + x * s + z * y * (1 - c)) = 0
      linear_combination (-x * y) * hcs + (x * y * (1 - c) ^ 2) * unit
    · show (1 * c + 0 * s + x * x * (1 - c)) * (0 * c + y * s + x * z * (1 - c)) +
        (0 * c + z * s + y * x * (1 - c)) * (0 * c + -x * s + y * z * (1 - c)) +
        (0 * c + -y * s + z * x * (1 - c)) * (1 * c + 0 * s + z * z * (1 - c)) = 0
      linear_combination (-x * z) * hcs + (x * z * (1 - c) ^ 2) * unit
    · show (0 * c + -z * s + x * y * (1 - c)) * (0 * c + -z * s + x * y * (1 - c)) +
        (1 * c + 0 * s + y * y * (1 - c)) * (1 * c + 0 * s + y * y * (1 - c)) +
        (0 * c + x * s + z * y * (1 - c)) * (0 * c + x * s + z * y * (1 - c)) = 1
      linear_combination (1 - y * y) * hcs + (s * s + y * y * (1 - c) ^ 2) * unit
    · show (0 * c + -z * s + x * y * (1 - c)) * (0 * c + y * s + x * z * (1 - c)) +
        (1 * c + 0 * s + y * y * (1 - c)) * (0 * c + -x * s + y * z * (1 - c)) +
        (0 * c + x * s + z * y * (1 - c)) * (1 * c + 0 * s + z * z * (1 - c)) = 0
      linear_combination (-y * z) * hcs + (y * z * (1 - c) ^ 2) * unit
    · show (0 * c + y * s + x * z * (1 - c)) * (0 * c + y * s + x * z * (1 - c)) +
        (0 * c + -x * s + y * z * (1 - c)) * (0 * c + -x * s + y * z * (1 - c)) +
        (1 * c + 0 * s + z * z * (1 - c)) * (1 * c + 0 * s + z * z * (1 - c)) = 1
      linear_combination (1 - z * z) * hcs + (s * s + z * z * (1 - c) ^ 2) * unit
  · rw [rotate3_entries, h0, h1, h2]
    show (1 * c + 0 * s + x * x * (1 - c)) * (1 * c + 0 * s + y * y * (1 - c)) *
        (1 * c + 0 * s + z * z * (1 - c)) +
      (0 * c + -z * s + x * y * (1 - c)) * (0 * c + -x * s + y * z * (1 - c)) *
        (0 * c + -y * s + z * x * (1 - c)) +
      (0 * c + y * s + x * z * (1 - c)) * (0 * c + z * s + y * x * (1 - c)) *
        (0 * c + x * s + z * y * (1 - c)) -
      (0 * c + y * s + x * z * (1 - c)) * (1 * c + 0 * s + y * y * (1 - c)) *
        (0 * c + -y * s + z * x * (1 - c)) -
      (0 * c + -z * s + x * y * (1 - c)) * (0 * c + z * s + y * x * (1 - c)) *
        (1 * c + 0 * s + z * z * (1 - c)) -
      (1 * c + 0 * s + x * x * (1 - c)) * (0 * c + -x * s + y * z * (1 - c)) *
        (0 * c + x * s + z * y * (1 - c)) = 1
    linear_combination hcs +
      (s * s + (1 - c) * (c * c + s * s * (x * x + y * y + z * z))) * unit
  · funext i
    rw [rotate3_entries, mulVec3, h0, h1, h2]
    fin_cases i
    · show (1 * c + 0 * s + x * x * (1 - c)) * x + (0 * c + -z * s + x * y * (1 - c)) * y +
        (0 * c + y * s + x * z * (1 - c)) * z = axis 0
      rw [h0]; linear_combination x * (1 - c) * unit
    · show (0 * c + z * s + y * x * (1 - c)) * x + (1 * c + 0 * s + y * y * (1 - c)) * y +
        (0 * c + -x * s + y * z * (1 - c)) * z = axis 1
      rw [h1]; linear_combination y * (1 - c) * unit
    · show (0 * c + -y * s + z * x * (1 - c)) * x + (0 * c + x * s + z * y * (1 - c)) * y +
        (1 * c + 0 * s + z * z * (1 - c)) * z = axis 2
      rw [h2]; linear_combination z * (1 - c) * unit
  · funext j i
    rw [rotate3_entries, rotate3_entries]
    fin_cases j <;> fin_cases i
    · show 1 * c + 0 * -s + axis 0 * axis 0 * (1 - c) = 1 * c + 0 * s + axis 0 * axis 0 * (1 - c)
      ring
    · show 0 * c + axis 2 * -s + axis 1 * axis 0 * (1 - c) =
        0 * c + -axis 2 * s + axis 0 * axis 1 * (1 - c)
      ring
    · show 0 * c + -axis 1 * -s + axis 2 * axis 0 * (1 - c) =
        0 * c + axis 1 * s + axis 0 * axis 2 * (1 - c)
      ring
    · show 0 * c + -axis 2 * -s + axis 0 * axis 1 * (1 - c) =
        0 * c + axis 2 * s + axis 1 * axis 0 * (1 - c)
      ring
    · show 1 * c + 0 * -s + axis 1 * axis 1 * (1 - c) = 1 * c + 0 * s + axis 1 * axis 1 * (1 - c)
      ring
    · show 0 * c + axis 0 * -s + axis 2 * axis 1 * (1 - c) =
        0 * c + -axis 0 * s + axis 1 * axis 2 * (1 - c)
      ring
    · show 0 * c + axis 1 * -s + axis 0 * axis 2 * (1 - c) =
        0 * c + -axis 1 * s + axis 2 * axis 0 * (1 - c)
      ring
    · show 0 * c + -axis 0 * -s + axis 1 * axis 2 * (1 - c) =
        0 * c + axis 0 * s + axis 2 * axis 1 * (1 - c)
      ring
    · show 1 * c + 0 * -s + axis 2 * axis 2 * (1 - c) = 1 * c + 0 * s + axis 2 * axis 2 * (1 - c)
      ring
  · rw [angleCos3, trace3, rotate3_entries, h0, h1, h2]
    show 1 / 2 * (1 * c + 0 * s + x * x * (1 - c) + (1 * c + 0 * s + y * y * (1 - c)) +
      (1 * c + 0 * s + z * z * (1 - c)) - 1) = c
    field_simp
    linear_combination (1 - c) * unit

/-- Taking away the mean of the diagonal leaves a matrix whose diagonal sums to zero, and changes
nothing but the diagonal, by the same amount everywhere. -/
theorem C76_deviator (a : Mat K (k + 1) (k + 1)) (h : ((k + 1 : Nat) : K) ≠ 0) :
    ∑ i, deviatorMat a i i = 0 ∧ (∀ i j, i ≠ j → deviatorMat a i j = a i j) ∧
    ∀ i j, a i i - deviatorMat a i i = a j j - deviatorMat a j j := by
  refine ⟨?_, fun i j hne => ?_, fun i j => ?_⟩
  · simp only [deviatorMat, msub, vsub, mscale, vscale, identMat, if_true, one_mul,
      Finset.sum_sub_distrib, Finset.sum_const, Finset.card_univ, Fintype.card_fin, nsmul_eq_mul,
      traceMat_sum]
    field_simp
    ring
  · have : ¬ j.val = i.val := fun e => hne (Fin.ext e.symm)
    simp [deviatorMat, msub, vsub, mscale, vscale, identMat, this]
  · simp [deviatorMat, msub, vsub, mscale, vscale, identMat]

/-- Changing the number of dimensions keeps the common corner and fills with zero; going up and
back down gives the matrix back. -/
theorem C76_resize (d : Nat) (a : Mat K n n) :
    (∀ (i j : Fin d) (hi : i.val < n) (hj : j.val < n),
      resizeMat d a j i = a ⟨j.val, hj⟩ ⟨i.val, hi⟩) ∧
    (∀ i j : Fin d, n ≤ i.val ∨ n ≤ j.val → resizeMat d a j i = 0) ∧
    (n ≤ d → resizeMat n (resizeMat d a) = a) := by
  refine ⟨fun i j hi hj => dif_pos ⟨hi, hj⟩, fun i j h => dif_neg (by omega), fun h => ?_⟩
  funext j i
  have hi : i.val < d := Nat.lt_of_lt_of_le i.isLt h
  have hj : j.val < d := Nat.lt_of_lt_of_le j.isLt h
  show (if h : i.val < d ∧ j.val < d then resizeMat d a ⟨j.val, h.2⟩ ⟨i.val, h.1⟩ else 0) = _
  rw [dif_pos ⟨hi, hj⟩]
  exact dif_pos ⟨i.isLt, j.isLt⟩
end

section
variable {K : Type} [Field K] [LinearOrder K] [IsStrictOrderedRing K] {n k : Nat}

/-- From one unit vector `form_ortho_basis` makes a full set of vectors of length one at right
angles to one another, the given one first: in space for every unit vector whatever, including
those that point straight down, and whichever sign a zero has. -/
theorem C76_basis (v : Vec K 2) (w : Vec K 3) (negZero : Bool) :
    (vdot v v = 1 → Orthonormal (orthoBasis2 v) ∧ orthoBasis2 v 0 = v) ∧
    (vdot w w = 1 → Orthonormal (orthoBasis3 negZero w) ∧ orthoBasis3 negZero w 0 = w) := by
  constructor
  · intro h
    rw [vdot2] at h
    refine ⟨fun i j => ?_, rfl⟩
    fin_cases i <;> fin_cases j <;> simp [Fin.sum_univ_two, orthoBasis2, perp2]
    · exact h
    · ring
    · ring
    · linear_combination h
  · intro hu
    rw [vdot3] at hu
    refine ⟨?_, rfl⟩
    unfold orthoBasis3
    dsimp only
    have hs : copysignOne negZero (w 2) * copysignOne negZero (w 2) = 1 := by
      unfold copysignOne; split <;> norm_num
    have hd : copysignOne negZero (w 2) + w 2 ≠ 0 := by
      unfold copysignOne
      split
      · rename_i h
        rcases h with h | h
        · intro h'; linarith
        · rw [h.1]; norm_num
      · rename_i h
        rcases lt_or_ge (w 2) 0 with h' | h'
        · exact absurd (Or.inl h') h
        · intro h''; linarith
    have ha : -1 / (copysignOne negZero (w 2) + w 2) * (copysignOne negZero (w 2) + w 2) = -1 :=
      div_mul_cancel₀ _ hd
    generalize copysignOne negZero (w 2) = s at *
    generalize -1 / (s + w 2) = a at *
    generalize h0 : w 0 = x at *
    generalize h1 : w 1 = y at *
    generalize h2 : w 2 = z at *
    refine orthonormal3 _ ?_ ?_ ?_ ?_ ?_ ?_
    · show w 0 * w 0 + w 1 * w 1 + w 2 * w 2 = 1
      rw [h0, h1, h2]; exact hu
    · show w 0 * (1 + s * x * x * a) + w 1 * (s * (x * y * a)) + w 2 * (-s * x) = 0
      rw [h0, h1, h2]
      linear_combination x * s * a * hu + x * s * (s - z) * ha - (x * s * a + x) * hs
    · show w 0 * (x * y * a) + w 1 * (s + y * y * a) + w 2 * (-y) = 0
      rw [h0, h1, h2]
      linear_combination y * a * hu + y * (s - z) * ha - y * a * hs
    · show (1 + s * x * x * a) * (1 + s * x * x * a) + s * (x * y * a) * (s * (x * y * a)) +
        -s * x * (-s * x) = 1
      linear_combination x * x * (s * s * a * a * hu + s * s * a * (s - z) * ha
        - s * s * a * a * hs + (1 - a * (s - z)) * hs + ha)
    · show (1 + s * x * x * a) * (x * y * a) + s * (x * y * a) * (s + y * y * a) +
        -s * x * (-y) = 0
      linear_combination x * y * (s * (a * a * hu + a * (s - z) * ha - a * a * hs) + s * ha - a * hs)
    · show x * y * a * (x * y * a) + (s + y * y * a) * (s + y * y * a) + -y * (-y) = 1
      linear_combination hs + y * y * (a * a * hu + a * (s - z) * ha - a * a * hs + ha)

omit [IsStrictOrderedRing K] in
theorem signBits_succ (v : Vec K (k + 1)) :
    signBits v = signBits (fun i : Fin k => v i.castSucc) |||
      ((if 0 ≤ v (Fin.last k) then 1 else 0) <<< k) := by
  unfold signBits
  rw [Fin.foldl_succ_last]
  rfl

omit [IsStrictOrderedRing K] in
theorem signBits_lt : ∀ {n : Nat} (v : Vec K n), signBits v < 2 ^ n
  | 0, v => by simp [signBits]
  | k + 1, v => by
    have ih := signBits_lt (fun i : Fin k => v i.castSucc)
    rw [signBits_succ, Nat.shiftLeft_eq, Nat.mul_comm, Nat.or_comm,
      ← Nat.two_pow_add_eq_or_of_lt ih, Nat.pow_succ]
    split <;> omega

theorem positivize_last (v : Vec K (k + 1)) :
    positivize v = if v (Fin.last k) < 0 then vneg v else v := by
  have ih := signBits_lt (fun i : Fin k => v i.castSucc)
  have hb : signBits v = 2 ^ k * (if 0 ≤ v (Fin.last k) then 1 else 0) +
      signBits (fun i : Fin k => v i.castSucc) := by
    rw [signBits_succ, Nat.shiftLeft_eq, Nat.mul_comm, Nat.or_comm,
      Nat.two_pow_add_eq_or_of_lt ih]
  have hneg : vscale v (-1) = vneg v := by
    funext i; show v i * -1 = -v i; ring
  unfold positivize
  dsimp only
  rw [hneg, Nat.pow_succ]
  rcases lt_or_ge (v (Fin.last k)) 0 with h | h
  · rw [if_pos h, if_pos]
    rw [if_neg (not_le.2 h)] at hb
    omega
  · rw [if_neg (not_lt.2 h), if_neg]
    rw [if_pos h] at hb
    omega

/-- `positivize` gives the vector or its negative, gives again the same when applied again, and
gives one that ends in a positive number if the vector does not end in zero. Then it gives the
same for the vector and for its negative, which is what it is for. Left out: vectors that end in
zero, for which the last is not so (`C76_positivize_refuted`). -/
theorem C76_positivize_partial (v : Vec K (k + 1)) :
    (positivize v = v ∨ positivize v = vneg v) ∧ positivize (positivize v) = positivize v ∧
    0 ≤ positivize v (Fin.last k) ∧
    (v (Fin.last k) ≠ 0 → 0 < positivize v (Fin.last k) ∧
      positivize (vneg v) = positivize v) := by
  have hn : ∀ i, vneg v i = -v i := fun _ => rfl
  have hnn : vneg (vneg v) = v := by funext i; exact neg_neg (v i)
  rcases lt_trichotomy (v (Fin.last k)) 0 with h | h | h
  · have e : positivize v = vneg v := by rw [positivize_last, if_pos h]
    have h' : ¬ vneg v (Fin.last k) < 0 := by rw [hn]; linarith
    have e' : positivize (vneg v) = vneg v := by rw [positivize_last, if_neg h']
    refine ⟨Or.inr e, by rw [e, e'], ?_, fun _ => ⟨?_, by rw [e, e']⟩⟩
    · rw [e, hn]; linarith
    · rw [e, hn]; linarith
  · have e : positivize v = v := by rw [positivize_last, if_neg (by rw [h]; exact lt_irrefl 0)]
    exact ⟨Or.inl e, by rw [e, e], by rw [e, h], fun hc => absurd h hc⟩
  · have e : positivize v = v := by rw [positivize_last, if_neg (not_lt.2 h.le)]
    have h' : vneg v (Fin.last k) < 0 := by rw [hn]; linarith
    have e' : positivize (vneg v) = v := by rw [positivize_last, if_pos h', hnn]
    exact ⟨Or.inl e, by rw [e, e], by rw [e]; exact h.le, fun _ => ⟨by rw [e]; exact h, by rw [e, e']⟩⟩

/-- Joining two boxes gives the smallest box that contains both. -/
theorem C76_unite (a b : BBox K n) :
    (∀ x, InBox x a ∨ InBox x b → InBox x (unite a b)) ∧
    ∀ c : BBox K n, (∀ i, c.min i ≤ a.min i ∧ c.min i ≤ b.min i ∧ a.max i ≤ c.max i ∧
        b.max i ≤ c.max i) →
      ∀ i, c.min i ≤ (unite a b).min i ∧ (unite a b).max i ≤ c.max i := by
  constructor
  · intro x h i
    have e1 : (unite a b).min i = if b.min i < a.min i then b.min i else a.min i := rfl
    have e2 : (unite a b).max i = if a.max i < b.max i then b.max i else a.max i := rfl
    rw [e1, e2]
    rcases h with h | h <;> have h1 := (h i).1 <;> have h2 := (h i).2 <;>
      refine ⟨?_, ?_⟩ <;> split <;> linarith
  · intro c h i
    obtain ⟨h1, h2, h3, h4⟩ := h i
    have e1 : (unite a b).min i = if b.min i < a.min i then b.min i else a.min i := rfl
    have e2 : (unite a b).max i = if a.max i < b.max i then b.max i else a.max i := rfl
    rw [e1, e2]
    constructor <;> split <;> assumption

theorem fold_unite (i : Fin n) : ∀ (pts : List (Vec K n)) (s : BBox K n),
    let r := pts.foldl (fun b x => unite b ⟨x, x⟩) s
    r.min i ≤ s.min i ∧ s.max i ≤ r.max i ∧ (∀ x ∈ pts, r.min i ≤ x i ∧ x i ≤ r.max i) ∧
    (r.min i = s.min i ∨ ∃ x ∈ pts, x i = r.min i) ∧
    (r.max i = s.max i ∨ ∃ x ∈ pts, x i = r.max i)
  | [], s => ⟨le_refl _, le_refl _, fun _ h => absurd h List.not_mem_nil, Or.inl rfl, Or.inl rfl⟩
  | x :: pts, s => by
    obtain ⟨h1, h2, h3, h4, h5⟩ := fold_unite i pts (unite s ⟨x, x⟩)
    have e1 : (unite s ⟨x, x⟩).min i = if x i < s.min i then x i else s.min i := rfl
    have e2 : (unite s ⟨x, x⟩).max i = if s.max i < x i then x i else s.max i := rfl
    have m1 : (unite s ⟨x, x⟩).min i ≤ s.min i ∧ (unite s ⟨x, x⟩).min i ≤ x i := by
      rw [e1]; constructor <;> split <;> linarith
    have m2 : s.max i ≤ (unite s ⟨x, x⟩).max i ∧ x i ≤ (unite s ⟨x, x⟩).max i := by
      rw [e2]; constructor <;> split <;> linarith
    have m3 : (unite s ⟨x, x⟩).min i = s.min i ∨ (unite s ⟨x, x⟩).min i = x i := by
      rw [e1]; split
      · exact Or.inr rfl
      · exact Or.inl rfl
    have m4 : (unite s ⟨x, x⟩).max i = s.max i ∨ (unite s ⟨x, x⟩).max i = x i := by
      rw [e2]; split
      · exact Or.inr rfl
      · exact Or.inl rfl
    simp only [List.foldl_cons]
    refine ⟨le_trans h1 m1.1, le_trans m2.1 h2, fun y hy => ?_, ?_, ?_⟩
    · rcases List.mem_cons.1 hy with rfl | hy
      · exact ⟨le_trans h1 m1.2, le_trans m2.2 h2⟩
      · exact h3 y hy
    · rcases h4 with h | ⟨y, hy, h⟩
      · rcases m3 with h' | h'
        · exact Or.inl (h.trans h')
        · exact Or.inr ⟨x, List.mem_cons_self, (h.trans h').symm⟩
      · exact Or.inr ⟨y, List.mem_cons_of_mem _ hy, h⟩
    · rcases h5 with h | ⟨y, hy, h⟩
      · rcases m4 with h' | h'
        · exact Or.inl (h.trans h')
        · exact Or.inr ⟨x, List.mem_cons_self, (h.trans h').symm⟩
      · exact Or.inr ⟨y, List.mem_cons_of_mem _ hy, h⟩

/-- The bounding box of one or more points contains them all, and each of its sides touches one
of them. (The numbers it starts from are the largest and the smallest there are.) -/
theorem C76_bounding_box (big small : K) (pts : List (Vec K n)) (hne : pts ≠ [])
    (hr : ∀ x ∈ pts, ∀ i, small ≤ x i ∧ x i ≤ big) :
    (∀ x ∈ pts, InBox x (findBBox big small pts)) ∧
    ∀ i, (∃ x ∈ pts, x i = (findBBox big small pts).min i) ∧
      ∃ x ∈ pts, x i = (findBBox big small pts).max i := by
  have h := fun i => fold_unite i pts ⟨fun _ => big, fun _ => small⟩
  obtain ⟨y, hy⟩ := List.exists_mem_of_ne_nil pts hne
  refine ⟨fun x hx i => (h i).2.2.1 x hx, fun i => ⟨?_, ?_⟩⟩
  · rcases (h i).2.2.2.1 with e | e
    · refine ⟨y, hy, le_antisymm ?_ ((h i).2.2.1 y hy).1⟩
      exact (hr y hy i).2.trans_eq e.symm
    · exact e
  · rcases (h i).2.2.2.2 with e | e
    · refine ⟨y, hy, le_antisymm ((h i).2.2.1 y hy).2 ?_⟩
      exact e.trans_le (hr y hy i).1
    · exact e

omit [IsStrictOrderedRing K] [Field K] in
theorem foldl_max : ∀ {k : Nat} (d : Fin k → K) (z : K),
    let r := Fin.foldl k (fun acc i => if acc < d i then d i else acc) z
    z ≤ r ∧ (∀ i, d i ≤ r) ∧ (r = z ∨ ∃ i, r = d i)
  | 0, d, z => ⟨by simp, fun i => i.elim0, Or.inl (by simp)⟩
  | k + 1, d, z => by
    obtain ⟨h1, h2, h3⟩ := foldl_max (fun i : Fin k => d i.castSucc) z
    rw [Fin.foldl_succ_last]
    generalize Fin.foldl k (fun acc i => if acc < d i.castSucc then d i.castSucc else acc) z = r at *
    dsimp only
    refine ⟨?_, fun i => ?_, ?_⟩
    · split
      · exact le_trans h1 (le_of_lt ‹_›)
      · exact h1
    · refine Fin.lastCases ?_ (fun i => ?_) i
      · split
        · exact le_refl _
        · exact not_lt.1 ‹_›
      · split
        · exact le_trans (h2 i) (le_of_lt ‹_›)
        · exact h2 i
    · split
      · exact Or.inr ⟨_, rfl⟩
      · rcases h3 with h | ⟨i, h⟩
        · exact Or.inl h
        · exact Or.inr ⟨i.castSucc, h⟩

/-- Making a box equal-sided keeps its lower corner, gives all sides the length of its longest,
and so contains the box it was made from. -/
theorem C76_equilateral (b : BBox K (k + 1)) :
    (makeEquilateral b).min = b.min ∧
    (∃ l, (∀ i, (makeEquilateral b).max i - b.min i = l) ∧ (∀ i, b.max i - b.min i ≤ l) ∧
      ∃ i, l = b.max i - b.min i) ∧
    ∀ x, InBox x b → InBox x (makeEquilateral b) := by
  obtain ⟨h1, h2, h3⟩ := foldl_max (fun i : Fin k => vsub b.max b.min i.succ) (vsub b.max b.min 0)
  have hm : ∀ i, (makeEquilateral b).max i = b.min i + Fin.foldl k
    (fun acc (i : Fin k) => if acc < vsub b.max b.min i.succ then vsub b.max b.min i.succ else acc)
    (vsub b.max b.min 0) := fun _ => rfl
  generalize Fin.foldl k
    (fun acc (i : Fin k) => if acc < vsub b.max b.min i.succ then vsub b.max b.min i.succ else acc)
    (vsub b.max b.min 0) = l at *
  have hall : ∀ i, b.max i - b.min i ≤ l := fun i => by
    refine Fin.cases h1 (fun j => h2 j) i
  refine ⟨rfl, ⟨l, fun i => by rw [hm]; ring, hall, ?_⟩, fun x hx i => ⟨(hx i).1, ?_⟩⟩
  · rcases h3 with h | ⟨i, h⟩
    · exact ⟨0, h⟩
    · exact ⟨i.succ, h⟩
  · rw [hm]
    have := hall i
    have := (hx i).2
    linarith

omit [LinearOrder K] [IsStrictOrderedRing K] in
theorem intoUnit_app (b : BBox K (k + 1)) (x : Vec K (k + 1)) (i : Fin (k + 1)) :
    (bboxIntoUnit b).app x i = (x i - b.min i) / (b.max i - b.min i) := by
  have hd : ∀ (s y : Vec K (k + 1)), mulVec (diagMat s) y i = s i * y i := by
    intro s y
    rw [mulVec_sum]
    simp only [diagMat, ite_mul, zero_mul, Finset.sum_ite_eq', Finset.mem_univ, if_true]
  show mulVec (diagMat fun i => 1 / (b.max i - b.min i)) x i +
    -mulVec (diagMat fun i => 1 / (b.max i - b.min i)) b.min i = _
  rw [hd, hd]
  ring

/-- The map made from a box with sides longer than zero takes its lower corner to all zeros, its
upper corner to all ones, every point in it to numbers between zero and one, and keeps the order
along every axis. -/
theorem C76_into_unit (b : BBox K (k + 1)) (h : ∀ i, b.min i < b.max i) :
    (bboxIntoUnit b).app b.min = (fun _ => 0) ∧ (bboxIntoUnit b).app b.max = (fun _ => 1) ∧
    (∀ x, InBox x b ↔ ∀ i, 0 ≤ (bboxIntoUnit b).app x i ∧ (bboxIntoUnit b).app x i ≤ 1) ∧
    ∀ x y i, x i < y i ↔ (bboxIntoUnit b).app x i < (bboxIntoUnit b).app y i := by
  have hp : ∀ i, 0 < b.max i - b.min i := fun i => sub_pos.2 (h i)
  refine ⟨?_, ?_, fun x => forall_congr' fun i => ?_, fun x y i => ?_⟩
  · funext i; rw [intoUnit_app, sub_self, zero_div]
  · funext i; rw [intoUnit_app, div_self (hp i).ne']
  · rw [intoUnit_app, le_div_iff₀ (hp i), div_le_iff₀ (hp i), zero_mul, one_mul, sub_nonneg,
      sub_le_sub_iff_right]
  · rw [intoUnit_app, intoUnit_app, div_lt_div_iff_of_pos_right (hp i), sub_lt_sub_iff_right]
end

/-! ## What is not so -/

/-- The claim that `positivize` gives the same for a unit vector and for its negative is false:
along the first axis it gives each back as it is. (The inertial cut takes its axis from here, so
which half is which then depends on the sign the eigenvector happened to have.) -/
theorem C76_positivize_refuted :
    ¬ ∀ v : Vec ℚ 3, vdot v v = 1 → positivize (vneg v) = positivize v := by
  intro h
  have h1 := h ![1, 0, 0] (by decide +kernel)
  rw [positivize_last, positivize_last] at h1
  have e1 : vneg (![1, 0, 0] : Vec ℚ 3) (Fin.last 2) = 0 := by
    show -(0 : ℚ) = 0; norm_num
  have e2 : (![1, 0, 0] : Vec ℚ 3) (Fin.last 2) = 0 := rfl
  rw [e1, e2, if_neg (lt_irrefl _), if_neg (lt_irrefl _)] at h1
  have h2 : -(1 : ℚ) = 1 := congrFun h1 0
  norm_num at h2

/-! ## Cases that meet the hypotheses -/

/-- A matrix with determinant two, and its inverse. -/
example : det3 (mat3 1 1 0 0 2 0 0 0 1 : Mat ℚ 3 3) ≠ 0 ∧
    invert3 (mat3 1 1 0 0 2 0 0 0 1 : Mat ℚ 3 3) = mat3 1 (-1 / 2) 0 0 (1 / 2) 0 0 0 1 := by
  have hd : det3 (mat3 1 1 0 0 2 0 0 0 1 : Mat ℚ 3 3) = 2 := by decide +kernel
  refine ⟨by rw [hd]; norm_num, ?_⟩
  decide +kernel

/-- A tall matrix with independent columns, and a wide one. -/
example : det2 (matMul (transp ![![1, 0, 1], ![0, 1, 1]]) (![![1, 0, 1], ![0, 1, 1]] : Mat ℚ 3 2))
      ≠ 0 ∧
    det2 (matMul (![![1, 0], ![0, 1], ![1, 1]] : Mat ℚ 2 3) (transp ![![1, 0], ![0, 1], ![1, 1]]))
      ≠ 0 := by
  decide +kernel

/-- An angle and an axis with rational numbers. -/
example : (3 / 5 : ℚ) * (3 / 5) + (4 / 5) * (4 / 5) = 1 ∧
    vdot (![2 / 3, 1 / 3, 2 / 3] : Vec ℚ 3) ![2 / 3, 1 / 3, 2 / 3] = 1 ∧
    mulVec (rotate3 (3 / 5) (4 / 5) ![0, 0, 1]) ![5, 0, 7] = (![3, 4, 7] : Vec ℚ 3) := by
  decide +kernel

/-- Straight down, where the usual formula divides by zero. -/
example : vdot (![0, 0, -1] : Vec ℚ 3) ![0, 0, -1] = 1 ∧
    orthoBasis3 true (![0, 0, -1] : Vec ℚ 3) = ![![0, 0, -1], ![1, 0, 0], ![0, -1, 0]] := by
  decide +kernel

/-- Ending in a number that is not zero. -/
example : positivize (![1, -2] : Vec ℚ 2) = ![-1, 2] ∧
    positivize (vneg ![1, -2] : Vec ℚ 2) = ![-1, 2] := by decide +kernel

/-- The bounding box of three points, made equal-sided, and the map from it. -/
example : (findBBox 100 (-100) [![1, 2], ![3, -1], ![0, 0]] : BBox ℚ 2).min = ![0, -1] ∧
    (findBBox 100 (-100) [![1, 2], ![3, -1], ![0, 0]] : BBox ℚ 2).max = ![3, 2] ∧
    (makeEquilateral ⟨![0, 0], ![2, 5]⟩ : BBox ℚ 2).max = ![5, 5] ∧
    (bboxIntoUnit ⟨![0, 0], ![2, 5]⟩ : Affine ℚ 2).app ![1, 1] = ![1 / 2, 1 / 5] := by
  decide +kernel
end OmegaH
