import Verif.Model.Quality
import Verif.Props.C77
import Mathlib.Analysis.Real.Sqrt

namespace OmegaH
open OmegaH.Spec

section
variable {K : Type} [Field K] [LinearOrder K] [IsStrictOrderedRing K]

/-- The squares of two edges at a corner and their product, in a metric. -/
theorem edges_in_metric (p : Fin 3 → Vec K 2) (m : Mat K 2 2) (hs : Spec.Symmetric m) :
    let x := metricProduct m (vsub (p 1) (p 0))
    let y := metricProduct m (vsub (p 2) (p 0))
    let z := vdot (vsub (p 1) (p 0)) (mulVec m (vsub (p 2) (p 0)))
    metricProduct m (vsub (p 2) (p 1)) = x + y - 2 * z ∧
    x * y - z ^ 2 = det2 m * (2 * triangleArea2 (simplexBasis p)) ^ 2 ∧
    meanSquaredLength2 (triEdgeVectors p (simplexBasis p)) m =
      (x + y + metricProduct m (vsub (p 2) (p 1))) / 3 := by
  have e : m 1 0 = m 0 1 := hs 1 0
  have hb0 : simplexBasis p 0 = vsub (p 1) (p 0) := rfl
  have hb1 : simplexBasis p 1 = vsub (p 2) (p 0) := rfl
  have hd : vsub (p 2) (p 1) = vsub (vsub (p 2) (p 0)) (vsub (p 1) (p 0)) := by
    funext i; show p 2 i - p 1 i = p 2 i - p 0 i - (p 1 i - p 0 i); ring
  refine ⟨?_, ?_, ?_⟩
  · rw [hd]
    generalize vsub (p 1) (p 0) = u
    generalize vsub (p 2) (p 0) = v
    simp only [metricProduct, vdot2, mulVec2, vsub, e]
    ring
  · show _ = det2 m * (2 * ((simplexBasis p 0 0 * simplexBasis p 1 1 -
      simplexBasis p 0 1 * simplexBasis p 1 0) / 2)) ^ 2
    rw [mul_div_cancel₀ _ two_ne_zero, hb0, hb1]
    generalize vsub (p 1) (p 0) = u
    generalize vsub (p 2) (p 0) = v
    simp only [metricProduct, vdot2, mulVec2, det2, e]
    ring
  · show (0 + metricProduct m (vsub (p 1) (p 0)) + metricProduct m (vsub (p 2) (p 1)) +
      metricProduct m (vneg (vsub (p 2) (p 0)))) / 3 = _
    have : metricProduct m (vneg (vsub (p 2) (p 0))) = metricProduct m (vsub (p 2) (p 0)) := by
      simp only [metricProduct, vdot2, mulVec2, vneg]; ring
    rw [this]; ring
end

section
variable {K : Type} [Field K] [LinearOrder K] [IsStrictOrderedRing K]

/-- The quality of a triangle in a metric that is positive in every direction is never above one,
and it is one exactly if the triangle is not inverted and its edges are equally long in the metric.
It has the sign of the area. -/
theorem C83_quality (sqrt : K → K) (eq : K) (p : Fin 3 → Vec K 2) (m : Mat K 2 2)
    (hs : Spec.Symmetric m) (hm : ∀ v : Vec K 2, (∃ i, v i ≠ 0) → 0 < metricProduct m v)
    (hd : 0 < sqrt (det2 m) ∧ sqrt (det2 m) * sqrt (det2 m) = det2 m)
    (he : 0 < eq ∧ eq * eq = 3 / 16) (hp : triSize p ≠ 0) :
    triQuality sqrt eq p m ≤ 1 ∧
    (triQuality sqrt eq p m = 1 ↔ 0 < triSize p ∧
      metricProduct m (vsub (p 1) (p 0)) = metricProduct m (vsub (p 2) (p 1)) ∧
      metricProduct m (vsub (p 2) (p 1)) = metricProduct m (vsub (p 0) (p 2))) ∧
    (0 < triQuality sqrt eq p m ↔ 0 < triSize p) ∧
    (triQuality sqrt eq p m < 0 ↔ triSize p < 0) := by
  obtain ⟨h1, h2, h3⟩ := edges_in_metric p m hs
  have hsw : metricProduct m (vsub (p 0) (p 2)) = metricProduct m (vsub (p 2) (p 0)) := by
    simp only [metricProduct, vdot2, mulVec2, vsub]; ring
  rw [hsw]
  have hx : 0 < metricProduct m (vsub (p 1) (p 0)) := by
    refine hm _ ?_
    by_contra hn
    refine hp ?_
    have z : ∀ i, vsub (p 1) (p 0) i = 0 := fun i => by
      by_contra h; exact hn ⟨i, h⟩
    show (vsub (p 1) (p 0) 0 * vsub (p 2) (p 0) 1 - vsub (p 1) (p 0) 1 * vsub (p 2) (p 0) 0) / 2 = 0
    rw [z 0, z 1]; ring
  have hy : 0 < metricProduct m (vsub (p 2) (p 0)) := by
    refine hm _ ?_
    by_contra hn
    refine hp ?_
    have z : ∀ i, vsub (p 2) (p 0) i = 0 := fun i => by
      by_contra h; exact hn ⟨i, h⟩
    show (vsub (p 1) (p 0) 0 * vsub (p 2) (p 0) 1 - vsub (p 1) (p 0) 1 * vsub (p 2) (p 0) 0) / 2 = 0
    rw [z 0, z 1]; ring
  have hw : 0 ≤ metricProduct m (vsub (p 2) (p 1)) := by
    by_cases hz : ∃ i, vsub (p 2) (p 1) i ≠ 0
    · exact (hm _ hz).le
    · have z : ∀ i, vsub (p 2) (p 1) i = 0 := fun i => by
        by_contra h; exact hz ⟨i, h⟩
      rw [metricProduct, vdot2, z 0, z 1, zero_mul, zero_mul, add_zero]
  unfold triQuality metricSize2 meanRatio2
  dsimp only
  rw [h3]
  have hA : triSize p = triangleArea2 (simplexBasis p) := rfl
  rw [hA] at hp ⊢
  generalize triangleArea2 (simplexBasis p) = A at *
  generalize metricProduct m (vsub (p 1) (p 0)) = x at *
  generalize metricProduct m (vsub (p 2) (p 0)) = y at *
  generalize metricProduct m (vsub (p 2) (p 1)) = w at *
  generalize vdot (vsub (p 1) (p 0)) (mulVec m (vsub (p 2) (p 0))) = z at *
  rw [← hd.2] at h2
  generalize sqrt (det2 m) = r at *
  obtain ⟨hr, -⟩ := hd
  obtain ⟨he0, he1⟩ := he
  have hS : 0 < (x + y + w) / 3 := by linarith
  have hneg : A * r < 0 ↔ A < 0 := by
    constructor
    · intro h; by_contra hn; exact absurd h (not_lt.2 (mul_nonneg (not_lt.1 hn) hr.le))
    · intro h; exact mul_neg_of_neg_of_pos h hr
  by_cases hlt : A < 0
  · rw [if_pos (hneg.2 hlt)]
    have := hneg.2 hlt
    refine ⟨by linarith, ⟨fun e => absurd this (by rw [e]; exact not_lt.2 zero_le_one), fun e => absurd hlt (not_lt.2 e.1.le)⟩,
      ⟨fun h => absurd this (not_lt.2 h.le), fun h => absurd hlt (not_lt.2 h.le)⟩,
      ⟨fun _ => hlt, fun _ => this⟩⟩
  · have hApos : 0 < A := lt_of_le_of_ne (not_lt.1 hlt) (Ne.symm hp)
    rw [if_neg fun h => hlt (hneg.1 h)]
    have hT : 0 < A * r / eq := div_pos (mul_pos hApos hr) he0
    have hq : 0 < A * r / eq / ((x + y + w) / 3) := div_pos hT hS
    have hT2 : (A * r / eq) ^ 2 = 4 / 3 * (x * y - z ^ 2) := by
      rw [h2, div_pow, show eq ^ 2 = 3 / 16 by rw [sq, he1]]
      ring
    have hid : ((x + y + w) / 3) ^ 2 - (A * r / eq) ^ 2 =
        (4 / 9) * ((2 * z - (x + y) / 2) ^ 2 + 3 / 4 * (x - y) ^ 2) := by
      rw [hT2, h1]; ring
    have hle : A * r / eq ≤ (x + y + w) / 3 := by
      refine le_of_sq_le_sq ?_ hS.le
      have h0 : (0 : K) ≤ (4 / 9) * ((2 * z - (x + y) / 2) ^ 2 + 3 / 4 * (x - y) ^ 2) := by
        positivity
      linarith
    refine ⟨(div_le_one hS).2 hle, ?_, ⟨fun _ => hApos, fun _ => hq⟩,
      ⟨fun h => absurd hq (not_lt.2 h.le), fun h => absurd h hlt⟩⟩
    rw [div_eq_one_iff_eq hS.ne']
    constructor
    · intro e
      rw [e, sub_self] at hid
      have a1 := sq_nonneg (2 * z - (x + y) / 2)
      have a2 := sq_nonneg (x - y)
      have b1 : (2 * z - (x + y) / 2) ^ 2 = 0 := by linarith
      have b2 : (x - y) ^ 2 = 0 := by linarith
      have c1 := pow_eq_zero_iff (two_ne_zero) |>.1 b1
      have c2 := pow_eq_zero_iff (two_ne_zero) |>.1 b2
      exact ⟨hApos, by rw [h1]; linarith, by rw [h1]; linarith⟩
    · rintro ⟨_, e1, e2⟩
      have c2 : x = y := e1.trans e2
      have c1 : 2 * z = x := by rw [h1] at e1; linarith
      have : (A * r / eq) ^ 2 = ((x + y + w) / 3) ^ 2 := by
        have : (2 * z - (x + y) / 2) = 0 := by rw [c1, ← c2]; ring
        rw [this, c2] at hid
        rw [c2]
        linarith [hid]
      exact (pow_left_inj₀ hT.le hS.le two_ne_zero).1 this
end

/-- In one dimension the values by which overlapping changes are chosen are zero and one in turn,
so that there is no chain of three neighbours along which they rise. -/
theorem C83_alternate (g : Int) (h : 0 ≤ g) :
    (cavityQuality1 g = 0 ∨ cavityQuality1 g = 1) ∧
    cavityQuality1 (g + 1) = 1 - cavityQuality1 g ∧
    ¬ (cavityQuality1 g < cavityQuality1 (g + 1) ∧ cavityQuality1 (g + 1) < cavityQuality1 (g + 2)) := by
  unfold cavityQuality1
  rw [Int.tmod_eq_emod_of_nonneg h, Int.tmod_eq_emod_of_nonneg (by omega : 0 ≤ g + 1),
    Int.tmod_eq_emod_of_nonneg (by omega : 0 ≤ g + 2)]
  omega

/-! ### The hypotheses are met -/

example : ∃ eq : ℝ, 0 < eq ∧ eq * eq = 3 / 16 :=
  ⟨Real.sqrt (3 / 16), Real.sqrt_pos.2 (by norm_num), Real.mul_self_sqrt (by norm_num)⟩

/-- A metric with a rational root of its determinant. -/
def qualMetric : Mat ℚ 2 2 := mat2 4 0 0 9
example : Spec.Symmetric qualMetric := by intro i j; revert i j; decide +kernel
example : det2 qualMetric = 6 * 6 := by decide +kernel
example (v : Vec ℚ 2) (h : ∃ i, v i ≠ 0) : 0 < metricProduct qualMetric v := by
  have e : metricProduct qualMetric v = 4 * v 0 ^ 2 + 9 * v 1 ^ 2 := by
    rw [metricProduct, vdot2, mulVec2, mulVec2]
    show v 0 * (4 * v 0 + 0 * v 1) + v 1 * (0 * v 0 + 9 * v 1) = _
    ring
  rw [e]
  obtain ⟨i, hi⟩ := h
  match i with
  | 0 => have : 0 < v 0 ^ 2 := lt_of_le_of_ne (sq_nonneg _) (Ne.symm (pow_ne_zero 2 hi))
         have := sq_nonneg (v 1); linarith
  | 1 => have : 0 < v 1 ^ 2 := lt_of_le_of_ne (sq_nonneg _) (Ne.symm (pow_ne_zero 2 hi))
         have := sq_nonneg (v 0); linarith
example : triQuality (fun _ => (6 : ℚ)) (433 / 1000) ![![0, 0], ![1, 0], ![0, 1]] qualMetric =
    3 / (433 / 1000) / (26 / 3) := by decide +kernel
example : triQuality (fun _ => (6 : ℚ)) (433 / 1000) ![![0, 0], ![0, 1], ![1, 0]] qualMetric = -3 := by
  decide +kernel

end OmegaH
