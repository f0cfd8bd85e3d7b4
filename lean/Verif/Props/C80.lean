import Verif.Model.Metric
import Verif.Props.C78

namespace OmegaH
open OmegaH.Spec

section
variable {K : Type} [Field K]

theorem adjoint3 (a : Mat K 3 3) (x y : Vec K 3) :
    vdot x (mulVec (transp a) y) = vdot (mulVec a x) y := by
  simp only [vdot3, mulVec3, transp]; ring

theorem diag_apply (l c : Vec K 3) : mulVec (diagMat l) c = fun i => l i * c i := by
  funext i
  rw [mulVec_sum]
  simp only [diagMat, ite_mul, zero_mul, Finset.sum_ite_eq', Finset.mem_univ, if_true]

theorem compose_apply (q : Mat K 3 3) (l v : Vec K 3) :
    mulVec (composeOrtho q l) v = mulVec q fun i => l i * mulVec (transp q) v i := by
  unfold composeOrtho
  rw [← mulVec_mulVec, ← mulVec_mulVec, diag_apply]

theorem transp_apply (q : Mat K 3 3) (h : Orthonormal q) (d : Vec K 3) :
    mulVec (transp q) (mulVec q d) = d := by
  have hi : IsIdentity (matMul (transp q) q) := by
    intro j i
    rw [matMul_sum]
    refine (h i j).trans ?_
    by_cases e : i = j
    · rw [if_pos e, if_pos e.symm]
    · rw [if_neg e, if_neg (Ne.symm e)]
  rw [mulVec_mulVec, mulVec_ident _ hi]

theorem compose_compose (q : Mat K 3 3) (h : Orthonormal q) (a b v : Vec K 3) :
    mulVec (composeOrtho q a) (mulVec (composeOrtho q b) v) =
      mulVec (composeOrtho q fun i => a i * b i) v := by
  rw [compose_apply q b, compose_apply q a, transp_apply q h, compose_apply]
  congr 1
  funext i
  ring

theorem compose_one (q : Mat K 3 3) (h : Orthonormal q) (v : Vec K 3) :
    mulVec (composeOrtho q fun _ => 1) v = v := by
  rw [compose_apply]
  simp only [one_mul]
  exact orthonormal_full q h v

/-- The value a composed matrix gives to a direction. -/
theorem compose_quad (q : Mat K 3 3) (l v : Vec K 3) :
    vdot v (mulVec (composeOrtho q l) v) = l 0 * mulVec (transp q) v 0 ^ 2 +
      l 1 * mulVec (transp q) v 1 ^ 2 + l 2 * mulVec (transp q) v 2 ^ 2 := by
  rw [compose_apply]
  have : ∀ d : Vec K 3, vdot v (mulVec q d) = vdot (mulVec (transp q) v) d := by
    intro d; simp only [vdot3, mulVec3, transp]; ring
  rw [this, vdot3]
  ring

theorem ortho_norm (q : Mat K 3 3) (h : Orthonormal q) (v : Vec K 3) :
    mulVec (transp q) v 0 ^ 2 + mulVec (transp q) v 1 ^ 2 + mulVec (transp q) v 2 ^ 2 =
      vdot v v := by
  have e := compose_quad q (fun _ => 1) v
  rw [compose_one q h] at e
  rw [e]; ring

theorem eigen_compose (m : Mat K 3 3) (l : Vec K 3) (q : Mat K 3 3) (h : Eigen m l q)
    (v : Vec K 3) : mulVec m v = mulVec (composeOrtho q l) v := by
  have e := orthonormal_full q h.1 v
  rw [compose_apply]
  conv_lhs => rw [← e]
  rw [mulVec_mulVec]
  funext j
  have hm : ∀ i, matMul m q i = vscale (q i) (l i) := h.2
  refine (mulVec3 _ _ j).trans (Eq.trans ?_ (mulVec3 q _ j).symm)
  rw [hm, hm, hm]
  show q 0 j * l 0 * _ + q 1 j * l 1 * _ + q 2 j * l 2 * _ = _
  ring

theorem mat_ext (a b : Mat K 3 3) (h : ∀ v, mulVec a v = mulVec b v) : a = b := by
  funext j i
  have e := congrFun (h fun c => if c = j then 1 else 0) i
  rw [mulVec_sum, mulVec_sum] at e
  simpa using e

theorem compose_symm (q : Mat K 3 3) (l : Vec K 3) : Spec.Symmetric (composeOrtho q l) := by
  have e : ∀ i j, composeOrtho q l j i = q 0 i * (l 0 * q 0 j) + q 1 i * (l 1 * q 1 j) +
      q 2 i * (l 2 * q 2 j) := by
    intro i j
    show mulVec (matMul q (diagMat l)) (transp q j) i = _
    rw [← mulVec_mulVec, diag_apply, mulVec3]
    rfl
  intro i j
  rw [e, e]; ring

end

section
variable {K : Type} [Field K] [LinearOrder K] [IsStrictOrderedRing K]

theorem weigh3 {a b c x y z x' y' z' : K} (ha : 0 ≤ a) (hb : 0 ≤ b) (hc : 0 ≤ c) (hx : x ≤ x')
    (hy : y ≤ y') (hz : z ≤ z') : x * a + y * b + z * c ≤ x' * a + y' * b + z' * c :=
  add_le_add (add_le_add (mul_le_mul_of_nonneg_right hx ha) (mul_le_mul_of_nonneg_right hy hb))
    (mul_le_mul_of_nonneg_right hz hc)

/-- A clamped metric asks in every direction for lengths that are neither below the least nor above
the greatest length allowed, and a metric that does so already is left as it is. -/
theorem C80_clamp (eig : Mat K 3 3 → Vec K 3 × Mat K 3 3) (m : Mat K 3 3) (hMin hMax : K)
    (he : Eigen m (eig m).1 (eig m).2) (h0 : 0 < hMin) (h1 : hMin ≤ hMax) :
    Spec.Symmetric (clampMetric eig m hMin hMax) ∧
    (∀ v, vdot v v / (hMax * hMax) ≤ metricProduct (clampMetric eig m hMin hMax) v ∧
      metricProduct (clampMetric eig m hMin hMax) v ≤ vdot v v / (hMin * hMin)) ∧
    ((∀ v, vdot v v / (hMax * hMax) ≤ metricProduct m v ∧
      metricProduct m v ≤ vdot v v / (hMin * hMin)) → clampMetric eig m hMin hMax = m) := by
  obtain ⟨ho, hv⟩ := he
  have hle : eigenvalueFromLength hMax ≤ eigenvalueFromLength hMin :=
    one_div_le_one_div_of_le (mul_pos h0 h0) (mul_le_mul h1 h1 h0.le (h0.le.trans h1))
  have hdiv : ∀ x h : K, x / (h * h) = eigenvalueFromLength h * x := fun x h => by
    unfold eigenvalueFromLength; ring
  have hq : ∀ v, metricProduct (clampMetric eig m hMin hMax) v =
      clampReal ((eig m).1 0) (eigenvalueFromLength hMax) (eigenvalueFromLength hMin) *
        mulVec (transp (eig m).2) v 0 ^ 2 +
      clampReal ((eig m).1 1) (eigenvalueFromLength hMax) (eigenvalueFromLength hMin) *
        mulVec (transp (eig m).2) v 1 ^ 2 +
      clampReal ((eig m).1 2) (eigenvalueFromLength hMax) (eigenvalueFromLength hMin) *
        mulVec (transp (eig m).2) v 2 ^ 2 := fun v => compose_quad _ _ _
  have hlo : ∀ x : K, eigenvalueFromLength hMax ≤
      clampReal x (eigenvalueFromLength hMax) (eigenvalueFromLength hMin) :=
    fun x => le_min (le_max_right _ _) hle
  have hhi : ∀ x : K, clampReal x (eigenvalueFromLength hMax) (eigenvalueFromLength hMin) ≤
      eigenvalueFromLength hMin := fun x => min_le_right _ _
  refine ⟨compose_symm _ _, fun v => ?_, fun hin => ?_⟩
  · rw [hdiv, hdiv, hq, ← ortho_norm _ ho v, mul_add, mul_add, mul_add, mul_add]
    exact ⟨weigh3 (sq_nonneg _) (sq_nonneg _) (sq_nonneg _) (hlo _) (hlo _) (hlo _),
      weigh3 (sq_nonneg _) (sq_nonneg _) (sq_nonneg _) (hhi _) (hhi _) (hhi _)⟩
  · have hl : ∀ i, clampReal ((eig m).1 i) (eigenvalueFromLength hMax) (eigenvalueFromLength hMin) =
        (eig m).1 i := by
      intro i
      have hone : vdot ((eig m).2 i) ((eig m).2 i) = 1 := by
        rw [vdot_sum]; exact (ho i i).trans (if_pos rfl)
      have hval : metricProduct m ((eig m).2 i) = (eig m).1 i := by
        unfold metricProduct
        rw [hv]
        have : vdot ((eig m).2 i) (vscale ((eig m).2 i) ((eig m).1 i)) =
            vdot ((eig m).2 i) ((eig m).2 i) * (eig m).1 i := by
          simp only [vdot3, vscale]; ring
        rw [this, hone, one_mul]
      obtain ⟨g1, g2⟩ := hin ((eig m).2 i)
      rw [hdiv, hone, mul_one, hval] at g1
      rw [hdiv, hone, mul_one, hval] at g2
      unfold clampReal
      rw [max_eq_left g1, min_eq_left g2]
    have : clampMetric eig m hMin hMax = composeOrtho (eig m).2 (eig m).1 :=
      congrArg (composeOrtho (eig m).2) (funext hl)
    rw [this]
    exact mat_ext _ _ fun v => (eigen_compose m _ _ ⟨ho, hv⟩ v).symm

omit [Field K] [IsStrictOrderedRing K] in
/-- The metric chosen is one of those given and none of them has a larger determinant. -/
theorem C80_maxdet {M : Type} (det : M → K) (first : M) (rest : List M) :
    maxdetMetric det first rest ∈ first :: rest ∧
    ∀ m ∈ first :: rest, det m ≤ det (maxdetMetric det first rest) := by
  unfold maxdetMetric
  induction rest generalizing first with
  | nil => exact ⟨List.mem_cons_self, fun m hm => by
      obtain rfl := List.mem_singleton.1 hm; exact le_refl _⟩
  | cons x xs ih =>
    rw [List.foldl_cons]
    dsimp only
    by_cases h : det x > det first
    · rw [if_pos h]
      obtain ⟨h1, h2⟩ := ih x
      refine ⟨List.mem_cons_of_mem _ h1, fun m hm => ?_⟩
      rcases List.mem_cons.1 hm with rfl | hm
      · exact h.le.trans (h2 x List.mem_cons_self)
      · exact h2 m hm
    · rw [if_neg h]
      obtain ⟨h1, h2⟩ := ih first
      refine ⟨?_, fun m hm => ?_⟩
      · rcases List.mem_cons.1 h1 with e | e
        · exact List.mem_cons.2 (Or.inl e)
        · exact List.mem_cons_of_mem _ (List.mem_cons_of_mem _ e)
      · rcases List.mem_cons.1 hm with rfl | hm
        · exact h2 m List.mem_cons_self
        · rcases List.mem_cons.1 hm with rfl | hm
          · exact (not_lt.1 h).trans (h2 first List.mem_cons_self)
          · exact h2 m (List.mem_cons_of_mem _ hm)

/-- If the first metric has no degenerate direction, the intersection asks in every direction for
lengths no greater than either metric does, and, if the second is nowhere negative, for no less
than their sum does; and where the second never asks for less than the first, the intersection is
the first. -/
theorem C80_intersect_partial (sqrt : K → K) (eig : Mat K 3 3 → Vec K 3 × Mat K 3 3)
    (m1 m2 : Mat K 3 3) (h1 : Eigen m1 (eig m1).1 (eig m1).2)
    (hs : ∀ i, 0 < sqrt ((eig m1).1 i) ∧ sqrt ((eig m1).1 i) * sqrt ((eig m1).1 i) = (eig m1).1 i)
    (h2 : Eigen (intersectBar sqrt eig m1 m2) (eig (intersectBar sqrt eig m1 m2)).1
      (eig (intersectBar sqrt eig m1 m2)).2) :
    let m := intersectNormal sqrt eig m1 m2
    (∀ v, metricProduct m1 v ≤ metricProduct m v ∧ metricProduct m2 v ≤ metricProduct m v) ∧
    ((∀ v, 0 ≤ metricProduct m2 v) →
      ∀ v, metricProduct m v ≤ metricProduct m1 v + metricProduct m2 v) ∧
    ((∀ v, metricProduct m2 v ≤ metricProduct m1 v) →
      ∀ v, metricProduct m v = metricProduct m1 v) := by
  intro m
  let s : Vec K 3 := fun i => sqrt ((eig m1).1 i)
  let A := composeOrtho (eig m1).2 s
  let B := composeOrtho (eig m1).2 fun i => 1 / s i
  let bar := matMul (matMul (transp B) m2) B
  have hso : ∀ i, s i * s i = (eig m1).1 i := fun i => (hs i).2
  have hsp : ∀ i, s i ≠ 0 := fun i => (hs i).1.ne'
  have hquad : ∀ (C D : Mat K 3 3) (v : Vec K 3),
      vdot v (mulVec (matMul (matMul (transp C) D) C) v) = metricProduct D (mulVec C v) := by
    intro C D v
    rw [← mulVec_mulVec, ← mulVec_mulVec, adjoint3]; rfl
  have hBA : ∀ v, mulVec B (mulVec A v) = v := by
    intro v
    rw [compose_compose _ h1.1]
    have : (fun i => 1 / s i * s i) = fun _ => (1 : K) := funext fun i => one_div_mul_cancel (hsp i)
    rw [this, compose_one _ h1.1]
  have hAB : ∀ v, mulVec A (mulVec B v) = v := by
    intro v
    rw [compose_compose _ h1.1]
    have : (fun i => s i * (1 / s i)) = fun _ => (1 : K) := funext fun i => mul_one_div_cancel (hsp i)
    rw [this, compose_one _ h1.1]
  have hA : ∀ v, vdot (mulVec A v) (mulVec A v) = metricProduct m1 v := by
    intro v
    have sy : vdot (mulVec A v) (mulVec A v) = vdot v (mulVec A (mulVec A v)) := by
      have hsym := compose_symm (eig m1).2 s
      have : transp A = A := by
        funext i j; exact hsym j i
      rw [← adjoint3, this]
    rw [sy, compose_compose _ h1.1, funext hso, metricProduct, eigen_compose m1 _ _ h1]
  have hbarq : ∀ w, metricProduct bar w = metricProduct m2 (mulVec B w) := fun w => hquad B m2 w
  obtain ⟨ho, hv⟩ := show Eigen bar (eig bar).1 (eig bar).2 from h2
  have hm : ∀ v, metricProduct m v =
      max ((eig bar).1 0) 1 * mulVec (transp (eig bar).2) (mulVec A v) 0 ^ 2 +
      max ((eig bar).1 1) 1 * mulVec (transp (eig bar).2) (mulVec A v) 1 ^ 2 +
      max ((eig bar).1 2) 1 * mulVec (transp (eig bar).2) (mulVec A v) 2 ^ 2 := by
    intro v
    exact (hquad A (composeOrtho (eig bar).2 fun i => max ((eig bar).1 i) 1) v).trans
      (compose_quad _ _ _)
  have hm1 : ∀ v, metricProduct m1 v =
      1 * mulVec (transp (eig bar).2) (mulVec A v) 0 ^ 2 +
      1 * mulVec (transp (eig bar).2) (mulVec A v) 1 ^ 2 +
      1 * mulVec (transp (eig bar).2) (mulVec A v) 2 ^ 2 := by
    intro v
    rw [one_mul, one_mul, one_mul, ortho_norm _ ho, hA]
  have hm2' : ∀ v, metricProduct m2 v =
      (eig bar).1 0 * mulVec (transp (eig bar).2) (mulVec A v) 0 ^ 2 +
      (eig bar).1 1 * mulVec (transp (eig bar).2) (mulVec A v) 1 ^ 2 +
      (eig bar).1 2 * mulVec (transp (eig bar).2) (mulVec A v) 2 ^ 2 := by
    intro v
    have e := hbarq (mulVec A v)
    rw [hBA] at e
    rw [← e, metricProduct, eigen_compose bar _ _ ⟨ho, hv⟩, compose_quad]
  have hcol : ∀ i, metricProduct bar ((eig bar).2 i) = (eig bar).1 i := by
    intro i
    unfold metricProduct
    rw [hv]
    have : vdot ((eig bar).2 i) (vscale ((eig bar).2 i) ((eig bar).1 i)) =
        vdot ((eig bar).2 i) ((eig bar).2 i) * (eig bar).1 i := by
      simp only [vdot3, vscale]; ring
    rw [this, vdot_sum, show ∑ k, (eig bar).2 i k * (eig bar).2 i k = 1 from
      (ho i i).trans (if_pos rfl), one_mul]
  refine ⟨fun v => ⟨?_, ?_⟩, fun hn v => ?_, fun hle v => ?_⟩
  · rw [hm, hm1]
    exact weigh3 (sq_nonneg _) (sq_nonneg _) (sq_nonneg _) (le_max_right _ _) (le_max_right _ _)
      (le_max_right _ _)
  · rw [hm, hm2']
    exact weigh3 (sq_nonneg _) (sq_nonneg _) (sq_nonneg _) (le_max_left _ _) (le_max_left _ _)
      (le_max_left _ _)
  · have hl : ∀ i, 0 ≤ (eig bar).1 i := fun i => by
      rw [← hcol, hbarq]; exact hn _
    have hmx : ∀ i, max ((eig bar).1 i) 1 ≤ 1 + (eig bar).1 i := fun i =>
      max_le (by linarith) (by linarith [hl i])
    have := weigh3 (sq_nonneg (mulVec (transp (eig bar).2) (mulVec A v) 0))
      (sq_nonneg (mulVec (transp (eig bar).2) (mulVec A v) 1))
      (sq_nonneg (mulVec (transp (eig bar).2) (mulVec A v) 2)) (hmx 0) (hmx 1) (hmx 2)
    rw [hm, hm1, hm2']
    refine this.trans (le_of_eq ?_)
    ring
  · have hl : ∀ i, (eig bar).1 i ≤ 1 := fun i => by
      rw [← hcol, hbarq]
      refine (hle _).trans (le_of_eq ?_)
      rw [← hA, hAB, vdot_sum]
      exact (ho i i).trans (if_pos rfl)
    rw [hm, hm1, max_eq_right (hl 0), max_eq_right (hl 1), max_eq_right (hl 2)]

/-- If two metrics of the plane each have a direction in which they ask for nothing, and the two
directions are at less than a right angle but not the same, the intersection asks for what both ask
for together. -/
theorem C80_degenerate_partial (eps : K) (m1 m2 : Mat K 2 2) (l1 l2 : Vec K 2) (q1 q2 : Mat K 2 2)
    (d1 d2 : Fin 2 → Bool) (s1 : Spec.Symmetric m1) (s2 : Spec.Symmetric m2)
    (z1 : mulVec m1 (degenDir2 q1 d1) = fun _ => 0) (z2 : mulVec m2 (degenDir2 q2 d2) = fun _ => 0)
    (acute : eps ≤ vdot (degenDir2 q1 d1) (degenDir2 q2 d2))
    (indep : det2 ![degenDir2 q1 d1, degenDir2 q2 d2] ≠ 0) :
    ∃ m, intersectDegen2 eps m1 l1 q1 d1 m2 l2 q2 d2 = some m ∧
      ∀ v, metricProduct m v = metricProduct m1 v + metricProduct m2 v := by
  unfold intersectDegen2
  rw [if_neg (not_lt.2 acute)]
  generalize degenDir2 q1 d1 = v1 at *
  generalize degenDir2 q2 d2 = v2 at *
  rw [if_neg indep]
  refine ⟨_, rfl, fun v => ?_⟩
  have hu := invert2_undo _ indep
  have hr := mulVec_ident _ (undo_left hu) v
  generalize invert2 ![v1, v2] = R at *
  rw [← mulVec_mulVec] at hr
  have hq : metricProduct (matMul (matMul (transp R)
      (diagMat ![vdot v1 (mulVec m2 v1), vdot v2 (mulVec m1 v2)])) R) v =
      vdot v1 (mulVec m2 v1) * mulVec R v 0 ^ 2 + vdot v2 (mulVec m1 v2) * mulVec R v 1 ^ 2 := by
    unfold metricProduct
    rw [← mulVec_mulVec, ← mulVec_mulVec]
    have adj : ∀ (a : Mat K 2 2) (x y : Vec K 2),
        vdot x (mulVec (transp a) y) = vdot (mulVec a x) y := by
      intro a x y; simp only [vdot2, mulVec2, transp]; ring
    rw [adj]
    generalize mulVec R v = c
    rw [vdot2, mulVec2, mulVec2]
    show c 0 * (vdot v1 (mulVec m2 v1) * c 0 + 0 * c 1) +
      c 1 * (0 * c 0 + vdot v2 (mulVec m1 v2) * c 1) = _
    ring
  rw [hq]
  generalize mulVec R v = c at *
  have hv : ∀ i, v i = v1 i * c 0 + v2 i * c 1 := by
    intro i
    have := congrFun hr i
    rw [mulVec2] at this
    exact this.symm
  have a0 := congrFun z1 0
  have a1 := congrFun z1 1
  have b0 := congrFun z2 0
  have b1 := congrFun z2 1
  rw [mulVec2] at a0 a1 b0 b1
  have e1 := s1 1 0
  have e2 := s2 1 0
  simp only [metricProduct, vdot2, mulVec2, hv]
  generalize m1 0 1 = x1 at *
  generalize m1 1 0 = y1 at *
  generalize m2 0 1 = x2 at *
  generalize m2 1 0 = y2 at *
  subst e1 e2
  linear_combination
    -(v1 0 * c 0 ^ 2 + 2 * v2 0 * c 0 * c 1) * a0 - (v1 1 * c 0 ^ 2 + 2 * v2 1 * c 0 * c 1) * a1
    - (v2 0 * c 1 ^ 2 + 2 * v1 0 * c 0 * c 1) * b0 - (v2 1 * c 1 ^ 2 + 2 * v1 1 * c 0 * c 1) * b1
end

/-- The metric that asks for half of length one along the first axis and for nothing along the second. -/
def firstOnly : Mat ℚ 2 2 := mat2 4 0 0 0
/-- The metric that asks for length one along the second axis and for nothing along the first. -/
def secondOnly : Mat ℚ 2 2 := mat2 0 0 0 1

/-- If the directions in which two metrics of the plane ask for nothing are at right angles, the
intersection is the first metric and what the second asks for is lost; and if they are the same, a
matrix of determinant zero is inverted. -/
theorem C80_degenerate_refuted :
    (∃ m, intersectDegen2 (1 / 10 ^ 10) firstOnly ![4, 0] identMat ![false, true]
        secondOnly ![0, 1] identMat ![true, false] = some m ∧
      metricProduct m ![1, 0] = 4 ∧ metricProduct m ![0, 1] = 0 ∧
      metricProduct secondOnly ![0, 1] = 1) ∧
    intersectDegen2 (1 / 10 ^ 10) firstOnly ![4, 0] identMat ![false, true]
        firstOnly ![4, 0] identMat ![false, true] = none := by
  refine ⟨⟨mscale (outerMat ![1, 0] ![1, 0]) 4, ?_, ?_, ?_, ?_⟩, ?_⟩
  · unfold intersectDegen2
    rw [if_pos (by decide +kernel)]
    refine congrArg some ?_
    funext j i; revert i j; decide +kernel
  · decide +kernel
  · decide +kernel
  · decide +kernel
  · unfold intersectDegen2
    rw [if_neg (by decide +kernel), if_pos (by decide +kernel)]

/-! ### The hypotheses are met -/

/-- A metric with eigenvalues one, four and nine. -/
def shapeMetric : Mat ℚ 3 3 := diagMat ![1, 4, 9]
/-- Diagonal matrices are decomposed into themselves. -/
def diagEig (m : Mat ℚ 3 3) : Vec ℚ 3 × Mat ℚ 3 3 := (fun i => m i i, identMat)

example : Eigen shapeMetric (diagEig shapeMetric).1 (diagEig shapeMetric).2 := by
  refine ⟨by intro i j; revert i j; decide +kernel, fun i => ?_⟩
  funext j; revert i j; decide +kernel
example : clampMetric diagEig shapeMetric (1 / 2) 1 = diagMat ![1, 4, 4] := by
  funext j i; revert i j; decide +kernel
/-- Its square roots. -/
def tableSqrt (x : ℚ) : ℚ := if x = 4 then 2 else if x = 9 then 3 else x
example : ∀ i, 0 < tableSqrt ((diagEig shapeMetric).1 i) ∧
    tableSqrt ((diagEig shapeMetric).1 i) * tableSqrt ((diagEig shapeMetric).1 i) =
      (diagEig shapeMetric).1 i := by decide +kernel
example : Eigen (intersectBar tableSqrt diagEig shapeMetric (diagMat ![9, 4, 1]))
    (diagEig (intersectBar tableSqrt diagEig shapeMetric (diagMat ![9, 4, 1]))).1
    (diagEig (intersectBar tableSqrt diagEig shapeMetric (diagMat ![9, 4, 1]))).2 := by
  refine ⟨by intro i j; revert i j; decide +kernel, fun i => ?_⟩
  funext j; revert i j; decide +kernel
example : intersectNormal tableSqrt diagEig shapeMetric (diagMat ![9, 4, 1]) = diagMat ![9, 4, 9] := by
  funext j i; revert i j; decide +kernel
example : maxdetMetric (fun x : ℚ => x) 2 [5, 3, 5] = 5 := by decide +kernel
example : degenDir2 (mat2 (3 / 5) (4 / 5) (-4 / 5) (3 / 5) : Mat ℚ 2 2) ![true, false] =
    ![3 / 5, -4 / 5] := by funext i; revert i; decide +kernel
example : (1 / 10 ^ 10 : ℚ) ≤ vdot (degenDir2 (identMat : Mat ℚ 2 2) ![true, false])
      (degenDir2 (mat2 (3 / 5) (4 / 5) (-4 / 5) (3 / 5)) ![true, false]) ∧
    det2 ![degenDir2 (identMat : Mat ℚ 2 2) ![true, false],
      degenDir2 (mat2 (3 / 5) (4 / 5) (-4 / 5) (3 / 5)) ![true, false]] ≠ 0 := by decide +kernel

end OmegaH
