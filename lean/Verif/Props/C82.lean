import Verif.Spec.Confined
import Verif.Props.C77

namespace OmegaH
open OmegaH.Spec

section
variable {K : Type} [Field K] {k : Nat}

theorem vdot_self_dist (x y : Vec K (k + 1)) : vdot (vsub x y) (vsub x y) = distSq x y := by
  rw [vdot_sum]
  exact Finset.sum_congr rfl fun i _ => (sq _).symm

theorem dist_line (o a b : Vec K (k + 1)) (t : K) :
    distSq (between a b t) o = vdot (vsub a o) (vsub a o) + 2 * t * vdot (vsub b a) (vsub a o) +
      t ^ 2 * vdot (vsub b a) (vsub b a) := by
  rw [vdot_sum, vdot_sum, vdot_sum, Finset.mul_sum, Finset.mul_sum, ← Finset.sum_add_distrib,
    ← Finset.sum_add_distrib]
  refine Finset.sum_congr rfl fun i _ => ?_
  show (a i + t * (b i - a i) - o i) ^ 2 = (a i - o i) * (a i - o i) +
    2 * t * ((b i - a i) * (a i - o i)) + t ^ 2 * ((b i - a i) * (b i - a i))
  ring

theorem vdot_reject (p q : Vec K (k + 1)) (r : K) :
    vdot p (vsub q (vscale p r)) = vdot p q - vdot p p * r ∧
    vdot (vsub q (vscale p r)) (vsub q (vscale p r)) =
      vdot q q - 2 * r * vdot p q + r ^ 2 * vdot p p := by
  simp only [vdot_sum]
  constructor
  · rw [Finset.sum_mul, ← Finset.sum_sub_distrib]
    refine Finset.sum_congr rfl fun i _ => ?_
    show p i * (q i - p i * r) = p i * q i - p i * p i * r
    ring
  · rw [Finset.mul_sum, Finset.mul_sum, ← Finset.sum_sub_distrib, ← Finset.sum_add_distrib]
    refine Finset.sum_congr rfl fun i _ => ?_
    show (q i - p i * r) * (q i - p i * r) =
      q i * q i - 2 * r * (p i * q i) + r ^ 2 * (p i * p i)
    ring
end

section
variable {K : Type} [Field K] [LinearOrder K] [IsStrictOrderedRing K] {k : Nat}

theorem vdot_self_nonneg (x : Vec K (k + 1)) : 0 ≤ vdot x x := by
  rw [vdot_sum]; exact Finset.sum_nonneg fun i _ => mul_self_nonneg _

theorem vdot_self_pos (a b : Vec K (k + 1)) (h : a ≠ b) : 0 < vdot (vsub b a) (vsub b a) := by
  refine lt_of_le_of_ne (vdot_self_nonneg _) fun e => h ?_
  rw [vdot_sum] at e
  have := (Finset.sum_eq_zero_iff_of_nonneg fun i _ => mul_self_nonneg (vsub b a i)).1 e.symm
  funext i
  have hi : (b i - a i) * (b i - a i) = 0 := this i (Finset.mem_univ _)
  exact (sub_eq_zero.1 (mul_self_eq_zero.1 hi)).symm

/-- What a corner of a triangle gives is the square of its distance to the opposite side, and it
gives something exactly if the point of the line through that side that is closest to the corner
lies on the side. -/
theorem C82_corner (o a b : Vec K (k + 1)) (hab : a ≠ b) :
    (∀ h, triCornerPad o a b = some h ↔ ∃ t, 0 ≤ t ∧ t ≤ 1 ∧ h = distSq (between a b t) o ∧
      ∀ s, h ≤ distSq (between a b s) o) ∧
    (triCornerPad o a b = none ↔ ∀ t, 0 ≤ t → t ≤ 1 →
      ∃ s, (s < 0 ∨ 1 < s) ∧ distSq (between a b s) o < distSq (between a b t) o) := by
  have hp := vdot_self_pos a b hab
  obtain ⟨e1, e2⟩ := vdot_reject (vsub b a) (vsub a o)
    (vdot (vsub b a) (vsub a o) / vdot (vsub b a) (vsub b a))
  have hl : ∀ s, distSq (between a b s) o = vdot (vsub a o) (vsub a o) -
      vdot (vsub b a) (vsub a o) ^ 2 / vdot (vsub b a) (vsub b a) +
      vdot (vsub b a) (vsub b a) *
        (s - -vdot (vsub b a) (vsub a o) / vdot (vsub b a) (vsub b a)) ^ 2 := by
    intro s
    rw [dist_line]
    field_simp
    ring
  have hdef : triCornerPad o a b =
      if 0 ≤ -vdot (vsub b a) (vsub a o) / vdot (vsub b a) (vsub b a) ∧
        -vdot (vsub b a) (vsub a o) / vdot (vsub b a) (vsub b a) ≤ 1 then
        some (vdot (vsub a o) (vsub a o) -
          vdot (vsub b a) (vsub a o) ^ 2 / vdot (vsub b a) (vsub b a)) else none := by
    unfold triCornerPad
    dsimp only
    rw [if_neg hp.ne', e1, e2]
    have a1 : vdot (vsub b a) (vsub a o) - vdot (vsub b a) (vsub b a) *
        (vdot (vsub b a) (vsub a o) / vdot (vsub b a) (vsub b a)) -
        vdot (vsub b a) (vsub a o) = -vdot (vsub b a) (vsub a o) := by
      rw [mul_div_cancel₀ _ hp.ne']; ring
    have a2 : vdot (vsub a o) (vsub a o) -
        2 * (vdot (vsub b a) (vsub a o) / vdot (vsub b a) (vsub b a)) *
          vdot (vsub b a) (vsub a o) +
        (vdot (vsub b a) (vsub a o) / vdot (vsub b a) (vsub b a)) ^ 2 *
          vdot (vsub b a) (vsub b a) =
        vdot (vsub a o) (vsub a o) -
          vdot (vsub b a) (vsub a o) ^ 2 / vdot (vsub b a) (vsub b a) := by
      field_simp
      ring
    rw [a1, a2]
  rw [hdef]
  generalize vdot (vsub a o) (vsub a o) -
    vdot (vsub b a) (vsub a o) ^ 2 / vdot (vsub b a) (vsub b a) = m at *
  generalize -vdot (vsub b a) (vsub a o) / vdot (vsub b a) (vsub b a) = t0 at *
  have hfoot : distSq (between a b t0) o = m := by rw [hl]; ring
  have hleast : ∀ s, m ≤ distSq (between a b s) o := fun s => by
    rw [hl]; exact le_add_of_nonneg_right (mul_nonneg hp.le (sq_nonneg _))
  have honly : ∀ s, distSq (between a b s) o ≤ m → s = t0 := by
    intro s hs
    rw [hl] at hs
    have h0 : vdot (vsub b a) (vsub b a) * (s - t0) ^ 2 ≤ 0 := by linarith
    have h1 : (s - t0) ^ 2 ≤ 0 := by
      by_contra hn
      exact absurd h0 (not_le.2 (mul_pos hp (not_le.1 hn)))
    exact sub_eq_zero.1 (pow_eq_zero_iff (two_ne_zero)|>.1 (le_antisymm h1 (sq_nonneg _)))
  constructor
  · intro h
    constructor
    · intro hh
      by_cases hc : 0 ≤ t0 ∧ t0 ≤ 1
      · rw [if_pos hc] at hh
        cases hh
        exact ⟨t0, hc.1, hc.2, hfoot.symm, hleast⟩
      · rw [if_neg hc] at hh; cases hh
    · rintro ⟨t, h0, h1, e, hm⟩
      have ht : t = t0 := honly t (by rw [← e, ← hfoot]; exact hm t0)
      rw [ht] at h0 h1 e
      rw [if_pos ⟨h0, h1⟩, e, hfoot]
  · constructor
    · intro hh t h0 h1
      by_cases hc : 0 ≤ t0 ∧ t0 ≤ 1
      · rw [if_pos hc] at hh; cases hh
      · refine ⟨t0, ?_, ?_⟩
        · by_cases h : t0 < 0
          · exact Or.inl h
          · exact Or.inr (not_le.1 fun h' => hc ⟨not_lt.1 h, h'⟩)
        · rw [hfoot]
          refine lt_of_not_ge fun hge => hc ?_
          rw [← honly t hge]
          exact ⟨h0, h1⟩
    · intro hh
      refine if_neg fun hc => ?_
      obtain ⟨s, _, hs⟩ := hh t0 hc.1 hc.2
      rw [hfoot] at hs
      exact absurd (hleast s) (not_le.2 hs)

omit [IsStrictOrderedRing K] in
/-- What a triangle gives is given by a corner both edges of which are bridges, and if there is
nothing, no such corner gives anything; so if only one corner does, it is the least. -/
theorem C82_triangle_partial (x : Fin 3 → Vec K (k + 1)) (bridge : Fin 3 → Bool) :
    (∀ h, triPad x bridge = some h → ∃ v, bridge v = true ∧ bridge (v + 2) = true ∧
      triCornerPad (x v) (x (v + 1)) (x (v + 2)) = some h) ∧
    (triPad x bridge = none → ∀ v, bridge v = true → bridge (v + 2) = true →
      triCornerPad (x v) (x (v + 1)) (x (v + 2)) = none) := by
  let step := fun (out : Option K) (ttv : Fin 3) =>
    if bridge ttv && bridge (ttv + 2) then
      match triCornerPad (x ttv) (x (ttv + 1)) (x (ttv + 2)) with
      | some h => some h
      | none => out
    else out
  have key : ∀ (l : List (Fin 3)) (out : Option K),
      (∀ h, l.foldl step out = some h → out = some h ∨ ∃ v ∈ l, bridge v = true ∧
        bridge (v + 2) = true ∧ triCornerPad (x v) (x (v + 1)) (x (v + 2)) = some h) ∧
      (l.foldl step out = none → out = none ∧ ∀ v ∈ l, bridge v = true → bridge (v + 2) = true →
        triCornerPad (x v) (x (v + 1)) (x (v + 2)) = none) := by
    intro l
    induction l with
    | nil => exact fun out => ⟨fun h e => Or.inl e, fun e => ⟨e, fun v hv => absurd hv List.not_mem_nil⟩⟩
    | cons y ys ih =>
      intro out
      rw [List.foldl_cons]
      obtain ⟨i1, i2⟩ := ih (step out y)
      by_cases hb : (bridge y && bridge (y + 2)) = true
      · have hb' := Bool.and_eq_true_iff.1 hb
        cases hc : triCornerPad (x y) (x (y + 1)) (x (y + 2)) with
        | some p =>
          have hs : step out y = some p := by
            show (if _ then _ else _) = _
            rw [if_pos hb, hc]
          rw [hs] at i1 i2 ⊢
          refine ⟨fun h e => ?_, fun e => absurd (i2 e).1 (by simp)⟩
          rcases i1 h e with e | ⟨v, hv, r⟩
          · cases e
            exact Or.inr ⟨y, List.mem_cons_self, hb'.1, hb'.2, hc⟩
          · exact Or.inr ⟨v, List.mem_cons_of_mem _ hv, r⟩
        | none =>
          have hs : step out y = out := by
            show (if _ then _ else _) = _
            rw [if_pos hb, hc]
          rw [hs] at i1 i2 ⊢
          refine ⟨fun h e => ?_, fun e => ⟨(i2 e).1, fun v hv b1 b2 => ?_⟩⟩
          · rcases i1 h e with e | ⟨v, hv, r⟩
            · exact Or.inl e
            · exact Or.inr ⟨v, List.mem_cons_of_mem _ hv, r⟩
          · rcases List.mem_cons.1 hv with rfl | hv
            · exact hc
            · exact (i2 e).2 v hv b1 b2
      · have hs : step out y = out := by
          show (if _ then _ else _) = _
          rw [if_neg hb]
        rw [hs] at i1 i2 ⊢
        refine ⟨fun h e => ?_, fun e => ⟨(i2 e).1, fun v hv b1 b2 => ?_⟩⟩
        · rcases i1 h e with e | ⟨v, hv, r⟩
          · exact Or.inl e
          · exact Or.inr ⟨v, List.mem_cons_of_mem _ hv, r⟩
        · rcases List.mem_cons.1 hv with rfl | hv
          · exact absurd (Bool.and_eq_true_iff.2 ⟨b1, b2⟩) hb
          · exact (i2 e).2 v hv b1 b2
  obtain ⟨k1, k2⟩ := key [0, 1, 2] none
  have hmem : ∀ v : Fin 3, v ∈ [(0 : Fin 3), 1, 2] := by decide
  refine ⟨fun h e => ?_, fun e v => (k2 e).2 v (hmem v)⟩
  rcases k1 h e with e | ⟨v, _, r⟩
  · cases e
  · exact ⟨v, r⟩

/-- The coordinates in a plane of the foot of the perpendicular from a point. -/
theorem foot_plane (o a b c : Vec K 3) (hn : vdot (cross3 (vsub b a) (vsub c a))
    (cross3 (vsub b a) (vsub c a)) ≠ 0) :
    ∃ s t, planePoint a b c s t = vadd o (vscale (cross3 (vsub b a) (vsub c a))
      (vdot (cross3 (vsub b a) (vsub c a)) (vsub a o) /
        vdot (cross3 (vsub b a) (vsub c a)) (cross3 (vsub b a) (vsub c a)))) := by
  let n := cross3 (vsub b a) (vsub c a)
  let v := vsub o a
  have hn' : vdot n n ≠ 0 := hn
  refine ⟨vdot (cross3 v (vsub c a)) n / vdot n n, vdot (cross3 (vsub b a) v) n / vdot n n, ?_⟩
  have key : ∀ i, vdot n n * v i = vdot (cross3 v (vsub c a)) n * vsub b a i +
      vdot (cross3 (vsub b a) v) n * vsub c a i + vdot n v * n i := by
    have c0 : ∀ p q : Vec K 3, cross3 p q 0 = p 1 * q 2 - p 2 * q 1 := fun _ _ => rfl
    have c1 : ∀ p q : Vec K 3, cross3 p q 1 = p 2 * q 0 - p 0 * q 2 := fun _ _ => rfl
    have c2 : ∀ p q : Vec K 3, cross3 p q 2 = p 0 * q 1 - p 1 * q 0 := fun _ _ => rfl
    intro i
    simp only [vdot3, n, c0, c1, c2]
    generalize vsub b a = p
    generalize vsub c a = q
    match i with
    | 0 => rw [c0]; ring
    | 1 => rw [c1]; ring
    | 2 => rw [c2]; ring
  have hneg : vdot n (vsub a o) = -vdot n v := by
    rw [vdot3, vdot3]
    show n 0 * (a 0 - o 0) + n 1 * (a 1 - o 1) + n 2 * (a 2 - o 2) =
      -(n 0 * (o 0 - a 0) + n 1 * (o 1 - a 1) + n 2 * (o 2 - a 2))
    ring
  funext i
  show a i + vdot (cross3 v (vsub c a)) n / vdot n n * (b i - a i) +
    vdot (cross3 (vsub b a) v) n / vdot n n * (c i - a i) =
    o i + n i * (vdot n (vsub a o) / vdot n n)
  rw [hneg]
  have hk : vdot n n * (o i - a i) = vdot (cross3 v (vsub c a)) n * (b i - a i) +
      vdot (cross3 (vsub b a) v) n * (c i - a i) + vdot n v * n i := key i
  field_simp
  linear_combination -hk

theorem dist_plane (o a b c : Vec K 3) (s t : K) (hn : vdot (cross3 (vsub b a) (vsub c a))
    (cross3 (vsub b a) (vsub c a)) ≠ 0) :
    vdot (vscale (cross3 (vsub b a) (vsub c a)) (vdot (cross3 (vsub b a) (vsub c a)) (vsub a o) /
        vdot (cross3 (vsub b a) (vsub c a)) (cross3 (vsub b a) (vsub c a))))
      (vscale (cross3 (vsub b a) (vsub c a)) (vdot (cross3 (vsub b a) (vsub c a)) (vsub a o) /
        vdot (cross3 (vsub b a) (vsub c a)) (cross3 (vsub b a) (vsub c a)))) ≤
      distSq (planePoint a b c s t) o := by
  let w := vsub (planePoint a b c s t) o
  have hw : vdot (cross3 (vsub b a) (vsub c a)) (vsub a o) =
      vdot (cross3 (vsub b a) (vsub c a)) w := by
    rw [vdot3, vdot3]
    show ((b 1 - a 1) * (c 2 - a 2) - (b 2 - a 2) * (c 1 - a 1)) * (a 0 - o 0) +
      ((b 2 - a 2) * (c 0 - a 0) - (b 0 - a 0) * (c 2 - a 2)) * (a 1 - o 1) +
      ((b 0 - a 0) * (c 1 - a 1) - (b 1 - a 1) * (c 0 - a 0)) * (a 2 - o 2) =
      ((b 1 - a 1) * (c 2 - a 2) - (b 2 - a 2) * (c 1 - a 1)) *
        (a 0 + s * (b 0 - a 0) + t * (c 0 - a 0) - o 0) +
      ((b 2 - a 2) * (c 0 - a 0) - (b 0 - a 0) * (c 2 - a 2)) *
        (a 1 + s * (b 1 - a 1) + t * (c 1 - a 1) - o 1) +
      ((b 0 - a 0) * (c 1 - a 1) - (b 1 - a 1) * (c 0 - a 0)) *
        (a 2 + s * (b 2 - a 2) + t * (c 2 - a 2) - o 2)
    ring
  rw [hw, ← vdot_self_dist]
  show _ ≤ vdot w w
  generalize cross3 (vsub b a) (vsub c a) = n at *
  obtain ⟨_, e2⟩ := vdot_reject n w (vdot n w / vdot n n)
  have h0 := vdot_self_nonneg (vsub w (vscale n (vdot n w / vdot n n)))
  rw [e2] at h0
  have e3 : vdot (vscale n (vdot n w / vdot n n)) (vscale n (vdot n w / vdot n n)) =
      vdot n w / vdot n n * vdot n w := by
    have : vdot (vscale n (vdot n w / vdot n n)) (vscale n (vdot n w / vdot n n)) =
        (vdot n w / vdot n n) * ((vdot n w / vdot n n) * vdot n n) := by
      simp only [vdot3, vscale]; ring
    rw [this, div_mul_cancel₀ _ hn]
  have e4 : (vdot n w / vdot n n) ^ 2 * vdot n n = vdot n w / vdot n n * vdot n w := by
    rw [sq, mul_assoc, div_mul_cancel₀ _ hn]
  rw [e3]
  rw [e4] at h0
  linarith

/-- What a corner of a tetrahedron gives is the square of its distance to the plane of the opposite
side. If the corner is at the origin, it gives something exactly if the point of that plane that is
closest to it lies on that side. -/
theorem C82_plane_partial (o a b c : Vec K 3)
    (hn : vdot (cross3 (vsub b a) (vsub c a)) (cross3 (vsub b a) (vsub c a)) ≠ 0) :
    (∀ h, tetCornerPad o a b c = some h → (∃ s t, h = distSq (planePoint a b c s t) o) ∧
      ∀ s t, h ≤ distSq (planePoint a b c s t) o) ∧
    ((∀ i, o i = 0) → ∀ h, tetCornerPad o a b c = some h ↔
      ∃ s t, 0 ≤ s ∧ 0 ≤ t ∧ s + t ≤ 1 ∧ h = distSq (planePoint a b c s t) o ∧
        ∀ s' t', h ≤ distSq (planePoint a b c s' t') o) := by
  obtain ⟨s, t, hst⟩ := foot_plane o a b c hn
  have hleast := fun s t => dist_plane o a b c s t hn
  have hdef : tetCornerPad o a b c = if isBaryInside (baryFromGlobal (pinvTall invert2)
      (vscale (cross3 (vsub b a) (vsub c a)) (vdot (cross3 (vsub b a) (vsub c a)) (vsub a o) /
        vdot (cross3 (vsub b a) (vsub c a)) (cross3 (vsub b a) (vsub c a)))) ![a, b, c]) = true then
      some (vdot (vscale (cross3 (vsub b a) (vsub c a))
        (vdot (cross3 (vsub b a) (vsub c a)) (vsub a o) /
        vdot (cross3 (vsub b a) (vsub c a)) (cross3 (vsub b a) (vsub c a))))
        (vscale (cross3 (vsub b a) (vsub c a)) (vdot (cross3 (vsub b a) (vsub c a)) (vsub a o) /
        vdot (cross3 (vsub b a) (vsub c a)) (cross3 (vsub b a) (vsub c a))))) else none := by
    unfold tetCornerPad
    dsimp only
    rw [if_neg hn]
  have hgram : det2 (matMul (transp (simplexBasis ![a, b, c])) (simplexBasis ![a, b, c])) ≠ 0 := by
    have e : det2 (matMul (transp (simplexBasis ![a, b, c])) (simplexBasis ![a, b, c])) =
        vdot (cross3 (vsub b a) (vsub c a)) (cross3 (vsub b a) (vsub c a)) := by
      have c0 : ∀ p q : Vec K 3, cross3 p q 0 = p 1 * q 2 - p 2 * q 1 := fun _ _ => rfl
      have c1 : ∀ p q : Vec K 3, cross3 p q 1 = p 2 * q 0 - p 0 * q 2 := fun _ _ => rfl
      have c2 : ∀ p q : Vec K 3, cross3 p q 2 = p 0 * q 1 - p 1 * q 0 := fun _ _ => rfl
      have b0 : simplexBasis ![a, b, c] 0 = vsub b a := rfl
      have b1 : simplexBasis ![a, b, c] 1 = vsub c a := rfl
      have s3 : ∀ f : Fin (2 + 1) → K, ∑ x, f x = f 0 + f 1 + f 2 := fun f => Fin.sum_univ_three f
      unfold det2
      simp only [matMul_sum, transp, b0, b1, vdot3, c0, c1, c2]
      rw [s3, s3, s3, s3]
      ring
    rw [e]; exact hn
  have huniq := ((C77_barycentric_flat ![a, b, c] ![a, b]
    (vscale (cross3 (vsub b a) (vsub c a)) (vdot (cross3 (vsub b a) (vsub c a)) (vsub a o) /
        vdot (cross3 (vsub b a) (vsub c a)) (cross3 (vsub b a) (vsub c a))))).1 hgram).2.2
  rw [hdef]
  generalize vscale (cross3 (vsub b a) (vsub c a)) (vdot (cross3 (vsub b a) (vsub c a)) (vsub a o) /
        vdot (cross3 (vsub b a) (vsub c a)) (cross3 (vsub b a) (vsub c a))) = od at *
  have hfoot : distSq (planePoint a b c s t) o = vdot od od := by
    rw [hst, vdot_sum]
    refine Finset.sum_congr rfl fun i _ => ?_
    show (o i + od i - o i) ^ 2 = od i * od i
    ring
  refine ⟨fun h hh => ?_, fun ho h => ?_⟩
  · split at hh
    · cases hh
      exact ⟨⟨s, t, hfoot.symm⟩, hleast⟩
    · cases hh
  · have hod : ∀ s t, planePoint a b c s t = od →
        Weights ![1 - s - t, s, t] ![a, b, c] od := by
      intro s t e
      constructor
      · rw [Fin.sum_univ_three]
        show 1 - s - t + s + t = 1
        ring
      · rw [← e]
        funext i
        unfold weighted
        rw [Fin.sum_univ_three]
        show (1 - s - t) * a i + s * b i + t * c i = a i + s * (b i - a i) + t * (c i - a i)
        ring
    have hoz : vadd o od = od := by
      funext i
      show o i + od i = od i
      rw [ho i, zero_add]
    rw [hoz] at hst
    constructor
    · intro hh
      split at hh
      · rename_i hin
        cases hh
        rw [← huniq _ (hod s t hst), inside_iff] at hin
        have h0 : 0 ≤ 1 - s - t := (hin 0).1
        have h1 : 0 ≤ s := (hin 1).1
        have h2 : 0 ≤ t := (hin 2).1
        exact ⟨s, t, h1, h2, by linarith, hfoot.symm, hleast⟩
      · cases hh
    · rintro ⟨s', t', h0, h1, h2, e, hm⟩
      have hpt : planePoint a b c s' t' = od := by
        have hle : distSq (planePoint a b c s' t') o ≤ vdot od od := by
          rw [← e, ← hfoot]; exact hm s t
        have hmid := hleast ((s + s') / 2) ((t + t') / 2)
        have hpar : distSq (planePoint a b c ((s + s') / 2) ((t + t') / 2)) o =
            distSq (planePoint a b c s t) o / 2 + distSq (planePoint a b c s' t') o / 2 -
              distSq (planePoint a b c s' t') (planePoint a b c s t) / 4 := by
          unfold distSq planePoint
          simp only [Fin.sum_univ_three]
          ring
        rw [hpar, hfoot] at hmid
        have hz : distSq (planePoint a b c s' t') (planePoint a b c s t) ≤ 0 := by linarith
        by_contra hne
        rw [hst] at hz
        have := vdot_self_pos od (planePoint a b c s' t') (Ne.symm hne)
        rw [vdot_self_dist] at this
        exact absurd hz (not_le.2 this)
      have hin : isBaryInside (baryFromGlobal (pinvTall invert2) od ![a, b, c]) = true := by
        rw [← huniq _ (hod s' t' hpt), inside_iff]
        intro v
        match v with
        | 0 => exact ⟨show 0 ≤ 1 - s' - t' by linarith, show 1 - s' - t' ≤ 1 by linarith⟩
        | 1 => exact ⟨h0, show s' ≤ 1 by linarith⟩
        | 2 => exact ⟨h1, show t' ≤ 1 by linarith⟩
      rw [if_pos hin, e]
      refine congrArg some (le_antisymm (hleast s' t') ?_)
      rw [← e, ← hfoot]
      exact hm s t

omit [Field K] [IsStrictOrderedRing K] in
/-- Of what the corners of a tetrahedron give, the least is taken. -/
theorem C82_least (pads : List (Option K)) :
    (∀ h, leastPad pads = some h ↔ some h ∈ pads ∧ ∀ p, some p ∈ pads → h ≤ p) ∧
    (leastPad pads = none ↔ ∀ p, some p ∉ pads) := by
  let step := fun (h p : Option K) => match p with
    | none => h
    | some p => match h with
      | none => some p
      | some h => some (min h p)
  have key : ∀ (l : List (Option K)) (init : Option K),
      (∀ h, l.foldl step init = some h →
        (init = some h ∨ some h ∈ l) ∧ ∀ p, (init = some p ∨ some p ∈ l) → h ≤ p) ∧
      (l.foldl step init = none → init = none ∧ ∀ p, some p ∉ l) := by
    intro l
    induction l with
    | nil =>
      refine fun init => ⟨fun h e => ⟨Or.inl e, fun p hp => ?_⟩, fun e => ⟨e, fun p => List.not_mem_nil⟩⟩
      rcases hp with hp | hp
      · rw [List.foldl_nil, hp] at e; cases e; exact le_refl _
      · exact absurd hp List.not_mem_nil
    | cons y ys ih =>
      intro init
      rw [List.foldl_cons]
      cases y with
      | none =>
        obtain ⟨i1, i2⟩ := ih init
        refine ⟨fun h e => ⟨?_, fun p hp => ?_⟩, fun e => ⟨(i2 e).1, fun p hp => ?_⟩⟩
        · exact (i1 h e).1.imp id (List.mem_cons_of_mem _)
        · refine (i1 h e).2 p (hp.imp id fun hp => ?_)
          rcases List.mem_cons.1 hp with hp | hp
          · cases hp
          · exact hp
        · rcases List.mem_cons.1 hp with hp | hp
          · cases hp
          · exact (i2 e).2 p hp
      | some y =>
        cases init with
        | none =>
          obtain ⟨i1, i2⟩ := ih (some y)
          refine ⟨fun h e => ⟨?_, fun p hp => ?_⟩, fun e => by cases (i2 e).1⟩
          · rcases (i1 h e).1 with e | e
            · exact Or.inr (List.mem_cons.2 (Or.inl e.symm))
            · exact Or.inr (List.mem_cons_of_mem _ e)
          · rcases hp with hp | hp
            · cases hp
            · rcases List.mem_cons.1 hp with hp | hp
              · exact (i1 h e).2 p (Or.inl hp.symm)
              · exact (i1 h e).2 p (Or.inr hp)
        | some x =>
          obtain ⟨i1, i2⟩ := ih (some (min x y))
          refine ⟨fun h e => ⟨?_, fun p hp => ?_⟩, fun e => by cases (i2 e).1⟩
          · rcases (i1 h e).1 with e | e
            · rcases min_choice x y with m | m
              · exact Or.inl (by rw [← e, m])
              · exact Or.inr (List.mem_cons.2 (Or.inl (by rw [← e, m])))
            · exact Or.inr (List.mem_cons_of_mem _ e)
          · have hm := (i1 h e).2 _ (Or.inl rfl)
            rcases hp with hp | hp
            · cases hp; exact hm.trans (min_le_left _ _)
            · rcases List.mem_cons.1 hp with hp | hp
              · cases hp; exact hm.trans (min_le_right _ _)
              · exact (i1 h e).2 p (Or.inr hp)
  obtain ⟨k1, k2⟩ := key pads none
  have c1 : ∀ h, leastPad pads = some h → some h ∈ pads ∧ ∀ p, some p ∈ pads → h ≤ p := by
    intro h e
    obtain ⟨a, b⟩ := k1 h e
    refine ⟨?_, fun p hp => b p (Or.inr hp)⟩
    rcases a with a | a
    · cases a
    · exact a
  have c2 : leastPad pads = none → ∀ p, some p ∉ pads := fun e => (k2 e).2
  refine ⟨fun h => ⟨c1 h, fun ⟨a, b⟩ => ?_⟩, ⟨c2, fun hn => ?_⟩⟩
  · cases e : leastPad pads with
    | none => exact absurd a (c2 e h)
    | some h' =>
      obtain ⟨a', b'⟩ := c1 h' e
      exact congrArg some (le_antisymm (b' h a) (b h' a'))
  · cases e : leastPad pads with
    | none => rfl
    | some h => exact absurd (c1 h e).1 (hn h)
end

/-- A triangle all of whose edges are bridges. -/
def bridgeTri : Fin 3 → Vec ℚ 2 := ![![0, 0], ![4, 0], ![1, 3]]

/-- If several corners of a triangle give a distance, the last one wins, not the least. -/
theorem C82_triangle_refuted :
    triPad bridgeTri (fun _ => true) = some 9 ∧
    triCornerPad (bridgeTri 0) (bridgeTri 1) (bridgeTri 2) = some 8 := by
  constructor <;> decide +kernel

/-- The distance of a corner of a tetrahedron to the opposite side depends on where the tetrahedron
is: moved along, the one that is at distance one has none. -/
theorem C82_plane_refuted :
    tetCornerPad (![0, 0, 0] : Vec ℚ 3) ![1, -1, -1] ![1, 1, -1] ![1, 0, 2] = some 1 ∧
    tetCornerPad (![0, 5, 0] : Vec ℚ 3) ![1, 4, -1] ![1, 6, -1] ![1, 5, 2] = none := by
  constructor <;> decide +kernel

/-! ### The hypotheses are met -/

example : triCornerPad (![0, 0] : Vec ℚ 2) ![1, -1] ![1, 1] = some 1 := by decide +kernel
example : triCornerPad (![0, 0] : Vec ℚ 2) ![1, 1] ![1, 2] = none := by decide +kernel
example : triPad bridgeTri ![true, false, true] = some 8 := by decide +kernel
example : triPad bridgeTri ![true, false, false] = none := by decide +kernel
example : isBridge 2 1 1 = true ∧ isBridge 1 1 0 = false ∧ isBridge 1 0 1 = false := by decide
example : vdot (cross3 (vsub ![1, 1, -1] ![1, -1, -1]) (vsub ![1, 0, 2] ![1, -1, -1]) : Vec ℚ 3)
    (cross3 (vsub ![1, 1, -1] ![1, -1, -1]) (vsub ![1, 0, 2] ![1, -1, -1])) ≠ 0 := by decide +kernel
example : leastPad [none, some (3 : ℚ), some 2, none] = some 2 := by decide +kernel

end OmegaH
