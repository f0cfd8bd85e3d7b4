import Mathlib.Algebra.Order.Archimedean.Basic
import Verif.Lemmas.Diffuse
/-!
# Diffusion converges to the mean
-/
namespace OmegaH
open Spec

variable {K : Type} [Field K] [LinearOrder K] {m : FluxMesh K}

omit [LinearOrder K] in
omit [Field K] in
theorem walk_self (a k : Nat) : m.Walk a k a := by
  cases k with
  | zero => rfl
  | succ k => exact Or.inl rfl

omit [LinearOrder K] in
omit [Field K] in
theorem walk_succ {a k e : Nat} (h : m.Walk a k e) : m.Walk a (k + 1) e := by
  induction k generalizing e with
  | zero => exact Or.inl h
  | succ k ih =>
    rcases h with h | ⟨o, ho, h⟩
    · exact Or.inl h
    · exact Or.inr ⟨o, ho, ih h⟩

omit [LinearOrder K] in
omit [Field K] in
theorem walk_mono {a k t e : Nat} (h : m.Walk a k e) (hkt : k ≤ t) : m.Walk a t e := by
  induction hkt with
  | refl => exact h
  | step _ ih => exact walk_succ ih

/-- A number of steps that will do for all. -/
theorem uniform_bound (P : Nat → Nat → Prop) (hmono : ∀ k t e, P k e → k ≤ t → P t e) (n : Nat) (Q : Nat → Prop)
    (h : ∀ e, e < n → Q e → ∃ k, P k e) : ∃ T, ∀ e, e < n → Q e → P T e := by
  induction n with
  | zero => exact ⟨0, by omega⟩
  | succ n ih =>
    obtain ⟨T, hT⟩ := ih (fun e he => h e (by omega))
    by_cases hq : Q n
    · obtain ⟨k, hk⟩ := h n (by omega) hq
      refine ⟨max T k, ?_⟩
      intro e he hqe
      rcases Nat.lt_or_ge e n with h1 | h1
      · exact hmono T _ e (hT e h1 hqe) (le_max_left _ _)
      · obtain rfl : e = n := by omega
        exact hmono k _ e hk (le_max_right _ _)
    · refine ⟨T, ?_⟩
      intro e he hqe
      rcases Nat.lt_or_ge e n with h1 | h1
      · exact hT e h1 hqe
      · obtain rfl : e = n := by omega
        exact absurd hqe hq

variable [IsStrictOrderedRing K]

/-- A least pull. -/
theorem pull_bound {W : Nat → K} (hW : ∀ e, e < m.nelems → 0 < W e) :
    ∃ δ : K, 0 < δ ∧ δ ≤ 1 / ((m.dim + 1 : Nat) : K) ∧ ∀ e o, e < m.nelems → o < m.nelems → δ ≤ pull m W e o := by
  have key : ∀ l : List (Nat × Nat), (∀ p ∈ l, p.1 < m.nelems ∧ p.2 < m.nelems) →
      ∃ δ : K, 0 < δ ∧ δ ≤ 1 / ((m.dim + 1 : Nat) : K) ∧ ∀ p ∈ l, δ ≤ pull m W p.1 p.2 := by
    intro l
    induction l with
    | nil => intro _; exact ⟨1 / ((m.dim + 1 : Nat) : K), div_pos one_pos sidesPer_pos, le_refl _, by simp⟩
    | cons p l ih =>
      intro h
      obtain ⟨δ, h1, h2, h3⟩ := ih (fun q hq => h q (List.mem_cons_of_mem _ hq))
      have hp := h p (List.mem_cons_self ..)
      refine ⟨min δ (pull m W p.1 p.2), lt_min h1 (pull_nonneg (hW _ hp.1) (hW _ hp.2)), le_trans (min_le_left _ _) h2, ?_⟩
      intro q hq
      rcases List.mem_cons.1 hq with rfl | hq
      · exact min_le_right _ _
      · exact le_trans (min_le_left _ _) (h3 q hq)
  obtain ⟨δ, h1, h2, h3⟩ := key (places m.nelems m.nelems) (fun p hp => mem_places.1 hp)
  exact ⟨δ, h1, h2, fun e o he ho => h3 (e, o) (mem_places.2 ⟨he, ho⟩)⟩

section
variable (hm : m.Sound) {W : Nat → K} (hW : ∀ e, e < m.nelems → 0 < W e) {C : Nat → Bool} (hC : m.Closed C)
include hm hW hC

theorem iterate_le {X : Nat → K} {hi : K} (hX : ∀ e, e < m.nelems → C e = true → X e ≤ hi) (t : Nat) :
    ∀ e, e < m.nelems → C e = true → (fluxStep m W)^[t] X e ≤ hi := by
  induction t with
  | zero => exact hX
  | succ t ih =>
    intro e he hc
    rw [Function.iterate_succ_apply']
    exact (fluxStep_gap hm hW hC ih he hc).1

omit hm hW hC [IsStrictOrderedRing K] in
theorem iterate_neg [IsStrictOrderedRing K] (X : Nat → K) (t : Nat) : (fluxStep m W)^[t] (fun e => - X e) = fun e => - (fluxStep m W)^[t] X e := by
  induction t with
  | zero => rfl
  | succ t ih =>
    rw [Function.iterate_succ_apply', ih]
    funext e
    rw [fluxStep_neg, Function.iterate_succ_apply']

theorem iterate_ge {X : Nat → K} {lo : K} (hX : ∀ e, e < m.nelems → C e = true → lo ≤ X e) (t : Nat) :
    ∀ e, e < m.nelems → C e = true → lo ≤ (fluxStep m W)^[t] X e := by
  intro e he hc
  have := iterate_le hm hW hC (X := fun e => - X e) (hi := - lo) (fun e he hc => neg_le_neg (hX e he hc)) t e he hc
  rw [iterate_neg] at this
  exact neg_le_neg_iff.1 this

/-- The value at the end of a walk is felt at its start. -/
theorem gap_walk {a : Nat} (hb : ∃ i, i < m.dim + 1 ∧ m.interior (m.sides a i) = false) {δ : K} (hδ : 0 < δ)
    (hδd : δ ≤ 1 / ((m.dim + 1 : Nat) : K)) (hδp : ∀ e o, e < m.nelems → o < m.nelems → δ ≤ pull m W e o)
    {X : Nat → K} {hi : K} (hX : ∀ e, e < m.nelems → C e = true → X e ≤ hi) (t : Nat) :
    ∀ e, e < m.nelems → C e = true → m.Walk a t e → δ ^ t * (hi - X a) ≤ hi - (fluxStep m W)^[t] X e := by
  induction t with
  | zero =>
    intro e _ _ hw
    obtain rfl : e = a := hw
    simp
  | succ t ih =>
    intro e he hc hw
    have hY := iterate_le hm hW hC hX t
    obtain ⟨_, g2, g3⟩ := fluxStep_gap hm hW hC hY he hc
    rw [Function.iterate_succ_apply', pow_succ', mul_assoc]
    rcases hw with rfl | ⟨o, ho, hw⟩
    · have h1 := ih e he hc (walk_self e t)
      have h2 := mul_le_mul_of_nonneg_left h1 hδ.le
      have h3 : 0 ≤ hi - (fluxStep m W)^[t] X e := by have := hY e he hc; linarith
      have h4 := mul_le_mul_of_nonneg_right hδd h3
      exact le_trans h2 (le_trans h4 (g3 hb))
    · have holt := neighbours_lt hm he ho
      have hco := (hC e he o ho).trans hc
      have h1 := ih o holt hco hw
      have h2 := mul_le_mul_of_nonneg_left h1 hδ.le
      have h3 : 0 ≤ hi - (fluxStep m W)^[t] X o := by have := hY o holt hco; linarith
      have h4 := mul_le_mul_of_nonneg_right (hδp e o he holt) h3
      exact le_trans h2 (le_trans h4 (g2 o ho))

omit hC in
/-- In a body the spread of the values shrinks by a factor every so many rounds. -/
theorem contraction (hB : m.Body C) : ∃ (T : Nat) (η : K), 0 < η ∧ η ≤ 1 ∧ ∀ (X : Nat → K) (lo hi : K),
    (∀ e, e < m.nelems → C e = true → lo ≤ X e ∧ X e ≤ hi) →
    ∃ lo' hi', hi' - lo' = (1 - η) * (hi - lo) ∧ ∀ e, e < m.nelems → C e = true →
      lo' ≤ (fluxStep m W)^[T] X e ∧ (fluxStep m W)^[T] X e ≤ hi' := by
  obtain ⟨hC, a, ha, hca, hb, hwalk⟩ := hB
  obtain ⟨δ, d1, d2, d3⟩ := pull_bound (m := m) hW
  obtain ⟨T, hT⟩ := uniform_bound (fun k e => m.Walk a k e) (fun k t e h hkt => walk_mono h hkt) m.nelems (fun e => C e = true) hwalk
  have hδ1 : δ ≤ 1 := by
    refine le_trans d2 ?_
    rw [div_le_one sidesPer_pos]
    exact_mod_cast Nat.succ_le_succ (Nat.zero_le _)
  refine ⟨T, δ ^ T, pow_pos d1 T, pow_le_one₀ d1.le hδ1, ?_⟩
  intro X lo hi hX
  refine ⟨lo + δ ^ T * (X a - lo), hi - δ ^ T * (hi - X a), by ring, ?_⟩
  intro e he hc
  have h1 := gap_walk hm hW hC hb d1 d2 d3 (fun e he hc => (hX e he hc).2) T e he hc (hT e he hc)
  have h2 := gap_walk hm hW hC hb d1 d2 d3 (X := fun e => - X e) (hi := - lo) (fun e he hc => neg_le_neg (hX e he hc).1) T e he hc (hT e he hc)
  rw [iterate_neg] at h2
  refine ⟨?_, by linarith⟩
  have : δ ^ T * (-lo - -X a) = δ ^ T * (X a - lo) := by ring
  linarith

end

omit [IsStrictOrderedRing K] in
/-- Bounds for all the elements of a part. -/
theorem exists_bounds (m : FluxMesh K) (X : Nat → K) : ∃ lo hi : K, lo ≤ hi ∧ ∀ e, e < m.nelems → lo ≤ X e ∧ X e ≤ hi := by
  induction m.nelems with
  | zero => exact ⟨0, 0, le_refl _, by omega⟩
  | succ n ih =>
    obtain ⟨lo, hi, h1, h2⟩ := ih
    refine ⟨min lo (X n), max hi (X n), le_trans (min_le_left _ _) (le_trans h1 (le_max_left _ _)), ?_⟩
    intro e he
    rcases Nat.lt_or_ge e n with h | h
    · exact ⟨le_trans (min_le_left _ _) (h2 e h).1, le_trans (h2 e h).2 (le_max_left _ _)⟩
    · obtain rfl : e = n := by omega
      exact ⟨min_le_right _ _, le_max_right _ _⟩

theorem sumOver_le {α : Type} {P : α → Bool} {f g : α → K} {l : List α} (h : ∀ a ∈ l, P a = true → f a ≤ g a) :
    sumOver P f l ≤ sumOver P g l := by
  induction l with
  | nil => exact le_refl _
  | cons a l ih =>
    rw [sumOver_cons, sumOver_cons]
    have h1 := ih (fun b hb => h b (List.mem_cons_of_mem _ hb))
    cases hp : P a
    · simpa using h1
    · simp only [if_true]
      exact add_le_add (h a (List.mem_cons_self ..) hp) h1

theorem sumOver_pos {α : Type} {P : α → Bool} {f : α → K} {l : List α} (h : ∀ a ∈ l, P a = true → 0 < f a) {a : α} (ha : a ∈ l) (hp : P a = true) :
    0 < sumOver P f l := by
  unfold sumOver
  apply List.sum_pos
  · intro x hx
    obtain ⟨b, hb, rfl⟩ := List.mem_map.1 hx
    exact h b (List.mem_filter.1 hb).1 (List.mem_filter.1 hb).2
  · intro hc
    have : f a ∈ ((l.filter P).map f) := List.mem_map.2 ⟨a, List.mem_filter.2 ⟨ha, hp⟩, rfl⟩
    rw [hc] at this
    simp at this

/-- If the total is within what is allowed, in time every value is. -/
theorem eventually_small [Archimedean K] (hm : m.Sound) {W : Nat → K} (hW : ∀ e, e < m.nelems → 0 < W e) {C : Nat → Bool} (hB : m.Body C) (X : Nat → K) (tol : K)
    (ht : |m.total C (fun e => X e * W e)| < tol * m.total C W) :
    ∃ T, ∀ t, T ≤ t → ∀ e, e < m.nelems → C e = true → |(fluxStep m W)^[t] X e| ≤ tol := by
  have hC := hB.closed
  obtain ⟨a, ha, hca, _⟩ := hB.connected
  obtain ⟨T, η, η1, η2, hcon⟩ := contraction hm hW hB
  obtain ⟨lo, hi, hlh, hX⟩ := exists_bounds m X
  have hM : 0 < m.total C W := sumOver_pos (fun e he _ => hW e (List.mem_range.1 he)) (List.mem_range.2 ha) hca
  have hiter : ∀ j : Nat, ∃ lo' hi' : K, hi' - lo' = (1 - η) ^ j * (hi - lo) ∧ ∀ e, e < m.nelems → C e = true →
      lo' ≤ (fluxStep m W)^[j * T] X e ∧ (fluxStep m W)^[j * T] X e ≤ hi' := by
    intro j
    induction j with
    | zero => exact ⟨lo, hi, by simp, fun e he _ => by simpa using hX e he⟩
    | succ j ih =>
      obtain ⟨l1, h1, g1, g2⟩ := ih
      obtain ⟨l2, h2, g3, g4⟩ := hcon _ l1 h1 g2
      refine ⟨l2, h2, by rw [g3, g1, pow_succ]; ring, ?_⟩
      intro e he hc
      have := g4 e he hc
      rw [← Function.iterate_add_apply] at this
      rw [Nat.add_mul, Nat.one_mul, Nat.add_comm]
      exact this
  have hgap : 0 < tol * m.total C W - |m.total C (fun e => X e * W e)| := by linarith
  obtain ⟨j, hj⟩ := exists_pow_lt_of_lt_one (show 0 < (tol * m.total C W - |m.total C (fun e => X e * W e)|) / (m.total C W * (hi - lo + 1)) from
    div_pos hgap (mul_pos hM (by linarith))) (show 1 - η < 1 by linarith)
  obtain ⟨l, h, g1, g2⟩ := hiter j
  have htot : m.total C (fun e => (fluxStep m W)^[j * T] X e * W e) = m.total C (fun e => X e * W e) := iterate_total hm hW hC X (j * T)
  have hup : m.total C (fun e => X e * W e) ≤ h * m.total C W := by
    rw [← htot]
    show sumOver _ _ _ ≤ h * sumOver _ _ _
    rw [← sumOver_mul]
    exact sumOver_le (fun e he hc => mul_le_mul_of_nonneg_right (g2 e (List.mem_range.1 he) hc).2 (hW e (List.mem_range.1 he)).le)
  have hdn : l * m.total C W ≤ m.total C (fun e => X e * W e) := by
    rw [← htot]
    show l * sumOver _ _ _ ≤ sumOver _ _ _
    rw [← sumOver_mul]
    exact sumOver_le (fun e he hc => mul_le_mul_of_nonneg_right (g2 e (List.mem_range.1 he) hc).1 (hW e (List.mem_range.1 he)).le)
  have hspread : (h - l) * m.total C W ≤ tol * m.total C W - |m.total C (fun e => X e * W e)| := by
    rw [lt_div_iff₀ (mul_pos hM (by linarith))] at hj
    rw [g1]
    have h0 : 0 ≤ (1 - η) ^ j := pow_nonneg (by linarith) j
    nlinarith [mul_nonneg h0 hM.le]
  have habs := abs_le.1 (le_refl |m.total C (fun e => X e * W e)|)
  have hhi : h ≤ tol := by
    by_contra hc
    have := mul_lt_mul_of_pos_right (not_le.1 hc) hM
    rw [sub_mul] at hspread
    linarith [le_abs_self (m.total C (fun e => X e * W e))]
  have hlo : - tol ≤ l := by
    by_contra hc
    have := mul_lt_mul_of_pos_right (not_le.1 hc) hM
    rw [sub_mul] at hspread
    linarith [neg_abs_le (m.total C (fun e => X e * W e))]
  refine ⟨j * T, ?_⟩
  intro t htt e he hc
  obtain ⟨d, rfl⟩ := Nat.exists_eq_add_of_le htt
  rw [Nat.add_comm, Function.iterate_add_apply, abs_le]
  exact ⟨iterate_ge hm hW hC (fun e he hc => le_trans hlo (g2 e he hc).1) d e he hc,
    iterate_le hm hW hC (fun e he hc => le_trans (g2 e he hc).2 hhi) d e he hc⟩

/-- If every element is in such a body, in time all values are small. -/
theorem exists_small [Archimedean K] (hm : m.Sound) {W : Nat → K} (hW : ∀ e, e < m.nelems → 0 < W e) (X : Nat → K) (tol : K)
    (hB : ∀ e, e < m.nelems → ∃ C, m.Body C ∧ C e = true ∧ |m.total C (fun e => X e * W e)| < tol * m.total C W) :
    ∃ k, Small m tol ((fluxStep m W)^[k] X) := by
  obtain ⟨T, hT⟩ := uniform_bound (fun k e => ∀ t, k ≤ t → |(fluxStep m W)^[t] X e| ≤ tol)
    (fun k t e h hkt u hu => h u (le_trans hkt hu)) m.nelems (fun _ => True) (by
      intro e he _
      obtain ⟨C, h1, h2, h3⟩ := hB e he
      obtain ⟨T, hT⟩ := eventually_small hm hW h1 X tol h3
      exact ⟨T, fun t ht => hT t ht e he h2⟩)
  exact ⟨T, fun e he => hT e he trivial T (le_refl _)⟩

/-- If the total of a part is more than is allowed, no number of rounds will do. -/
theorem never_small (hm : m.Sound) {W : Nat → K} (hW : ∀ e, e < m.nelems → 0 < W e) {C : Nat → Bool} (hC : m.Closed C) (X : Nat → K) (tol : K)
    (ht : tol * m.total C W < |m.total C (fun e => X e * W e)|) (k : Nat) : ¬ Small m tol ((fluxStep m W)^[k] X) := by
  intro hs
  rw [← iterate_total hm hW hC X k] at ht
  have h1 : m.total C (fun e => (fluxStep m W)^[k] X e * W e) ≤ tol * m.total C W := by
    show sumOver _ _ _ ≤ tol * sumOver _ _ _
    rw [← sumOver_mul]
    exact sumOver_le (fun e he _ => mul_le_mul_of_nonneg_right (abs_le.1 (hs e (List.mem_range.1 he))).2 (hW e (List.mem_range.1 he)).le)
  have h2 : -(tol * m.total C W) ≤ m.total C (fun e => (fluxStep m W)^[k] X e * W e) := by
    have h3 : -(tol * m.total C W) = (-tol) * m.total C W := by ring
    rw [h3]
    show (-tol) * sumOver _ _ _ ≤ sumOver _ _ _
    rw [← sumOver_mul]
    exact sumOver_le (fun e he _ => mul_le_mul_of_nonneg_right (abs_le.1 (hs e (List.mem_range.1 he))).1 (hW e (List.mem_range.1 he)).le)
  exact absurd (abs_le.2 ⟨h2, h1⟩) (not_le.2 ht)

end OmegaH
