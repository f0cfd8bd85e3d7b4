import Verif.Spec.Cut
import Verif.Props.C76

namespace OmegaH
open OmegaH.Spec

/-! ### The loop over cuts along one axis -/

section
variable {K : Type} [Field K] [LinearOrder K]

omit [Field K] in
theorem markHalf_eq (pts : List (K × K)) (c : K) :
    markHalf pts c = pts.map fun p => decide (c < p.1) := rfl

theorem halfWeight_eq (pts : List (K × K)) (c : K) :
    halfWeight pts (markHalf pts c) = massBeyond pts c := by
  unfold halfWeight massBeyond
  rw [markHalf_eq]
  induction pts with
  | nil => rfl
  | cons p ps ih =>
    rw [List.map_cons, List.zipWith_cons_cons, List.sum_cons, ih, List.filter_cons]
    by_cases h : c < p.1
    · simp [h]
    · simp [h]

theorem axisLoop_found (pts : List (K × K)) (total tol : K) (n : Nat) (d st : K) (ms : List Bool)
    (h : (axisLoop pts total tol n d st ms).1 = true) :
    ∃ c, (axisLoop pts total tol n d st ms).2 = markHalf pts c ∧
      |massBeyond pts c - total / 2| ≤ tol := by
  induction n generalizing d st ms with
  | zero => exact absurd h (by simp [axisLoop])
  | succ n ih =>
    rw [axisLoop] at h ⊢
    rw [halfWeight_eq] at h ⊢
    split
    · exact ⟨d, rfl, ‹_›⟩
    · rw [if_neg ‹_›] at h
      split
      · rw [if_pos ‹_›] at h; exact ih _ _ _ h
      · rw [if_neg ‹_›] at h; exact ih _ _ _ h

theorem axisLoop_marks (pts : List (K × K)) (total tol : K) (n : Nat) (d st : K) (ms : List Bool)
    (h : ∃ c, ms = markHalf pts c) :
    ∃ c, (axisLoop pts total tol n d st ms).2 = markHalf pts c := by
  induction n generalizing d st ms with
  | zero => exact h
  | succ n ih =>
    rw [axisLoop]
    split
    · exact ⟨d, rfl⟩
    · split
      · exact ih _ _ _ ⟨d, rfl⟩
      · exact ih _ _ _ ⟨d, rfl⟩

theorem markAxis_marks (pts : List (K × K)) (total tol : K) :
    ∃ c, (markAxisBisection pts total tol).2 = markHalf pts c := by
  show ∃ c, (axisLoop pts total tol (51 + 1) 0 (axisRange pts / 2) []).2 = markHalf pts c
  rw [axisLoop]
  split
  · exact ⟨0, rfl⟩
  · split
    · exact axisLoop_marks _ _ _ _ _ _ _ ⟨0, rfl⟩
    · exact axisLoop_marks _ _ _ _ _ _ _ ⟨0, rfl⟩
end

section
variable {K : Type} [Field K] [LinearOrder K] [IsStrictOrderedRing K]

omit [IsStrictOrderedRing K] in
theorem massBeyond_cons (p : K × K) (ps : List (K × K)) (c : K) :
    massBeyond (p :: ps) c = (if c < p.1 then p.2 else 0) + massBeyond ps c := by
  unfold massBeyond
  rw [List.filter_cons]
  by_cases h : c < p.1
  · simp [h]
  · simp [h]

theorem massBeyond_anti (pts : List (K × K)) (hm : ∀ p ∈ pts, 0 ≤ p.2) {c d : K} (h : c ≤ d) :
    massBeyond pts d ≤ massBeyond pts c := by
  induction pts with
  | nil => exact le_refl _
  | cons p ps ih =>
    rw [massBeyond_cons, massBeyond_cons]
    refine add_le_add ?_ (ih fun q hq => hm q (List.mem_cons_of_mem _ hq))
    have h0 := hm p List.mem_cons_self
    by_cases h1 : d < p.1
    · rw [if_pos h1, if_pos (lt_of_le_of_lt h h1)]
    · rw [if_neg h1]; split
      · exact h0
      · exact le_refl _

omit [IsStrictOrderedRing K] in
theorem massBeyond_gap (pts : List (K × K)) {lo hi c : K} (h1 : lo ≤ c) (h2 : c < hi)
    (gap : ∀ p ∈ pts, ¬ (lo < p.1 ∧ p.1 < hi)) : massBeyond pts c = massBeyond pts lo := by
  induction pts with
  | nil => rfl
  | cons p ps ih =>
    rw [massBeyond_cons, massBeyond_cons, ih fun q hq => gap q (List.mem_cons_of_mem _ hq)]
    have g := gap p List.mem_cons_self
    have : (c < p.1) ↔ (lo < p.1) :=
      ⟨fun h => lt_of_le_of_lt h1 h, fun h => lt_of_lt_of_le h2 (not_lt.1 fun h' => g ⟨h, h'⟩)⟩
    simp only [this]

theorem axisLoop_finds (pts : List (K × K)) (hm : ∀ p ∈ pts, 0 ≤ p.2) (total tol lo hi : K)
    (good : ∀ c, lo ≤ c → c < hi → |massBeyond pts c - total / 2| ≤ tol) (lt : lo < hi)
    (n : Nat) (d st : K) (ms : List Bool) (h1 : d - 2 * st ≤ lo) (h2 : hi ≤ d + 2 * st)
    (h3 : 4 * st < (hi - lo) * 2 ^ n) : (axisLoop pts total tol n d st ms).1 = true := by
  induction n generalizing d st ms with
  | zero => rw [pow_zero, mul_one] at h3; linarith
  | succ n ih =>
    rw [axisLoop]
    rw [halfWeight_eq]
    split
    · rfl
    · rename_i hd
      have out : ¬ (lo ≤ d ∧ d < hi) := fun h => hd (good d h.1 h.2)
      have glo := abs_le.1 (good lo (le_refl _) lt)
      have h3' : 4 * (st / 2) < (hi - lo) * 2 ^ n := by rw [pow_succ] at h3; linarith
      split
      · rename_i hw
        have hb : tol < massBeyond pts d - total / 2 := by
          by_contra hc
          exact hd (abs_le.2 ⟨by have := le_trans (abs_nonneg _) (good lo (le_refl _) lt); linarith,
            not_lt.1 hc⟩)
        have hlt : d < lo := by
          by_contra hc
          have := massBeyond_anti pts hm (not_lt.1 hc)
          linarith [glo.2]
        exact ih _ _ _ (by linarith) (by linarith) h3'
      · rename_i hw
        have hb : massBeyond pts d - total / 2 < -tol := by
          by_contra hc
          exact hd (abs_le.2 ⟨not_lt.1 hc, by
            have := le_trans (abs_nonneg _) (good lo (le_refl _) lt)
            have := not_lt.1 hw
            linarith⟩)
        have hge : hi ≤ d := by
          by_contra hc
          have hdl : d < lo := by
            by_contra hc'
            exact out ⟨not_lt.1 hc', not_le.1 hc⟩
          have := massBeyond_anti pts hm hdl.le
          linarith [glo.1]
        exact ih _ _ _ (by linarith) (by linarith) h3'

/-- The range in which cuts are looked for is the largest distance of any point. -/
theorem C78_range (pts : List (K × K)) :
    (∀ p ∈ pts, |p.1| ≤ axisRange pts) ∧ (pts ≠ [] → ∃ p ∈ pts, |p.1| = axisRange pts) := by
  have hmin : ∀ (l : List (K × K)) (z : K), let r := l.foldl (fun a q => min a q.1) z
      r ≤ z ∧ (∀ q ∈ l, r ≤ q.1) ∧ (r = z ∨ ∃ q ∈ l, r = q.1) := by
    intro l
    induction l with
    | nil => intro z; exact ⟨le_refl _, by simp, Or.inl rfl⟩
    | cons q l ih =>
      intro z
      obtain ⟨h1, h2, h3⟩ := ih (min z q.1)
      dsimp only [List.foldl_cons] at *
      refine ⟨le_trans h1 (min_le_left _ _), fun x hx => ?_, ?_⟩
      · rcases List.mem_cons.1 hx with rfl | hx
        · exact le_trans h1 (min_le_right _ _)
        · exact h2 x hx
      · rcases h3 with h3 | ⟨x, hx, h3⟩
        · rcases min_choice z q.1 with h | h
          · exact Or.inl (h3.trans h)
          · exact Or.inr ⟨q, List.mem_cons_self, h3.trans h⟩
        · exact Or.inr ⟨x, List.mem_cons_of_mem _ hx, h3⟩
  have hmax : ∀ (l : List (K × K)) (z : K), let r := l.foldl (fun a q => max a q.1) z
      z ≤ r ∧ (∀ q ∈ l, q.1 ≤ r) ∧ (r = z ∨ ∃ q ∈ l, r = q.1) := by
    intro l
    induction l with
    | nil => intro z; exact ⟨le_refl _, by simp, Or.inl rfl⟩
    | cons q l ih =>
      intro z
      obtain ⟨h1, h2, h3⟩ := ih (max z q.1)
      dsimp only [List.foldl_cons] at *
      refine ⟨le_trans (le_max_left _ _) h1, fun x hx => ?_, ?_⟩
      · rcases List.mem_cons.1 hx with rfl | hx
        · exact le_trans (le_max_right _ _) h1
        · exact h2 x hx
      · rcases h3 with h3 | ⟨x, hx, h3⟩
        · rcases max_choice z q.1 with h | h
          · exact Or.inl (h3.trans h)
          · exact Or.inr ⟨q, List.mem_cons_self, h3.trans h⟩
        · exact Or.inr ⟨x, List.mem_cons_of_mem _ hx, h3⟩
  match pts with
  | [] => exact ⟨by simp, fun h => absurd rfl h⟩
  | p :: l =>
    obtain ⟨a1, a2, a3⟩ := hmin l p.1
    obtain ⟨b1, b2, b3⟩ := hmax l p.1
    rw [axisRange]
    generalize l.foldl (fun a q => min a q.1) p.1 = lo at *
    generalize l.foldl (fun a q => max a q.1) p.1 = hi at *
    constructor
    · intro q hq
      have h1 : lo ≤ q.1 := by
        rcases List.mem_cons.1 hq with rfl | hq
        · exact a1
        · exact a2 q hq
      have h2 : q.1 ≤ hi := by
        rcases List.mem_cons.1 hq with rfl | hq
        · exact b1
        · exact b2 q hq
      exact abs_le.2 ⟨by linarith [le_max_left |lo| |hi|, neg_abs_le lo],
        by linarith [le_max_right |lo| |hi|, le_abs_self hi]⟩
    · intro _
      rcases max_choice |lo| |hi| with h | h
      · rw [h]
        rcases a3 with rfl | ⟨q, hq, rfl⟩
        · exact ⟨p, List.mem_cons_self, rfl⟩
        · exact ⟨q, List.mem_cons_of_mem _ hq, rfl⟩
      · rw [h]
        rcases b3 with rfl | ⟨q, hq, rfl⟩
        · exact ⟨p, List.mem_cons_self, rfl⟩
        · exact ⟨q, List.mem_cons_of_mem _ hq, rfl⟩

/-- If some place to cut the points along the axis is good enough, and is in a gap between points
that is wider than the range over `2 ^ 51`, then a cut that is good enough is found. -/
theorem C78_finds (pts : List (K × K)) (hm : ∀ p ∈ pts, 0 ≤ p.2) (total tol lo hi : K)
    (good : |massBeyond pts lo - total / 2| ≤ tol) (gap : ∀ p ∈ pts, ¬ (lo < p.1 ∧ p.1 < hi))
    (h1 : -axisRange pts ≤ lo) (h2 : hi ≤ axisRange pts)
    (wide : axisRange pts / 2 ^ 51 < hi - lo) :
    (markAxisBisection pts total tol).1 = true := by
  have hr : 0 ≤ axisRange pts := by
    have := (C78_range pts).2
    by_cases hp : pts = []
    · subst hp; exact le_refl _
    · obtain ⟨p, -, h⟩ := this hp
      rw [← h]; exact abs_nonneg _
  have lt : lo < hi := by
    have : 0 ≤ axisRange pts / 2 ^ 51 := div_nonneg hr (by positivity)
    linarith
  refine axisLoop_finds pts hm total tol lo hi (fun c hc1 hc2 => ?_) lt _ _ _ _ ?_ ?_ ?_
  · rw [massBeyond_gap pts hc1 hc2 gap]; exact good
  · linarith
  · linarith
  · rw [div_lt_iff₀ (by positivity)] at wide
    show 4 * (axisRange pts / 2) < (hi - lo) * 2 ^ 52
    have : (hi - lo) * 2 ^ 52 = 2 * ((hi - lo) * 2 ^ 51) := by ring
    linarith

omit [IsStrictOrderedRing K] in
theorem markedMass_eq (pts : List (Vec K 3 × K)) (center axis : Vec K 3) (c : K) :
    markedMass (markHalf (axisDistances pts center axis) c) pts =
      massBeyond (axisDistances pts center axis) c := by
  induction pts with
  | nil => rfl
  | cons p ps ih =>
    have e1 : axisDistances (p :: ps) center axis =
      (vdot (vsub p.1 center) axis, p.2) :: axisDistances ps center axis := rfl
    rw [e1, massBeyond_cons, ← ih, markHalf_eq, List.map_cons]
    by_cases h : c < vdot (vsub p.1 center) axis
    · rw [if_pos h, decide_eq_true h]; rfl
    · rw [if_neg h, decide_eq_false h, zero_add]; rfl

omit [IsStrictOrderedRing K] in
theorem markHalf_cut (pts : List (Vec K 3 × K)) (center axis : Vec K 3) (c : K) :
    CutBy (markHalf (axisDistances pts center axis) c) pts center axis :=
  ⟨c, by rw [markHalf_eq, axisDistances, List.map_map]; rfl⟩

/-- The given axis and the six that are tried after it. -/
def triedAxes (axis : Vec K 3) (l : List (Fin 6)) : List (Vec K 3) :=
  axis :: l.map (perturbedAxis axis)

omit [IsStrictOrderedRing K] in
theorem perturbedLoop_spec (pts : List (Vec K 3 × K)) (center axis : Vec K 3) (total tol : K)
    (l : List (Fin 6)) (ms : List Bool) (prev : List (Vec K 3))
    (hc : ∃ a ∈ prev, CutBy ms pts center a) :
    (∃ a ∈ prev ++ l.map (perturbedAxis axis),
      CutBy (perturbedLoop pts center axis total tol l ms) pts center a) ∧
    ((∃ a ∈ l.map (perturbedAxis axis),
        (markAxisBisection (axisDistances pts center a) total tol).1 = true) →
      |markedMass (perturbedLoop pts center axis total tol l ms) pts - total / 2| ≤ tol) := by
  induction l generalizing ms prev with
  | nil =>
    refine ⟨?_, fun ⟨a, ha, _⟩ => absurd ha (by simp)⟩
    obtain ⟨a, ha, h⟩ := hc
    exact ⟨a, by simpa using ha, h⟩
  | cons i l ih =>
    rw [perturbedLoop]
    by_cases hf : (markAxisBisection (axisDistances pts center (perturbedAxis axis i))
        total tol).1 = true
    · rw [if_pos hf]
      obtain ⟨c, h1, h2⟩ := axisLoop_found _ _ _ _ _ _ _ hf
      have h1' : (markAxisBisection (axisDistances pts center (perturbedAxis axis i))
        total tol).2 = markHalf (axisDistances pts center (perturbedAxis axis i)) c := h1
      rw [h1', markedMass_eq]
      exact ⟨⟨_, List.mem_append_right _ List.mem_cons_self, markHalf_cut _ _ _ _⟩, fun _ => h2⟩
    · rw [if_neg hf]
      obtain ⟨c, h1⟩ := markAxis_marks (axisDistances pts center (perturbedAxis axis i)) total tol
      rw [h1]
      obtain ⟨g1, g2⟩ := ih (markHalf (axisDistances pts center (perturbedAxis axis i)) c)
        (prev ++ [perturbedAxis axis i])
        ⟨_, List.mem_append_right _ List.mem_cons_self, markHalf_cut _ _ _ _⟩
      refine ⟨by simpa using g1, fun ⟨a, ha, hfa⟩ => g2 ?_⟩
      rcases List.mem_cons.1 ha with rfl | ha
      · exact absurd hfa hf
      · exact ⟨a, ha, hfa⟩

omit [IsStrictOrderedRing K] in
theorem internal_spec (pts : List (Vec K 3 × K)) (center axis : Vec K 3) (total tol : K) :
    (∃ a ∈ triedAxes axis [0, 1, 2, 3, 4, 5],
      CutBy (markBisectionInternal pts tol axis center total) pts center a) ∧
    ((∃ a ∈ triedAxes axis [0, 1, 2, 3, 4, 5],
        (markAxisBisection (axisDistances pts center a) total tol).1 = true) →
      |markedMass (markBisectionInternal pts tol axis center total) pts - total / 2| ≤ tol) := by
  rw [markBisectionInternal]
  by_cases hf : (markAxisBisection (axisDistances pts center axis) total tol).1 = true
  · rw [if_pos hf]
    obtain ⟨c, h1, h2⟩ := axisLoop_found _ _ _ _ _ _ _ hf
    have h1' : (markAxisBisection (axisDistances pts center axis) total tol).2 =
      markHalf (axisDistances pts center axis) c := h1
    rw [h1', markedMass_eq]
    exact ⟨⟨_, List.mem_cons_self, markHalf_cut _ _ _ _⟩, fun _ => h2⟩
  · rw [if_neg hf]
    obtain ⟨c, h1⟩ := markAxis_marks (axisDistances pts center axis) total tol
    rw [h1]
    obtain ⟨g1, g2⟩ := perturbedLoop_spec pts center axis total tol [0, 1, 2, 3, 4, 5]
      (markHalf (axisDistances pts center axis) c) [axis]
      ⟨_, List.mem_cons_self, markHalf_cut _ _ _ _⟩
    refine ⟨g1, fun ⟨a, ha, hfa⟩ => g2 ?_⟩
    rcases List.mem_cons.1 ha with rfl | ha
    · exact absurd hfa hf
    · exact ⟨a, ha, hfa⟩

theorem tried_near (axis : Vec K 3) (l : List (Fin 6)) (a : Vec K 3) (h : a ∈ triedAxes axis l) :
    NearAxis axis a := by
  rcases List.mem_cons.1 h with rfl | h
  · exact Or.inl rfl
  · obtain ⟨i, -, rfl⟩ := List.mem_map.1 h
    have hk : |(1 / 1000 : K)| = 1 / 1000 := abs_of_pos (by norm_num)
    refine Or.inr ⟨⟨i.val / 2, by omega⟩, ?_, fun d hd => ?_⟩
    · unfold perturbedAxis
      rw [if_pos rfl, add_sub_cancel_left]
      split
      · exact hk
      · rw [abs_neg, hk]
    · unfold perturbedAxis
      rw [if_neg fun e => hd (Fin.ext e)]

/-- The marks are always those of the points beyond some plane at right angles to the given axis
or to one very near to it. If along one of the axes that are tried there is a gap, wider than the
range over `2 ^ 51`, at which a plane halves the masses within the tolerance, then the marked points
have half of the mass within the tolerance. What is missing is that otherwise the best of the cuts
is given: `C78_best_refuted`. -/
theorem C78_cut_partial (pts : List (Vec K 3 × K)) (tol : K) (axis : Vec K 3) :
    let total := (pts.map (·.2)).sum
    let center := massCenter pts total
    let marks := markBisectionGivenAxis pts tol axis
    let along := axisDistances pts center
    (∃ a, NearAxis axis a ∧ CutBy marks pts center a) ∧
    ((∃ a ∈ triedAxes axis [0, 1, 2, 3, 4, 5],
        (markAxisBisection (along a) total tol).1 = true) →
      |markedMass marks pts - total / 2| ≤ tol) ∧
    ((∀ p ∈ pts, 0 ≤ p.2) → ∀ a ∈ triedAxes axis [0, 1, 2, 3, 4, 5], ∀ lo hi,
      -axisRange (along a) ≤ lo → hi ≤ axisRange (along a) →
      axisRange (along a) / 2 ^ 51 < hi - lo →
      (∀ p ∈ pts, ¬ (lo < vdot (vsub p.1 center) a ∧ vdot (vsub p.1 center) a < hi)) →
      |massBeyond (along a) lo - total / 2| ≤ tol →
      |markedMass marks pts - total / 2| ≤ tol) := by
  intro total center marks along
  obtain ⟨⟨a, ha, hc⟩, h2⟩ := internal_spec pts center axis total tol
  refine ⟨⟨a, tried_near _ _ _ ha, hc⟩, h2, fun hm b hb lo hi h1 h3 hw gap good => h2 ⟨b,
    hb, C78_finds _ ?_ _ _ lo hi good ?_ h1 h3 hw⟩⟩
  · intro p hp
    obtain ⟨q, hq, rfl⟩ := List.mem_map.1 hp
    exact hm q hq
  · intro p hp
    obtain ⟨q, hq, rfl⟩ := List.mem_map.1 hp
    exact gap q hq
end

/-! ### Centre and axis -/

section
variable {K : Type} [Field K]

/-- The masses balance around the centre. -/
theorem C78_center (pts : List (Vec K 3 × K)) (h : (pts.map (·.2)).sum ≠ 0) (i : Fin 3) :
    (pts.map fun p => p.2 * (p.1 i - massCenter pts (pts.map (·.2)).sum i)).sum = 0 := by
  have gen : ∀ (l : List (Vec K 3 × K)) (c : K), (l.map fun p => p.2 * (p.1 i - c)).sum =
      (l.map fun p => p.2 * p.1 i).sum - (l.map (·.2)).sum * c := by
    intro l c
    induction l with
    | nil => simp
    | cons p l ih => simp only [List.map_cons, List.sum_cons, ih]; ring
  rw [gen]
  show _ - _ * ((pts.map fun p => p.2 * p.1 i).sum / (pts.map (·.2)).sum) = 0
  rw [mul_div_cancel₀ _ h, sub_self]

/-- The value that the matrix of packed entries `v` gives to a direction. -/
theorem symm3_quad (v : Vec K 6) (a : Vec K 3) : vdot a (mulVec (vec2symm3 v) a) =
    v 0 * (a 0 * a 0) + v 1 * (a 1 * a 1) + v 2 * (a 2 * a 2) + v 3 * (2 * a 0 * a 1) +
    v 4 * (2 * a 1 * a 2) + v 5 * (2 * a 0 * a 2) := by
  rw [vdot3, mulVec3, mulVec3, mulVec3]
  show a 0 * (v 0 * a 0 + v 3 * a 1 + v 5 * a 2) + a 1 * (v 3 * a 0 + v 1 * a 1 + v 4 * a 2) +
    a 2 * (v 5 * a 0 + v 4 * a 1 + v 2 * a 2) = _
  ring

/-- The matrix gives every direction the moment of inertia about it, and is symmetric. -/
theorem C78_moment (pts : List (Vec K 3 × K)) (center a : Vec K 3) :
    vdot a (mulVec (inertiaMatrix pts center) a) = momentAbout pts center a ∧
    Spec.Symmetric (inertiaMatrix pts center) := by
  constructor
  · unfold inertiaMatrix momentAbout
    rw [symm3_quad]
    induction pts with
    | nil => simp
    | cons p ps ih =>
      simp only [List.map_cons, List.sum_cons] at ih ⊢
      rw [← ih]
      have key : ∀ d : Vec K 3, ∀ m : K,
          symm2vec3 (mscale (matMul (crossMat d) (crossMat d)) (-m)) 0 * (a 0 * a 0) +
          symm2vec3 (mscale (matMul (crossMat d) (crossMat d)) (-m)) 1 * (a 1 * a 1) +
          symm2vec3 (mscale (matMul (crossMat d) (crossMat d)) (-m)) 2 * (a 2 * a 2) +
          symm2vec3 (mscale (matMul (crossMat d) (crossMat d)) (-m)) 3 * (2 * a 0 * a 1) +
          symm2vec3 (mscale (matMul (crossMat d) (crossMat d)) (-m)) 4 * (2 * a 1 * a 2) +
          symm2vec3 (mscale (matMul (crossMat d) (crossMat d)) (-m)) 5 * (2 * a 0 * a 2) =
          m * vdot (cross3 d a) (cross3 d a) := by
        intro d m
        have e : ∀ i j, mscale (matMul (crossMat d) (crossMat d)) (-m) j i =
            matMul (crossMat d) (crossMat d) j i * -m := fun _ _ => rfl
        show mscale (matMul (crossMat d) (crossMat d)) (-m) 0 0 * (a 0 * a 0) +
          mscale (matMul (crossMat d) (crossMat d)) (-m) 1 1 * (a 1 * a 1) +
          mscale (matMul (crossMat d) (crossMat d)) (-m) 2 2 * (a 2 * a 2) +
          mscale (matMul (crossMat d) (crossMat d)) (-m) 1 0 * (2 * a 0 * a 1) +
          mscale (matMul (crossMat d) (crossMat d)) (-m) 2 1 * (2 * a 1 * a 2) +
          mscale (matMul (crossMat d) (crossMat d)) (-m) 2 0 * (2 * a 0 * a 2) = _
        simp only [e, matMul3]
        have c00 : crossMat d 0 0 = 0 := rfl
        have c01 : crossMat d 0 1 = d 2 := rfl
        have c02 : crossMat d 0 2 = -d 1 := rfl
        have c10 : crossMat d 1 0 = -d 2 := rfl
        have c11 : crossMat d 1 1 = 0 := rfl
        have c12 : crossMat d 1 2 = d 0 := rfl
        have c20 : crossMat d 2 0 = d 1 := rfl
        have c21 : crossMat d 2 1 = -d 0 := rfl
        have c22 : crossMat d 2 2 = 0 := rfl
        rw [c00, c01, c02, c10, c11, c12, c20, c21, c22, vdot3]
        have x0 : cross3 d a 0 = d 1 * a 2 - d 2 * a 1 := rfl
        have x1 : cross3 d a 1 = d 2 * a 0 - d 0 * a 2 := rfl
        have x2 : cross3 d a 2 = d 0 * a 1 - d 1 * a 0 := rfl
        rw [x0, x1, x2]
        ring
      rw [← key (vsub p.1 center) p.2]
      ring
  · have hp := fun v => (C76_packing (fun _ _ => (0 : K)) (fun _ _ => (0 : K)) (fun _ => 0) v)
    unfold inertiaMatrix
    exact (hp _).2.2.2.2.1.1

/-- Columns that are orthonormal are enough to write every vector with. -/
theorem orthonormal_full (q : Mat K 3 3) (h : Orthonormal q) (v : Vec K 3) :
    mulVec q (mulVec (transp q) v) = v := by
  have hi : IsIdentity (matMul (transp q) q) := by
    intro j i
    rw [matMul_sum]
    refine (h i j).trans ?_
    by_cases e : i = j
    · rw [if_pos e, if_pos e.symm]
    · rw [if_neg e, if_neg (Ne.symm e)]
  have hd : det3 q ≠ 0 := by
    intro h0
    have h1 := C76_determinant (transp q) q (fun _ _ => 0) (fun _ _ => 0)
    have e : matMul (transp q) q = identMat := by
      funext j i
      rw [hi j i]
      unfold identMat
      by_cases e : j = i
      · rw [if_pos e]; simp [e]
      · rw [if_neg e]; simp; exact fun h => e (Fin.ext h.symm)
    rw [e, h1.2.2.1, h0, mul_zero] at h1
    exact one_ne_zero h1.1
  have hu := invert3_undo q hd
  have hr := mulVec_ident _ (undo_left hu)
  have hl := mulVec_ident _ hi
  have : mulVec (transp q) v = mulVec (invert3 q) v := by
    have e := hl (mulVec (invert3 q) v)
    rw [← mulVec_mulVec, mulVec_mulVec q, hr] at e
    exact e
  rw [this, mulVec_mulVec, hr]
end

section
variable {K : Type} [Field K] [LinearOrder K] [IsStrictOrderedRing K]

omit [Field K] [IsStrictOrderedRing K] in
theorem minI_le (l : Vec K 3) (i : Fin 3) :
    l (Fin.foldl 2 (fun (m : Fin 3) (i : Fin 2) => if l i.succ < l m then i.succ else m) 0) ≤ l i := by
  rw [Fin.foldl_succ, Fin.foldl_succ, Fin.foldl_zero]
  have s0 : (Fin.succ 0 : Fin 3) = 1 := rfl
  have s1 : (Fin.succ (Fin.succ 0) : Fin 3) = 2 := rfl
  rw [s0, s1]
  by_cases h1 : l 1 < l 0
  · rw [if_pos h1]
    by_cases h2 : l 2 < l 1
    · rw [if_pos h2]
      match i with
      | 0 => exact (h2.trans h1).le
      | 1 => exact h2.le
      | 2 => exact le_refl _
    · rw [if_neg h2]
      match i with
      | 0 => exact h1.le
      | 1 => exact le_refl _
      | 2 => exact not_lt.1 h2
  · rw [if_neg h1]
    by_cases h2 : l 2 < l 0
    · rw [if_pos h2]
      match i with
      | 0 => exact h2.le
      | 1 => exact h2.le.trans (not_lt.1 h1)
      | 2 => exact le_refl _
    · rw [if_neg h2]
      match i with
      | 0 => exact le_refl _
      | 1 => exact not_lt.1 h1
      | 2 => exact not_lt.1 h2

/-- If the decomposition is right, the axis has length one and the least moment of inertia of all
axes, that is, the points are spread out along it. -/
theorem C78_axis (pts : List (Vec K 3 × K)) (center l : Vec K 3) (q : Mat K 3 3)
    (h : Eigen (inertiaMatrix pts center) l q) :
    vdot (inertiaAxis l q) (inertiaAxis l q) = 1 ∧
    ∀ v, vdot v v = 1 → momentAbout pts center (inertiaAxis l q) ≤ momentAbout pts center v := by
  obtain ⟨ho, he⟩ := h
  have hmin := minI_le l
  have hax : inertiaAxis l q = positivize (q (Fin.foldl 2
    (fun (m : Fin 3) (i : Fin 2) => if l i.succ < l m then i.succ else m) 0)) := rfl
  rw [hax]
  generalize Fin.foldl 2 (fun (m : Fin 3) (i : Fin 2) => if l i.succ < l m then i.succ else m) 0 = m
    at *
  have hq : ∀ i, vdot (q i) (q i) = 1 := fun i => by rw [vdot_sum]; exact (ho i i).trans (if_pos rfl)
  have hneg : ∀ u : Vec K 3, vdot (vneg u) (vneg u) = vdot u u := by
    intro u; simp only [vdot3, vneg]; ring
  have hmom : momentAbout pts center (positivize (q m)) = l m := by
    have e1 : momentAbout pts center (positivize (q m)) = momentAbout pts center (q m) := by
      rcases (C76_positivize_partial (q m)).1 with e | e
      · rw [e]
      · rw [e, ← (C78_moment pts center _).1, ← (C78_moment pts center _).1, mulVec_vneg]
        simp only [vdot3, vneg]; ring
    rw [e1, ← (C78_moment pts center _).1, he]
    have : vdot (q m) (vscale (q m) (l m)) = vdot (q m) (q m) * l m := by
      simp only [vdot3, vscale]; ring
    rw [this, hq, one_mul]
  constructor
  · rcases (C76_positivize_partial (q m)).1 with e | e
    · rw [e, hq]
    · rw [e, hneg, hq]
  · intro v hv
    rw [hmom, ← (C78_moment pts center v).1]
    generalize inertiaMatrix pts center = M at *
    have hfull := orthonormal_full q ho v
    generalize hc : mulVec (transp q) v = c at hfull
    have hci : ∀ i, c i = vdot (q i) v := by
      intro i; rw [← hc, mulVec3, vdot3]; rfl
    have hMv : mulVec M v = fun j => q 0 j * l 0 * c 0 + q 1 j * l 1 * c 1 + q 2 j * l 2 * c 2 := by
      rw [← hfull, mulVec_mulVec]
      funext j
      rw [mulVec3]
      have e : ∀ i, matMul M q i = vscale (q i) (l i) := he
      rw [e, e, e]; rfl
    have hquad : vdot v (mulVec M v) = l 0 * c 0 ^ 2 + l 1 * c 1 ^ 2 + l 2 * c 2 ^ 2 := by
      rw [hMv, hci 0, hci 1, hci 2]
      simp only [vdot3]; ring
    have hone : c 0 ^ 2 + c 1 ^ 2 + c 2 ^ 2 = 1 := by
      have : vdot v (mulVec q c) = c 0 ^ 2 + c 1 ^ 2 + c 2 ^ 2 := by
        rw [vdot3, mulVec3, mulVec3, mulVec3, hci 0, hci 1, hci 2]
        simp only [vdot3]; ring
      rw [← this, hfull, hv]
    rw [hquad]
    have h1 : l m = l m * c 0 ^ 2 + l m * c 1 ^ 2 + l m * c 2 ^ 2 := by
      linear_combination -(l m) * hone
    rw [h1]
    exact add_le_add (add_le_add (mul_le_mul_of_nonneg_right (hmin 0) (sq_nonneg _))
      (mul_le_mul_of_nonneg_right (hmin 1) (sq_nonneg _)))
      (mul_le_mul_of_nonneg_right (hmin 2) (sq_nonneg _))
end

/-! ### What is given when no cut is good enough -/

/-- Two points on the first axis, with masses two and one. -/
def cutPts : List (Vec ℚ 3 × ℚ) := [(![0, 0, 0], 2), (![3, 0, 0], 1)]

/-- What is given when no cut is good enough need not be the best one that was tried: here the
very first plane marks one third of the mass, but all points are marked in the end, so that
nothing at all is left for the other half of the ranks. -/
theorem C78_best_refuted :
    ¬ ∀ (pts : List (Vec ℚ 3 × ℚ)) (tol : ℚ) (axis : Vec ℚ 3),
      let total := (pts.map (·.2)).sum
      let first := markHalf (axisDistances pts (massCenter pts total) axis) 0
      |markedMass (markBisectionGivenAxis pts tol axis) pts - total / 2| ≤
        max tol |markedMass first pts - total / 2| := by
  intro h
  have := h cutPts (2 / 5) ![1, 0, 0]
  revert this
  decide +kernel

example : markBisectionGivenAxis cutPts (2 / 5) ![1, 0, 0] = [true, true] ∧
    markedMass (markBisectionGivenAxis cutPts (2 / 5) ![1, 0, 0]) cutPts = 3 ∧
    markHalf (axisDistances cutPts (massCenter cutPts 3) ![1, 0, 0]) 0 = [false, true] := by
  decide +kernel

/-! ### The hypotheses are met -/

/-- Four points on a line, with masses one, one, one and three. -/
def cutLine : List (Vec ℚ 3 × ℚ) :=
  [(![0, 1, 0], 1), (![1, 1, 0], 1), (![2, 1, 0], 1), (![7, 1, 0], 3)]

example : (markAxisBisection (axisDistances cutLine (massCenter cutLine 6) ![1, 0, 0]) 6 0).1 = true ∧
    markBisectionGivenAxis cutLine 0 ![1, 0, 0] = [false, false, false, true] := by decide +kernel
example : massCenter cutLine 6 = ![4, 1, 0] := by funext i; revert i; decide +kernel
example : axisRange (axisDistances cutLine (massCenter cutLine 6) ![1, 0, 0]) = 4 ∧
    massBeyond (axisDistances cutLine (massCenter cutLine 6) ![1, 0, 0]) (-2) = 3 := by decide +kernel
example : Eigen (inertiaMatrix cutLine ![4, 1, 0]) ![0, 56, 56] identMat := by
  refine ⟨by intro i j; revert i j; decide +kernel, fun i => ?_⟩
  funext j; revert i j; decide +kernel
example : inertiaAxis ![(0 : ℚ), 56, 56] identMat = ![1, 0, 0] := by
  funext i; revert i; decide +kernel

end OmegaH
