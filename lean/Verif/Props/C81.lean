import Verif.Spec.MetricInput
import Mathlib.Algebra.Order.Field.Basic
import Mathlib.Algebra.Order.Field.Rat
import Mathlib.Tactic.Linarith

namespace OmegaH
open OmegaH.Spec

section
variable {K M : Type} [Field K] [LinearOrder K]

theorem metricLoop_result (ops : MetricOps K M) (inp : MetricInput K M) (first : MetricSource M)
    (rest : List (MetricSource M)) (m : M) :
    ∀ left scalar, metricLoop ops inp first rest left scalar = .ok m →
      (∃ s, m = metricRound ops inp first rest s ∧ (inp.limitCount = false → s = scalar)) ∧
      (inp.limitCount = true → inp.minCount ≤ ops.count m ∧ ops.count m ≤ inp.maxCount) := by
  intro left
  induction left with
  | zero => intro scalar h; cases h
  | succ n ih =>
    intro scalar h
    rw [metricLoop] at h
    by_cases hc : inp.limitCount = false
    · rw [if_pos hc] at h
      cases h
      exact ⟨⟨scalar, rfl, fun _ => rfl⟩, fun e => by rw [hc] at e; cases e⟩
    · rw [if_neg hc] at h
      dsimp only at h
      by_cases h1 : ops.count (metricRound ops inp first rest scalar) > inp.maxCount
      · rw [if_pos h1] at h
        obtain ⟨⟨s, e, _⟩, hr⟩ := ih _ h
        exact ⟨⟨s, e, fun e => absurd e hc⟩, hr⟩
      · rw [if_neg h1] at h
        by_cases h2 : ops.count (metricRound ops inp first rest scalar) < inp.minCount
        · rw [if_pos h2] at h
          obtain ⟨⟨s, e, _⟩, hr⟩ := ih _ h
          exact ⟨⟨s, e, fun e => absurd e hc⟩, hr⟩
        · rw [if_neg h2] at h
          cases h
          exact ⟨⟨scalar, rfl, fun _ => rfl⟩, fun _ => ⟨not_lt.1 h2, not_lt.1 h1⟩⟩

/-- If metrics are generated with a limit on the number of elements, the number expected of them is
within the limits; and whatever the limits, there is one scalar such that the metrics ask for at
least as much as every source does, scaled by it if it may be scaled and clamped if lengths are
limited. Without a limit on the number of elements the scalar is one. `le` is any order in which
intersecting, smoothing and grading only ask for more. -/
theorem C81_result (ops : MetricOps K M) (inp : MetricInput K M) (m : M)
    (h : generateMetrics ops inp = .ok m) :
    (inp.limitCount = true → inp.minCount ≤ ops.count m ∧ ops.count m ≤ inp.maxCount) ∧
    ∃ scalar : K, (inp.limitCount = false → scalar = 1) ∧
      ∀ le : M → M → Prop, (∀ a, le a a) → (∀ a b c, le a b → le b c → le a c) →
        (∀ a b, le a (ops.inter a b) ∧ le b (ops.inter a b)) → (∀ a, le a (ops.finish a)) →
        ∀ s ∈ inp.sources,
          le (let x := if s.scales = true then ops.scale scalar s.metrics else s.metrics
            if inp.limitLengths = true then ops.clamp inp.minLength inp.maxLength x else x) m := by
  unfold generateMetrics at h
  split at h
  · cases h
  split at h
  · cases h
  split at h
  · cases h
  rename_i first rest hs
  obtain ⟨⟨s, e, h1⟩, h2⟩ := metricLoop_result ops inp first rest m 100 1 h
  refine ⟨h2, s, h1, fun le refl trans hi hf x hx => ?_⟩
  rw [hs] at hx
  rw [e]
  refine trans _ _ _ ?_ (hf _)
  have key : ∀ (l : List (MetricSource M)) (a : M),
      le a (l.foldl (fun m s' => ops.inter m (sourceMetrics ops inp s s')) a) ∧
      ∀ x ∈ l, le (sourceMetrics ops inp s x)
        (l.foldl (fun m s' => ops.inter m (sourceMetrics ops inp s s')) a) := by
    intro l
    induction l with
    | nil => intro a; exact ⟨refl a, fun x hx => absurd hx List.not_mem_nil⟩
    | cons y ys ih =>
      intro a
      rw [List.foldl_cons]
      obtain ⟨i1, i2⟩ := ih (ops.inter a (sourceMetrics ops inp s y))
      refine ⟨trans _ _ _ (hi _ _).1 i1, fun x hx => ?_⟩
      rcases List.mem_cons.1 hx with rfl | hx
      · exact trans _ _ _ (hi _ _).2 i1
      · exact i2 x hx
  rcases List.mem_cons.1 hx with rfl | hx
  · exact (key rest _).1
  · exact (key rest _).2 x hx

/-- Without sources, with lengths that contradict each other, or with numbers of elements that do,
no metrics are generated. -/
theorem C81_rejects (ops : MetricOps K M) (inp : MetricInput K M)
    (h : inp.sources = [] ∨ (inp.limitLengths = true ∧ inp.maxLength < inp.minLength) ∨
      (inp.limitCount = true ∧ inp.maxCount < inp.minCount)) :
    generateMetrics ops inp = .fail := by
  cases hg : generateMetrics ops inp with
  | fail => rfl
  | ok m =>
    exfalso
    rcases h with h | ⟨h1, h2⟩ | ⟨h1, h2⟩
    · unfold generateMetrics at hg
      rw [h] at hg
      split at hg
      · cases hg
      split at hg <;> cases hg
    · unfold generateMetrics at hg
      rw [if_pos ⟨h1, not_le.2 h2⟩] at hg
      cases hg
    · obtain ⟨a, b⟩ := (C81_result ops inp m hg).1 h1
      exact absurd (a.trans b) (not_le.2 h2)
  | ub =>
    exfalso
    have hl : ∀ first rest left scalar, metricLoop ops inp first rest left scalar ≠ .ub := by
      intro first rest left
      induction left with
      | zero => intro scalar h; cases h
      | succ n ih =>
        intro scalar h
        rw [metricLoop] at h
        split at h
        · cases h
        dsimp only at h
        split at h
        · exact ih _ h
        split at h
        · exact ih _ h
        · cases h
    unfold generateMetrics at hg
    split at hg
    · cases hg
    split at hg
    · cases hg
    split at hg
    · cases hg
    · exact hl _ _ _ _ hg

/-- Without a limit on the number of elements, metrics are generated from any sources if the lengths
are in order or not limited. -/
theorem C81_unlimited (ops : MetricOps K M) (inp : MetricInput K M) (hs : inp.sources ≠ [])
    (hc : inp.limitCount = false) (hl : inp.limitLengths = true → inp.minLength ≤ inp.maxLength) :
    ∃ m, generateMetrics ops inp = .ok m := by
  unfold generateMetrics
  rw [if_neg fun h => h.2 (hl h.1), if_neg fun h => by rw [hc] at h; cases h.1]
  cases e : inp.sources with
  | nil => exact absurd e hs
  | cons first rest =>
    refine ⟨metricRound ops inp first rest 1, ?_⟩
    show metricLoop ops inp first rest (99 + 1) 1 = _
    rw [metricLoop, if_pos hc]

/-- If all that is expected of scaling comes true, that is, scaling by the factor for a number of
elements gives that number, two rounds suffice, provided that the relaxation does not lead from one
limit beyond the other and the lengths, limited or not, are in order. -/
theorem C81_converges_partial (ops : MetricOps K M) (inp : MetricInput K M) (first : MetricSource M)
    (rest : List (MetricSource M)) (hs : inp.sources = first :: rest)
    (hl : inp.minLength ≤ inp.maxLength)
    (hmax : let n := ops.count (metricRound ops inp first rest 1)
      inp.maxCount < n →
        inp.minCount ≤ ops.count (metricRound ops inp first rest
          (1 * ops.factor n inp.maxCount / inp.overRelaxation)) ∧
        ops.count (metricRound ops inp first rest
          (1 * ops.factor n inp.maxCount / inp.overRelaxation)) ≤ inp.maxCount)
    (hmin : let n := ops.count (metricRound ops inp first rest 1)
      n < inp.minCount →
        inp.minCount ≤ ops.count (metricRound ops inp first rest
          (1 * ops.factor n inp.minCount * inp.overRelaxation)) ∧
        ops.count (metricRound ops inp first rest
          (1 * ops.factor n inp.minCount * inp.overRelaxation)) ≤ inp.maxCount) :
    ∃ m, generateMetrics ops inp = .ok m := by
  have hstop : ∀ n s, inp.minCount ≤ ops.count (metricRound ops inp first rest s) →
      ops.count (metricRound ops inp first rest s) ≤ inp.maxCount →
      metricLoop ops inp first rest (n + 1) s = .ok (metricRound ops inp first rest s) := by
    intro n s a b
    rw [metricLoop]
    split
    · rfl
    · dsimp only
      rw [if_neg (not_lt.2 b), if_neg (not_lt.2 a)]
  unfold generateMetrics
  rw [if_neg fun h => h.2 hl, if_neg fun h => h.2 hl, hs]
  show ∃ m, metricLoop ops inp first rest (99 + 1) 1 = .ok m
  by_cases hc : inp.limitCount = false
  · exact ⟨_, by rw [metricLoop, if_pos hc]⟩
  by_cases h1 : inp.maxCount < ops.count (metricRound ops inp first rest 1)
  · rw [metricLoop, if_neg hc]
    dsimp only
    rw [if_pos h1]
    exact ⟨_, hstop 98 _ (hmax h1).1 (hmax h1).2⟩
  · by_cases h2 : ops.count (metricRound ops inp first rest 1) < inp.minCount
    · rw [metricLoop, if_neg hc]
      dsimp only
      rw [if_neg h1, if_pos h2]
      exact ⟨_, hstop 98 _ (hmin h2).1 (hmin h2).2⟩
    · exact ⟨_, hstop 99 _ (not_lt.1 h2) (not_lt.1 h1)⟩

/-- If nothing may be scaled, the rounds all give the same, and what is not within the limits at
once never is. -/
theorem C81_fixed (ops : MetricOps K M) (inp : MetricInput K M) (first : MetricSource M)
    (rest : List (MetricSource M)) (hs : inp.sources = first :: rest)
    (hf : ∀ s ∈ inp.sources, s.scales = false) (hc : inp.limitCount = true)
    (hout : ¬ (inp.minCount ≤ ops.count (metricRound ops inp first rest 1) ∧
      ops.count (metricRound ops inp first rest 1) ≤ inp.maxCount)) :
    generateMetrics ops inp = .fail := by
  rw [hs] at hf
  have hsame : ∀ s, metricRound ops inp first rest s = metricRound ops inp first rest 1 := by
    intro s
    have h1 : ∀ x ∈ first :: rest, sourceMetrics ops inp s x = sourceMetrics ops inp 1 x := by
      intro x hx
      unfold sourceMetrics
      rw [hf x hx]
      rfl
    unfold metricRound
    rw [h1 first List.mem_cons_self]
    congr 1
    have h2 : ∀ x ∈ rest, sourceMetrics ops inp s x = sourceMetrics ops inp 1 x :=
      fun x hx => h1 x (List.mem_cons_of_mem _ hx)
    generalize sourceMetrics ops inp 1 first = a
    clear h1 hs hf hout
    induction rest generalizing a with
    | nil => rfl
    | cons y ys ih =>
      rw [List.foldl_cons, List.foldl_cons, h2 y List.mem_cons_self]
      exact ih (fun x hx => h2 x (List.mem_cons_of_mem _ hx)) _
  have hloop : ∀ left s, metricLoop ops inp first rest left s = .fail := by
    intro left
    induction left with
    | zero => intro s; rfl
    | succ n ih =>
      intro s
      rw [metricLoop, if_neg (by rw [hc]; decide), hsame]
      dsimp only
      split
      · exact ih _
      split
      · exact ih _
      · rename_i a b
        exact absurd ⟨not_lt.1 b, not_lt.1 a⟩ hout
  unfold generateMetrics
  split
  · rfl
  split
  · rfl
  rw [hs]
  exact hloop 100 1
end

/-- Numbers in place of metrics, each asking for as many elements as it says. -/
def numberOps : MetricOps ℚ ℚ where
  scale := fun s m => s * m
  clamp := fun lo hi m => min (max m lo) hi
  inter := max
  finish := id
  count := id
  factor := fun n target => target / n

/-- One source asking for thousand elements, to be limited to between ten and hundred. -/
def thousandInput : MetricInput ℚ ℚ where
  sources := [⟨1000, true⟩]
  limitLengths := false
  minLength := 0
  maxLength := 0
  limitCount := true
  minCount := 10
  maxCount := 100
  overRelaxation := 11 / 10

/-- If only the number of elements is limited, the lengths should not matter; but if they are not in
order nothing is generated. -/
theorem C81_lengths_refuted :
    generateMetrics numberOps thousandInput = .ok (1000 / 11) ∧
    thousandInput.limitLengths = false ∧
    generateMetrics numberOps { thousandInput with minLength := 1 / 10 } = .fail := by
  refine ⟨?_, rfl, ?_⟩ <;> decide +kernel

/-- A tag of real numbers on vertices that has as many components as a derivative of order zero, one
or two is turned into second derivatives at vertices by operations each of which can be done on
what the one before gives; any other tag on vertices, and no tag, is refused. In one dimension a
tag with one component is of order zero. -/
theorem C81_derivative_partial (dim : Nat) (hd : 1 ≤ dim) (elemTag : Option DerivTag) :
    (∀ (n k : Nat), derivComps dim k = some n → (dim = 1 → k = 0) →
      ∃ ops, derivSteps dim (some ⟨true, n⟩) elemTag = .ok ops ∧
        derivRun ops ⟨true, k⟩ = some ⟨true, 2⟩) ∧
    (∀ t : DerivTag, (t.isReal = false ∨ ∀ k, derivComps dim k ≠ some t.ncomps) →
      derivSteps dim (some t) elemTag = .fail) ∧
    derivSteps dim none none = .fail := by
  have hsym : symmNcomps dim = dim * (dim + 1) / 2 := by unfold symmNcomps; rw [Nat.mul_comm]
  refine ⟨fun n k h h1 => ?_, fun t h => ?_, rfl⟩
  · have hbig : dim ≠ 1 → dim < dim * (dim + 1) / 2 := by
      intro hne
      have h3 : dim * 3 ≤ dim * (dim + 1) := Nat.mul_le_mul_left _ (by omega)
      omega
    match k, h, h1 with
    | 0, h, _ =>
      cases h
      exact ⟨_, by rw [derivSteps, if_pos rfl, if_pos rfl], rfl⟩
    | 1, h, h1 =>
      cases h
      have hne : dim ≠ 1 := fun e => absurd (h1 e) (by decide)
      exact ⟨_, by rw [derivSteps, if_pos rfl, if_neg hne, if_pos rfl], rfl⟩
    | 2, h, h1 =>
      cases h
      have hne : dim ≠ 1 := fun e => absurd (h1 e) (by decide)
      have := hbig hne
      exact ⟨[], by
        rw [derivSteps, if_pos rfl, if_neg (by dsimp only; omega), if_neg (by dsimp only; omega),
          if_pos hsym.symm], rfl⟩
  · rw [derivSteps]
    by_cases hr : t.isReal = true
    · rcases h with h | h
      · rw [hr] at h; cases h
      · rw [if_pos hr, if_neg fun e => h 0 (by rw [e]; rfl), if_neg fun e => h 1 (by rw [e]; rfl),
          if_neg fun e => h 2 (by rw [e, hsym]; rfl)]
    · rw [if_neg hr]

/-- A tag on elements only is never turned into second derivatives, although one of gradients or
second derivatives could be. -/
theorem C81_derivative_refuted (dim : Nat) :
    (∀ t, derivSteps dim none (some t) = .fail) ∧
    derivRun [.project, .hessians, .project] ⟨false, 1⟩ = some ⟨true, 2⟩ ∧
    derivRun [.project] ⟨false, 2⟩ = some ⟨true, 2⟩ :=
  ⟨fun _ => rfl, rfl, rfl⟩

/-! ### The hypotheses are met -/

example : generateMetrics numberOps { thousandInput with limitCount := false } = .ok 1000 := by
  decide +kernel
example : generateMetrics numberOps
    { thousandInput with sources := [⟨1000, true⟩, ⟨20, false⟩, ⟨700, true⟩] } =
      .ok (1000 / 11) := by decide +kernel
example : generateMetrics numberOps { thousandInput with sources := [⟨2, true⟩] } = .ok 11 := by
  decide +kernel
example : generateMetrics numberOps { thousandInput with sources := [⟨1000, false⟩] } = .fail := by
  decide +kernel
example : ∀ a b : ℚ, a ≤ numberOps.inter a b ∧ b ≤ numberOps.inter a b :=
  fun a b => ⟨le_max_left a b, le_max_right a b⟩
example : derivSteps 3 (some ⟨true, 6⟩) none = .ok [] := by decide
example : derivComps 3 2 = some 6 := by decide

end OmegaH
