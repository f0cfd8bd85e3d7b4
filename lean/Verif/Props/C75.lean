import Verif.Spec.AdaptDriver
import Mathlib.Data.Nat.Basic
/-!
# C75: adapting goes on until nothing more can be done, and declines exactly what is as desired
-/
namespace OmegaH
open Spec
variable {S K : Type} [LinearOrder K]

theorem adaptDone_iff (o : AdaptLimits K) (p : AdaptParts S K) (s : S) : adaptDone o p s = true ↔ AsDesired o p s := by
  unfold adaptDone AsDesired
  simp only [Bool.and_eq_true, decide_eq_true_eq, and_assoc]

theorem validOpts_iff (zero one : K) (o : AdaptLimits K) : validOpts zero one o = true ↔ SensibleOpts zero one o := by
  unfold validOpts SensibleOpts
  simp only [Bool.and_eq_true, decide_eq_true_eq, and_assoc]

omit [LinearOrder K] in
theorem lengths_spec (o : AdaptLimits K) (p : AdaptParts S K) (hr : IdleKeeps p.refine) (hc : IdleKeeps p.coarsen) :
    ∀ (n : Nat) (s s' : S), satisfyLengths o p n s = some (.ok s') →
      LengthPasses o p s s' ∧ NothingToDo o.shouldRefine p.refine s' ∧ NothingToDo o.shouldCoarsen p.coarsen s' := by
  intro n
  induction n with
  | zero => intro s s' h; cases h
  | succ n ih =>
    intro s s' h
    unfold satisfyLengths at h
    cases ht : lengthsTurn o p s with
    | fail => rw [ht] at h; cases h
    | ub => rw [ht] at h; cases h
    | ok x =>
      obtain ⟨t, b⟩ := x
      unfold lengthsTurn at ht
      obtain ⟨⟨s1, b1⟩, g1, g2⟩ := Res.bind_eq_ok.1 ht
      obtain ⟨⟨s2, b2⟩, g3, g4⟩ := Res.bind_eq_ok.1 g2
      have e := Res.ok.inj g4
      have e1 : s2 = t := congrArg Prod.fst e
      have e2 : (b1 || b2) = b := congrArg Prod.snd e
      subst e1
      have path : LengthPasses o p s2 s' → LengthPasses o p s s' := by
        intro hp
        have hp2 : LengthPasses o p s1 s' := by
          unfold optionalPass at g3
          split at g3
          · rename_i hon; exact .coarsen hon g3 hp
          · have := congrArg Prod.fst (Res.ok.inj g3)
            have : s1 = s2 := this
            rw [this]; exact hp
        unfold optionalPass at g1
        split at g1
        · rename_i hon; exact .refine hon g1 hp2
        · have := congrArg Prod.fst (Res.ok.inj g1)
          have : s = s1 := this
          rw [this]; exact hp2
      have ht' : lengthsTurn o p s = .ok (s2, b) := ht
      rw [ht'] at h
      cases b with
      | true =>
        obtain ⟨q1, q2⟩ := ih s2 s' h
        exact ⟨path q1, q2⟩
      | false =>
        have hs : s2 = s' := Res.ok.inj (Option.some.inj h)
        subst hs
        obtain ⟨rfl, rfl⟩ := Bool.or_eq_false_iff.1 e2
        have k1 : s1 = s := by
          unfold optionalPass at g1
          split at g1
          · exact hr _ _ g1
          · exact (congrArg Prod.fst (Res.ok.inj g1)).symm
        subst k1
        have k2 : s2 = s1 := by
          unfold optionalPass at g3
          split at g3
          · exact hc _ _ g3
          · exact (congrArg Prod.fst (Res.ok.inj g3)).symm
        subst k2
        refine ⟨path (.none _), ?_, ?_⟩
        · intro hon; unfold optionalPass at g1; rw [if_pos hon] at g1; exact g1
        · intro hon; unfold optionalPass at g3; rw [if_pos hon] at g3; exact g3

theorem quality_spec (o : AdaptLimits K) (p : AdaptParts S K) (hw : IdleKeeps p.swap) (hl : IdleKeeps p.slivers) :
    ∀ (n : Nat) (s s' : S) (b : Bool), p.quality s < o.minQualityDesired → qualityLoop o p n s = some (.ok (s', b)) →
      QualityPasses o p s s' ∧ (b = true → o.minQualityDesired ≤ p.quality s') ∧
      (b = false → p.quality s' < o.minQualityDesired ∧ NothingToDo o.shouldSwap p.swap s' ∧ NothingToDo o.shouldCoarsenSlivers p.slivers s') := by
  intro n
  induction n with
  | zero => intro s s' b _ h; cases h
  | succ n ih =>
    intro s s' b hlow h
    unfold qualityLoop at h
    cases ht : qualityTurn o p s with
    | fail => rw [ht] at h; cases h
    | ub => rw [ht] at h; cases h
    | ok x =>
      obtain ⟨t, c⟩ := x
      rw [ht] at h
      unfold qualityTurn at ht
      obtain ⟨⟨s1, b1⟩, g1, g2⟩ := Res.bind_eq_ok.1 ht
      cases c with
      | true =>
        have path : QualityPasses o p t s' → QualityPasses o p s s' := by
          intro hp
          cases b1 with
          | true =>
            have e : s1 = t := congrArg Prod.fst (Res.ok.inj g2)
            subst e
            unfold optionalPass at g1
            split at g1
            · rename_i hon; exact .swap hlow hon g1 hp
            · exact absurd (congrArg Prod.snd (Res.ok.inj g1)) (by simp)
          | false =>
            have g2' : optionalPass o.shouldCoarsenSlivers p.slivers s1 = .ok (t, true) := g2
            unfold optionalPass at g2' g1
            split at g2'
            · rename_i hon
              refine .slivers (r := s1) hlow ?_ hon g2' hp
              split at g1
              · rename_i hon2; rw [if_pos hon2]; exact g1
              · rename_i hon2; rw [if_neg hon2]; exact (congrArg Prod.fst (Res.ok.inj g1)).symm
            · exact absurd (congrArg Prod.snd (Res.ok.inj g2')) (by simp)
        have h' : (if p.quality t < o.minQualityDesired then qualityLoop o p n t else some (.ok (t, true))) = some (.ok (s', b)) := h
        by_cases hq : p.quality t < o.minQualityDesired
        · rw [if_pos hq] at h'
          obtain ⟨q1, q2⟩ := ih t s' b hq h'
          exact ⟨path q1, q2⟩
        · rw [if_neg hq] at h'
          have e := Res.ok.inj (Option.some.inj h')
          have e1 : t = s' := congrArg Prod.fst e
          have e2 : true = b := congrArg Prod.snd e
          subst e1 e2
          exact ⟨path (.none _), fun _ => not_lt.1 hq, fun hb => by cases hb⟩
      | false =>
        have e := Res.ok.inj (Option.some.inj h)
        have e1 : t = s' := congrArg Prod.fst e
        have e2 : false = b := congrArg Prod.snd e
        subst e1 e2
        cases b1 with
        | true => exact absurd (congrArg Prod.snd (Res.ok.inj g2)) (by simp)
        | false =>
          have g2' : optionalPass o.shouldCoarsenSlivers p.slivers s1 = .ok (t, false) := g2
          have k1 : s1 = s := by
            unfold optionalPass at g1
            split at g1
            · exact hw _ _ g1
            · exact (congrArg Prod.fst (Res.ok.inj g1)).symm
          subst k1
          have k2 : t = s1 := by
            unfold optionalPass at g2'
            split at g2'
            · exact hl _ _ g2'
            · exact (congrArg Prod.fst (Res.ok.inj g2')).symm
          subst k2
          refine ⟨.none _, fun hb => (by cases hb), fun _ => ⟨hlow, ?_, ?_⟩⟩
          · intro hon; unfold optionalPass at g1; rw [if_pos hon] at g1; exact g1
          · intro hon; unfold optionalPass at g2'; rw [if_pos hon] at g2'; exact g2'

/-- Adapting declines exactly a mesh that is as desired, and leaves it alone. It fails at the start exactly if the mesh is not of
simplices, the options make no sense or a field to be carried over is missing. -/
theorem C75_declines (zero one : K) (o : AdaptLimits K) (p : AdaptParts S K) (n : Nat) (s : S) :
    (∀ s', adapt zero one o p n s = some (.ok (s', false)) ↔
      s' = s ∧ p.simplices s = true ∧ SensibleOpts zero one o ∧ p.fieldsThere s = true ∧ AsDesired o p s) ∧
    (¬ (p.simplices s = true ∧ SensibleOpts zero one o ∧ p.fieldsThere s = true) → adapt zero one o p n s = some .fail) := by
  have hrun : adaptRun o p n s = adaptRun o p n s := rfl
  unfold adapt preAdapt
  rw [← validOpts_iff, ← adaptDone_iff]
  cases p.simplices s <;> cases validOpts zero one o <;> cases p.fieldsThere s <;> cases adaptDone o p s <;> simp
  · cases adaptRun o p n s with
    | none => simp
    | some r => cases r <;> simp
  · intro s'; exact eq_comm

/-- Whatever else: if adapting ends and says that it adapted, the mesh was not as desired; it is the result of passes for length, after
which neither refining nor coarsening has anything to do, followed by passes for quality, made only while the quality is below the desired
one, after which the quality is as desired or neither swapping nor coarsening slivers has anything to do. -/
theorem C75_adapted (zero one : K) (o : AdaptLimits K) (p : AdaptParts S K) (hr : IdleKeeps p.refine) (hc : IdleKeeps p.coarsen)
    (hw : IdleKeeps p.swap) (hl : IdleKeeps p.slivers) {n : Nat} {s s' : S} (h : adapt zero one o p n s = some (.ok (s', true))) :
    ¬ AsDesired o p s ∧ ∃ s0 s1 s2 s3, p.setup s = .ok s0 ∧ LengthPasses o p s0 s1 ∧
      NothingToDo o.shouldRefine p.refine s1 ∧ NothingToDo o.shouldCoarsen p.coarsen s1 ∧
      QualityPasses o p s1 s2 ∧
      (o.minQualityDesired ≤ p.quality s2 ∨
        (p.quality s2 < o.minQualityDesired ∧ NothingToDo o.shouldSwap p.swap s2 ∧ NothingToDo o.shouldCoarsenSlivers p.slivers s2)) ∧
      (o.minQualityDesired ≤ p.quality s1 → s2 = s1) ∧
      p.correct s2 = .ok s3 ∧ p.elemBased s3 = .ok s' := by
  unfold adapt at h
  split at h
  · cases hp : preAdapt zero one o p s with
    | fail => rw [hp] at h; cases h
    | ub => rw [hp] at h; cases h
    | ok b =>
      rw [hp] at h
      cases b with
      | false => exact absurd (congrArg Prod.snd (Res.ok.inj (Option.some.inj h))) (by simp)
      | true =>
        have hnot : ¬ AsDesired o p s := by
          unfold preAdapt at hp
          split at hp
          · split at hp
            · have := Res.ok.inj hp
              rw [← adaptDone_iff]
              intro hx
              rw [hx] at this
              cases this
            · cases hp
          · cases hp
        refine ⟨hnot, ?_⟩
        have h' : (adaptRun o p n s).map (fun r => r.bind (fun s' => .ok (s', true))) = some (.ok (s', true)) := h
        obtain ⟨r, g1, g2⟩ := Option.map_eq_some_iff.1 h'
        obtain ⟨sf, rfl, g3⟩ := Res.bind_eq_ok.1 g2
        have e : sf = s' := congrArg Prod.fst (Res.ok.inj g3)
        subst e
        unfold adaptRun at g1
        cases h0 : p.setup s with
        | fail => rw [h0] at g1; cases g1
        | ub => rw [h0] at g1; cases g1
        | ok s0 =>
          rw [h0] at g1
          cases h1 : satisfyLengths o p n s0 with
          | none => simp only [h1] at g1; cases g1
          | some r1 =>
            cases r1 with
            | fail => simp only [h1] at g1; cases g1
            | ub => simp only [h1] at g1; cases g1
            | ok s1 =>
              simp only [h1] at g1
              cases h2 : satisfyQuality o p n s1 with
              | none => simp only [h2] at g1; cases g1
              | some r2 =>
                cases r2 with
                | fail => simp only [h2] at g1; cases g1
                | ub => simp only [h2] at g1; cases g1
                | ok x =>
                  obtain ⟨s2, b⟩ := x
                  simp only [h2] at g1
                  obtain ⟨s3, g4, g5⟩ := Res.bind_eq_ok.1 (Option.some.inj g1)
                  obtain ⟨l1, l2, l3⟩ := lengths_spec o p hr hc n s0 s1 h1
                  unfold satisfyQuality at h2
                  split at h2
                  · rename_i hq
                    have e : s1 = s2 := congrArg Prod.fst (Res.ok.inj (Option.some.inj h2))
                    subst e
                    exact ⟨s0, s1, s1, s3, rfl, l1, l2, l3, .none _, Or.inl hq, fun _ => rfl, g4, g5⟩
                  · rename_i hq
                    obtain ⟨q1, q2, q3⟩ := quality_spec o p hw hl n s1 s2 b (not_le.1 hq) h2
                    refine ⟨s0, s1, s2, s3, rfl, l1, l2, l3, q1, ?_, fun hx => absurd hx hq, g4, g5⟩
                    cases b with
                    | true => exact Or.inl (q2 rfl)
                    | false => exact Or.inr (q3 rfl)
  · cases h

omit [LinearOrder K] in
theorem lengthPasses_keep {o : AdaptLimits K} {p : AdaptParts S K} {P : S → Prop} (h1 : PassKeeps P p.refine) (h2 : PassKeeps P p.coarsen)
    {s t : S} (h : LengthPasses o p s t) : P s → P t := by
  induction h with
  | none => exact id
  | refine _ hr _ ih => exact fun hs => ih (h1 _ _ _ hs hr)
  | coarsen _ hr _ ih => exact fun hs => ih (h2 _ _ _ hs hr)

theorem qualityPasses_keep {o : AdaptLimits K} {p : AdaptParts S K} {P : S → Prop} (h1 : PassKeeps P p.swap) (h2 : PassKeeps P p.slivers)
    {s t : S} (h : QualityPasses o p s t) : P s → P t := by
  induction h with
  | none => exact id
  | swap _ _ hr _ ih => exact fun hs => ih (h1 _ _ _ hs hr)
  | @slivers s r s' t _ hr _ hl _ ih =>
    intro hs
    refine ih (h2 _ _ _ ?_ hl)
    split at hr
    · exact h1 _ _ _ hs hr
    · rw [hr]; exact hs

/-- What every pass keeps, adapting keeps: for example the volume of every region, the classification, or that no element is worse
than both the allowed quality and the worst element at the start. -/
theorem C75_keeps (zero one : K) (o : AdaptLimits K) (p : AdaptParts S K) (hr : IdleKeeps p.refine) (hc : IdleKeeps p.coarsen)
    (hw : IdleKeeps p.swap) (hl : IdleKeeps p.slivers) (P : S → Prop) (h1 : PassKeeps P p.refine) (h2 : PassKeeps P p.coarsen)
    (h3 : PassKeeps P p.swap) (h4 : PassKeeps P p.slivers) (h5 : ∀ s s', P s → p.setup s = .ok s' → P s')
    (h6 : ∀ s s', P s → p.correct s = .ok s' → P s') (h7 : ∀ s s', P s → p.elemBased s = .ok s' → P s')
    {n : Nat} {s s' : S} {b : Bool} (hs : P s) (h : adapt zero one o p n s = some (.ok (s', b))) : P s' := by
  cases b with
  | false =>
    obtain ⟨rfl, _⟩ := ((C75_declines zero one o p n s).1 s').1 h
    exact hs
  | true =>
    obtain ⟨_, s0, s1, s2, s3, e0, e1, _, _, e2, _, _, e3, e4⟩ := C75_adapted zero one o p hr hc hw hl h
    exact h7 _ _ (h6 _ _ (qualityPasses_keep h3 h4 e2 (lengthPasses_keep h1 h2 e1 (h5 _ _ hs e0))) e3) e4

/-- If every pass that does something makes a number smaller, and none makes it greater, adapting ends. -/
theorem C75_ends (zero one : K) (o : AdaptLimits K) (p : AdaptParts S K) (cost : S → Nat)
    (h1 : ∀ s s' b, p.refine s = .ok (s', b) → cost s' ≤ cost s ∧ (b = true → cost s' < cost s))
    (h2 : ∀ s s' b, p.coarsen s = .ok (s', b) → cost s' ≤ cost s ∧ (b = true → cost s' < cost s))
    (h3 : ∀ s s' b, p.swap s = .ok (s', b) → cost s' ≤ cost s ∧ (b = true → cost s' < cost s))
    (h4 : ∀ s s' b, p.slivers s = .ok (s', b) → cost s' ≤ cost s ∧ (b = true → cost s' < cost s)) (s : S) :
    ∃ N, ∀ n, N ≤ n → ∃ r, adapt zero one o p n s = some r := by
  have opt : ∀ (on : Bool) (f : S → Res (S × Bool)),
      (∀ s s' b, f s = .ok (s', b) → cost s' ≤ cost s ∧ (b = true → cost s' < cost s)) →
      ∀ s s' b, optionalPass on f s = .ok (s', b) → cost s' ≤ cost s ∧ (b = true → cost s' < cost s) := by
    intro on f hf s s' b hx
    unfold optionalPass at hx
    split at hx
    · exact hf _ _ _ hx
    · have e := Res.ok.inj hx
      have e1 : s = s' := congrArg Prod.fst e
      have e2 : false = b := congrArg Prod.snd e
      subst e1 e2
      exact ⟨Nat.le_refl _, fun hb => by cases hb⟩
  have lturn : ∀ s s' b, lengthsTurn o p s = .ok (s', b) → cost s' ≤ cost s ∧ (b = true → cost s' < cost s) := by
    intro s s' b hx
    unfold lengthsTurn at hx
    obtain ⟨⟨s1, b1⟩, g1, g2⟩ := Res.bind_eq_ok.1 hx
    obtain ⟨⟨s2, b2⟩, g3, g4⟩ := Res.bind_eq_ok.1 g2
    have e := Res.ok.inj g4
    have e1 : s2 = s' := congrArg Prod.fst e
    have e2 : (b1 || b2) = b := congrArg Prod.snd e
    subst e1 e2
    have A := opt _ _ h1 _ _ _ g1
    have B := opt _ _ h2 _ _ _ g3
    refine ⟨Nat.le_trans B.1 A.1, fun hb => ?_⟩
    rcases Bool.or_eq_true_iff.1 hb with hb | hb
    · exact Nat.lt_of_le_of_lt B.1 (A.2 hb)
    · exact Nat.lt_of_lt_of_le (B.2 hb) A.1
  have qturn : ∀ s s' b, qualityTurn o p s = .ok (s', b) → cost s' ≤ cost s ∧ (b = true → cost s' < cost s) := by
    intro s s' b hx
    unfold qualityTurn at hx
    obtain ⟨⟨s1, b1⟩, g1, g2⟩ := Res.bind_eq_ok.1 hx
    have A := opt _ _ h3 _ _ _ g1
    cases b1 with
    | true =>
      have e := Res.ok.inj g2
      have e1 : s1 = s' := congrArg Prod.fst e
      have e2 : true = b := congrArg Prod.snd e
      subst e1 e2
      exact A
    | false =>
      have B := opt _ _ h4 _ _ _ g2
      exact ⟨Nat.le_trans B.1 A.1, fun hb => Nat.lt_of_lt_of_le (B.2 hb) A.1⟩
  have lends : ∀ n s, cost s < n → ∃ r, satisfyLengths o p n s = some r ∧ ∀ s', r = .ok s' → cost s' ≤ cost s := by
    intro n
    induction n with
    | zero => intro s hs; omega
    | succ n ih =>
      intro s hs
      unfold satisfyLengths
      cases ht : lengthsTurn o p s with
      | fail => exact ⟨_, rfl, fun _ hx => by cases hx⟩
      | ub => exact ⟨_, rfl, fun _ hx => by cases hx⟩
      | ok x =>
        obtain ⟨t, b⟩ := x
        have A := lturn _ _ _ ht
        cases b with
        | true =>
          have := A.2 rfl
          obtain ⟨r, g1, g2⟩ := ih t (by omega)
          exact ⟨r, g1, fun s' hx => Nat.le_trans (g2 s' hx) A.1⟩
        | false => exact ⟨_, rfl, fun s' hx => by obtain rfl := Res.ok.inj hx; exact A.1⟩
  have qends : ∀ n s, cost s < n → ∃ r, qualityLoop o p n s = some r := by
    intro n
    induction n with
    | zero => intro s hs; omega
    | succ n ih =>
      intro s hs
      unfold qualityLoop
      cases ht : qualityTurn o p s with
      | fail => exact ⟨_, rfl⟩
      | ub => exact ⟨_, rfl⟩
      | ok x =>
        obtain ⟨t, b⟩ := x
        have A := qturn _ _ _ ht
        cases b with
        | true =>
          have := A.2 rfl
          by_cases hq : p.quality t < o.minQualityDesired
          · obtain ⟨r, g⟩ := ih t (by omega)
            exact ⟨r, by simp only [if_pos hq]; exact g⟩
          · exact ⟨.ok (t, true), by simp only [if_neg hq]⟩
        | false => exact ⟨_, rfl⟩
  have run : ∃ N, ∀ n, N ≤ n → ∃ r, adaptRun o p n s = some r := by
    cases h0 : p.setup s with
    | fail => exact ⟨0, fun n _ => ⟨.fail, by unfold adaptRun; rw [h0]⟩⟩
    | ub => exact ⟨0, fun n _ => ⟨.ub, by unfold adaptRun; rw [h0]⟩⟩
    | ok s0 =>
      refine ⟨cost s0 + 1, fun n hn => ?_⟩
      obtain ⟨r, g1, g2⟩ := lends n s0 (by omega)
      unfold adaptRun
      simp only [h0, g1]
      cases r with
      | fail => exact ⟨_, rfl⟩
      | ub => exact ⟨_, rfl⟩
      | ok s1 =>
        have hc1 := g2 s1 rfl
        have : ∃ r, satisfyQuality o p n s1 = some r := by
          unfold satisfyQuality
          split
          · exact ⟨_, rfl⟩
          · exact qends n s1 (by omega)
        obtain ⟨r, hr⟩ := this
        simp only [hr]
        cases r with
        | fail => exact ⟨_, rfl⟩
        | ub => exact ⟨_, rfl⟩
        | ok x => exact ⟨_, rfl⟩
  obtain ⟨N, hN⟩ := run
  refine ⟨N, fun n hn => ?_⟩
  obtain ⟨r, hr⟩ := hN n hn
  unfold adapt
  split
  · cases preAdapt zero one o p s with
    | fail => exact ⟨_, rfl⟩
    | ub => exact ⟨_, rfl⟩
    | ok b =>
      cases b with
      | true => exact ⟨_, by rw [hr]; rfl⟩
      | false => exact ⟨_, rfl⟩
  · exact ⟨_, rfl⟩

/-! ## Concrete cases -/

/-- A mesh of which only the longest edge and the worst quality are known. -/
structure ToyMesh where
  long : Nat
  qual : Nat
deriving DecidableEq, Repr

/-- Refining halves the longest edge; swapping adds one to the quality up to a limit and makes the longest edge longer. -/
def toyParts (limit : Nat) : AdaptParts ToyMesh Nat where
  simplices := fun _ => true
  fieldsThere := fun _ => true
  quality := fun s => s.qual
  shortest := fun s => s.long
  longest := fun s => s.long
  refine := fun s => if 4 < s.long then .ok (⟨s.long / 2, s.qual⟩, true) else .ok (s, false)
  coarsen := fun s => .ok (s, false)
  swap := fun s => if s.qual < limit then .ok (⟨s.long + 1, s.qual + 1⟩, true) else .ok (s, false)
  slivers := fun s => .ok (s, false)
  setup := .ok
  correct := .ok
  elemBased := .ok

def toyLimits : AdaptLimits Nat := ⟨1, 3, 1, 4, 4, true, true, true, true⟩

theorem toy_idle (limit : Nat) : IdleKeeps (toyParts limit).refine ∧ IdleKeeps (toyParts limit).coarsen ∧ IdleKeeps (toyParts limit).swap ∧
    IdleKeeps (toyParts limit).slivers := by
  refine ⟨?_, ?_, ?_, ?_⟩ <;> intro s s' h
  · simp only [toyParts] at h
    split at h
    · exact absurd (congrArg Prod.snd (Res.ok.inj h)) (by simp)
    · exact (congrArg Prod.fst (Res.ok.inj h)).symm
  · exact (congrArg Prod.fst (Res.ok.inj h)).symm
  · simp only [toyParts] at h
    split at h
    · exact absurd (congrArg Prod.snd (Res.ok.inj h)) (by simp)
    · exact (congrArg Prod.fst (Res.ok.inj h)).symm
  · exact (congrArg Prod.fst (Res.ok.inj h)).symm

/-- Non-vacuity of `C75_adapted` and `C75_keeps`: two refinements, then two swaps; and a limit that is never reached. -/
example : adapt 0 10 toyLimits (toyParts 9) 5 ⟨12, 1⟩ = some (.ok (⟨5, 3⟩, true)) ∧
    adapt 0 10 toyLimits (toyParts 2) 5 ⟨12, 1⟩ = some (.ok (⟨4, 2⟩, true)) ∧
    adapt 0 10 toyLimits (toyParts 9) 5 ⟨4, 3⟩ = some (.ok (⟨4, 3⟩, false)) ∧
    adapt 0 2 toyLimits (toyParts 9) 5 ⟨4, 3⟩ = some .fail := by decide

/-- Non-vacuity of `C75_ends`: the longest edge and twice the quality that is still missing go down together. -/
example : ∃ N, ∀ n, N ≤ n → ∃ r, adapt 0 10 toyLimits (toyParts 9) n ⟨12, 1⟩ = some r := by
  refine C75_ends 0 10 toyLimits (toyParts 9) (fun s => s.long + 2 * (9 - s.qual)) ?_ ?_ ?_ ?_ _
  · intro s s' b h
    simp only [toyParts] at h
    split at h
    · have e := Res.ok.inj h
      have e1 := congrArg Prod.fst e
      dsimp only at e1
      subst e1
      refine ⟨?_, fun _ => ?_⟩ <;> dsimp only <;> omega
    · have e := Res.ok.inj h
      have e1 : s = s' := congrArg Prod.fst e
      have e2 : false = b := congrArg Prod.snd e
      subst e1 e2
      exact ⟨Nat.le_refl _, fun hb => by cases hb⟩
  · intro s s' b h
    have e := Res.ok.inj h
    have e1 : s = s' := congrArg Prod.fst e
    have e2 : false = b := congrArg Prod.snd e
    subst e1 e2
    exact ⟨Nat.le_refl _, fun hb => by cases hb⟩
  · intro s s' b h
    simp only [toyParts] at h
    split at h
    · have e := Res.ok.inj h
      have e1 := congrArg Prod.fst e
      dsimp only at e1
      subst e1
      refine ⟨?_, fun _ => ?_⟩ <;> dsimp only <;> omega
    · have e := Res.ok.inj h
      have e1 : s = s' := congrArg Prod.fst e
      have e2 : false = b := congrArg Prod.snd e
      subst e1 e2
      exact ⟨Nat.le_refl _, fun hb => by cases hb⟩
  · intro s s' b h
    have e := Res.ok.inj h
    have e1 : s = s' := congrArg Prod.fst e
    have e2 : false = b := congrArg Prod.snd e
    subst e1 e2
    exact ⟨Nat.le_refl _, fun hb => by cases hb⟩

/-- A user would expect that an adapted mesh need not be adapted again. It is false, although every pass does what it should and the
desired quality is reached: lengths are not looked at again after the passes for quality: src/Omega_h_adapt.cpp:280-283. -/
theorem C75_again_refuted : ¬ ∀ (o : AdaptLimits Nat) (p : AdaptParts ToyMesh Nat) (n : Nat) (s s' : ToyMesh), IdleKeeps p.refine →
    IdleKeeps p.coarsen → IdleKeeps p.swap → IdleKeeps p.slivers → adapt 0 10 o p n s = some (.ok (s', true)) →
    o.minQualityDesired ≤ p.quality s' → NothingToDo o.shouldRefine p.refine s' := by
  intro h
  have hx := h toyLimits (toyParts 9) 5 ⟨12, 1⟩ ⟨5, 3⟩ (toy_idle 9).1 (toy_idle 9).2.1 (toy_idle 9).2.2.1 (toy_idle 9).2.2.2 (by decide) (by decide)
  exact absurd (hx rfl) (by decide)

/-- The comment on `adapt` says that it returns false if the mesh was not modified: src/Omega_h_adapt.hpp:81. It is false: if the mesh is
not as desired but no pass can do anything, it returns true. -/
theorem C75_unmodified_refuted : ¬ ∀ (o : AdaptLimits Nat) (p : AdaptParts ToyMesh Nat) (n : Nat) (s : ToyMesh) (b : Bool),
    adapt 0 10 o p n s = some (.ok (s, b)) → b = false := by
  intro h
  have := h toyLimits (toyParts 0) 5 ⟨4, 2⟩ true (by decide)
  cases this

end OmegaH
