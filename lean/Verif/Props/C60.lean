import Verif.Lemmas.SwapWorld
import Mathlib.Algebra.Order.Ring.Rat
import Mathlib.Algebra.Order.Ring.Defs
/-!
# C60: an edge is swapped in the best allowed way, and only if that is an improvement
-/
namespace OmegaH
open Spec

section
variable {K : Type} [Ring K] [LinearOrder K]

theorem best3_unique {maxLength : K} {m : SwapRank K} {e : Nat} {c c' : Int} {q q' : K}
    (h : Best3 maxLength m e c q) (h' : Best3 maxLength m e c' q') : c = c' ∧ q = q' := by
  obtain ⟨k, rfl, a1, a2⟩ := h
  obtain ⟨k', rfl, b1, b2⟩ := h'
  rcases a2 k' q' b1 with h1 | ⟨h1, h2⟩
  · rcases b2 k q a1 with g1 | ⟨g1, g2⟩
    · exact absurd h1 (not_lt.2 g1.le)
    · exact absurd h1 (by rw [g1]; exact lt_irrefl _)
  · rcases b2 k q a1 with g1 | ⟨g1, g2⟩
    · exact absurd g1 (by rw [h1]; exact lt_irrefl _)
    · exact ⟨by omega, g1⟩

theorem best2_unique {maxLength : K} {m : SwapRank K} {e : Nat} {c c' : Int} {q q' : K}
    (h : Best2 maxLength m e c q) (h' : Best2 maxLength m e c' q') : c = c' ∧ q = q' := by
  obtain ⟨rfl, E, Q, ⟨codes, a1, a2⟩, _, a3⟩ := h
  obtain ⟨rfl, E', Q', ⟨codes', b1, b2⟩, _, b3⟩ := h'
  obtain rfl := Option.some.inj (a1.symm.trans b1)
  have hQ : Q = Q' := by
    have := (Prod.mk.inj (Option.some.inj (a2.symm.trans b2))).2
    refine List.map_injective_iff.2 ?_ this
    exact List.map_injective_iff.2 (fun _ _ h => Int.ofNat.inj h)
  subst hQ
  exact ⟨rfl, worstOf_unique a3 b3⟩

/-- Where tets go all the way around an edge, the choice made for it alone is the best of its allowed configurations, the
first of equally good ones; configuration -1 says that there is none. -/
theorem C60_choice (h01 : (0 : K) ≤ 1) (maxLength : K) (m : SwapRank K) (e : Nat) (h : Inside3 m e) :
    ∃ c x, swapMeasure3 maxLength m e = some (c, x) ∧
      (∀ c' q, c ≠ -1 → (Best3 maxLength m e c' q ↔ c' = c ∧ q = x)) ∧ (c ≠ -1 → Best3 maxLength m e c x) ∧
      (c = -1 ↔ ∀ k q, ¬ Allowed3 maxLength m e k q) := by
  obtain ⟨c, x, h1, h2⟩ := swapMeasure3_spec h01 maxLength m e h
  refine ⟨c, x, h1, ?_, ?_, ?_⟩
  · intro c' q hc
    rcases h2 with ⟨hc', _⟩ | hb
    · exact absurd hc' hc
    · constructor
      · intro hb'; exact best3_unique hb' hb
      · rintro ⟨rfl, rfl⟩; exact hb
  · intro hc
    rcases h2 with ⟨hc', _⟩ | hb
    · exact absurd hc' hc
    · exact hb
  · rcases h2 with ⟨hc', _, hno⟩ | hb
    · exact ⟨fun _ => hno, fun _ => hc'⟩
    · obtain ⟨k, rfl, ha, _⟩ := hb
      exact ⟨fun hc => absurd hc (by omega), fun hno => absurd ha (hno k x)⟩

/-- From the values found on each rank to the edges that are swapped. -/
theorem swapGhosted_best {n : Nat} {shared : Bool} (W : SwapWorld K) (inside : SwapRank K → Nat → Prop)
    (best : SwapRank K → Nat → Int → K → Prop) (hW : W.Ok n shared inside)
    (hadj : ∀ r e, inside (W.rank r) e → ∃ L, AdjRow (W.rank r).up e L)
    (huniq : ∀ m e c c' q q', best m e c q → best m e c' q' → c = c' ∧ q = q')
    (s : Nat → Nat → Nat → Sched) (measure : SwapRank K → Nat → Option (Int × K)) (top : K)
    (hm : ∀ r e, r < n → e < (W.rank r).nedges → W.B r e → (W.owner r e).1 = r → ∃ c x, measure (W.rank r) e = some (c, x) ∧
      x ≤ top ∧ (((∀ c' y, ¬ best (W.rank r) e c' y) ∧ ∀ old, OldQuality (W.rank r) e old → x ≤ old) ∨ best (W.rank r) e c x)) :
    ∃ out, swapGhosted s (ownersArg n shared (fun r => (W.rank r).nedges) W.owner) (world n W.rank) measure top (world n W.marks) = some out ∧
      ((out = none ∧ ∀ r e c q, r < n → e < (W.rank r).nedges → ¬ W.Swaps best r e c q) ∨
       ∃ res, out = some (world n res) ∧ (∃ r e c q, r < n ∧ e < (W.rank r).nedges ∧ W.Swaps best r e c q) ∧
        ∀ r e, r < n → e < (W.rank r).nedges →
          (∀ c q, W.Swaps best r e c q → (res r).marks[e]? = some 1 ∧ (res r).quals[e]? = some q ∧ (res r).configs[e]? = some c) ∧
          ((∀ c q, ¬ W.Swaps best r e c q) → (res r).marks[e]? = some 0)) := by
  classical
  have hex : ∀ r e, ∃ v : Int × K, r < n → e < (W.rank r).nedges → W.B r e → (W.owner r e).1 = r → measure (W.rank r) e = some v ∧
      v.2 ≤ top ∧ (((∀ c' y, ¬ best (W.rank r) e c' y) ∧ ∀ old, OldQuality (W.rank r) e old → v.2 ≤ old) ∨ best (W.rank r) e v.1 v.2) := by
    intro r e
    by_cases h : r < n ∧ e < (W.rank r).nedges ∧ W.B r e ∧ (W.owner r e).1 = r
    · obtain ⟨c, x, h1⟩ := hm r e h.1 h.2.1 h.2.2.1 h.2.2.2
      exact ⟨(c, x), fun _ _ _ _ => h1⟩
    · exact ⟨(0, 0), fun a b c d => absurd ⟨a, b, c, d⟩ h⟩
  choose val hval using hex
  have key : ∀ r e, r < n → e < (W.rank r).nedges → ∀ c q, W.Swaps best r e c q ↔
      (W.B r e ∧ ∃ old, OldQuality (W.rank (W.owner r e).1) (W.owner r e).2 old ∧ old < (val (W.owner r e).1 (W.owner r e).2).2) ∧
        c = (val (W.owner r e).1 (W.owner r e).2).1 ∧ q = (val (W.owner r e).1 (W.owner r e).2).2 := by
    intro r e hr he c q
    obtain ⟨u1, u2, u3⟩ := hW.owners.valid r e hr he
    constructor
    · rintro ⟨hB, hb, old, ho, hlt⟩
      obtain ⟨_, _, h3⟩ := hval _ _ u1 u2 ((hW.agree r e hr he).1 hB) (by rw [u3])
      rcases h3 with ⟨hno, _⟩ | hb'
      · exact absurd hb (hno c q)
      · obtain ⟨rfl, rfl⟩ := huniq _ _ _ _ _ _ hb hb'
        exact ⟨⟨hB, old, ho, hlt⟩, rfl, rfl⟩
    · rintro ⟨⟨hB, old, ho, hlt⟩, rfl, rfl⟩
      obtain ⟨_, _, h3⟩ := hval _ _ u1 u2 ((hW.agree r e hr he).1 hB) (by rw [u3])
      rcases h3 with ⟨_, hle⟩ | hb'
      · exact absurd hlt (not_lt.2 (hle old ho))
      · exact ⟨hB, hb', old, ho, hlt⟩
  obtain ⟨out, o1, o2⟩ := swapGhosted_spec W inside hW hadj s measure top val
    (fun r e a b c d => (hval r e a b c d).1) (fun r e a b c d => (hval r e a b c d).2.1) _ (fun _ _ => Iff.rfl)
  refine ⟨out, o1, ?_⟩
  rcases o2 with ⟨h1, h2⟩ | ⟨res, h1, ⟨r0, e0, hr0, he0, hA⟩, h3⟩
  · refine Or.inl ⟨h1, ?_⟩
    intro r e c q hr he hsw
    exact h2 r e hr he ((key r e hr he c q).1 hsw).1
  · refine Or.inr ⟨res, h1, ⟨r0, e0, _, _, hr0, he0, (key r0 e0 hr0 he0 _ _).2 ⟨hA, rfl, rfl⟩⟩, ?_⟩
    intro r e hr he
    obtain ⟨g1, g2⟩ := h3 r e hr he
    constructor
    · intro c q hsw
      obtain ⟨k1, rfl, rfl⟩ := (key r e hr he c q).1 hsw
      exact g1 k1
    · intro hno
      refine g2 ?_
      intro hA'
      exact hno _ _ ((key r e hr he _ _).2 ⟨hA', rfl, rfl⟩)

/-- Tets: on every rank exactly the edges are picked that are offered and have, where they are owned, an allowed configuration
better than the worst element around them; they get the best such configuration and its quality. Missing: edges that have no
allowed configuration and an inverted element around them, see `C60_inverted_refuted`. -/
theorem C60_swap3d_partial [IsStrictOrderedRing K] (s : Nat → Nat → Nat → Sched) (W : SwapWorld K) (n : Nat) (shared : Bool)
    (maxLength top : K) (hW : W.Ok n shared Inside3) (htop : 1 ≤ top)
    (hold : ∀ r e, r < n → e < (W.rank r).nedges → W.B r e → (W.owner r e).1 = r →
      (∃ k q, Allowed3 maxLength (W.rank r) e k q) ∨ ∀ old, OldQuality (W.rank r) e old → 0 ≤ old) :
    ∃ out, swapGhosted s (ownersArg n shared (fun r => (W.rank r).nedges) W.owner) (world n W.rank) (swapMeasure3 maxLength) top
        (world n W.marks) = some out ∧
      ((out = none ∧ ∀ r e c q, r < n → e < (W.rank r).nedges → ¬ W.Swaps (Best3 maxLength) r e c q) ∨
       ∃ res, out = some (world n res) ∧ (∃ r e c q, r < n ∧ e < (W.rank r).nedges ∧ W.Swaps (Best3 maxLength) r e c q) ∧
        ∀ r e, r < n → e < (W.rank r).nedges →
          (∀ c q, W.Swaps (Best3 maxLength) r e c q →
            (res r).marks[e]? = some 1 ∧ (res r).quals[e]? = some q ∧ (res r).configs[e]? = some c) ∧
          ((∀ c q, ¬ W.Swaps (Best3 maxLength) r e c q) → (res r).marks[e]? = some 0)) := by
  have h01 : (0 : K) ≤ 1 := zero_le_one
  refine swapGhosted_best W Inside3 (Best3 maxLength) hW ?_ (fun m e c c' q q' => best3_unique) s _ top ?_
  · rintro r e ⟨_, _, _, L, hL, _⟩
    exact ⟨L, hL⟩
  · intro r e hr he hB ho
    obtain ⟨c, x, h1, h2⟩ := swapMeasure3_spec h01 maxLength _ e (hW.inside r e hr he hB ho)
    refine ⟨c, x, h1, ?_⟩
    rcases h2 with ⟨_, hx, hno⟩ | hb
    · have hx0 : x ≤ 0 := by
        rcases hx with rfl | rfl
        · exact le_refl _
        · exact neg_nonpos.2 h01
      refine ⟨hx0.trans (h01.trans htop), Or.inl ⟨?_, ?_⟩⟩
      · rintro c' y ⟨k, _, ha, _⟩
        exact hno k y ha
      · intro old hO
        rcases hold r e hr he hB ho with ⟨k, q, ha⟩ | h
        · exact absurd ha (hno k q)
        · exact hx0.trans (h old hO)
    · refine ⟨?_, Or.inr hb⟩
      obtain ⟨k, _, ⟨_, _, _, _, hw, _⟩, _⟩ := hb
      exact hw.2.1.trans htop

/-- The same for triangles, which have one configuration. Missing: edges whose swap makes an edge that is too long and that
have an element of quality below -1, see `C60_triangles_refuted`. -/
theorem C60_swap2d_partial [IsStrictOrderedRing K] (s : Nat → Nat → Nat → Sched) (W : SwapWorld K) (n : Nat) (shared : Bool)
    (maxLength top : K) (hW : W.Ok n shared Inside2) (htop : 1 ≤ top)
    (hold : ∀ r e, r < n → e < (W.rank r).nedges → W.B r e → (W.owner r e).1 = r →
      (∃ c q, Best2 maxLength (W.rank r) e c q) ∨ ∀ old, OldQuality (W.rank r) e old → -1 ≤ old) :
    ∃ out, swapGhosted s (ownersArg n shared (fun r => (W.rank r).nedges) W.owner) (world n W.rank) (swapMeasure2 maxLength) top
        (world n W.marks) = some out ∧
      ((out = none ∧ ∀ r e c q, r < n → e < (W.rank r).nedges → ¬ W.Swaps (Best2 maxLength) r e c q) ∨
       ∃ res, out = some (world n res) ∧ (∃ r e c q, r < n ∧ e < (W.rank r).nedges ∧ W.Swaps (Best2 maxLength) r e c q) ∧
        ∀ r e, r < n → e < (W.rank r).nedges →
          (∀ c q, W.Swaps (Best2 maxLength) r e c q →
            (res r).marks[e]? = some 1 ∧ (res r).quals[e]? = some q ∧ (res r).configs[e]? = some c) ∧
          ((∀ c q, ¬ W.Swaps (Best2 maxLength) r e c q) → (res r).marks[e]? = some 0)) := by
  have h01 : (0 : K) ≤ 1 := zero_le_one
  refine swapGhosted_best W Inside2 (Best2 maxLength) hW ?_ (fun m e c c' q q' => best2_unique) s _ top ?_
  · rintro r e ⟨_, _, _, _, _, _, _, _, _, _, hL, _⟩
    exact ⟨_, hL⟩
  · intro r e hr he hB ho
    obtain ⟨c, x, h1, h2⟩ := swapMeasure2_spec maxLength _ e (hW.inside r e hr he hB ho)
    refine ⟨c, x, h1, ?_⟩
    rcases h2 with ⟨_, rfl, hno⟩ | hb
    · refine ⟨(neg_nonpos.2 h01).trans (h01.trans htop), Or.inl ⟨hno, ?_⟩⟩
      intro old hO
      rcases hold r e hr he hB ho with ⟨c', q, ha⟩ | h
      · exact absurd ha (hno c' q)
      · exact h old hO
    · refine ⟨?_, Or.inr hb⟩
      obtain ⟨_, _, _, _, _, hw⟩ := hb
      exact hw.2.1.trans htop

end

/-! ## Concrete meshes -/

theorem fan_one (k : Nat) : IsFan [0, k] := by
  refine ⟨rfl, ?_⟩
  intro i lo hi h1 h2
  rcases i with _ | i
  · obtain rfl := Option.some.inj h1
    omega
  · simp at h2

/-- Four tets around edge 10-11, with given qualities and measures. -/
def ringRank (own : Nat) (quals : List ℚ) (lengthOf qualityOf : List Nat → Option ℚ) : SwapRank ℚ where
  nedges := 1
  ownerRanks := [own]
  up := ⟨[0, 4], [0, 1, 2, 3], some [40, 16, 2, 0]⟩
  ev2v := [10, 11]
  cv2v := [6, 7, 10, 11, 11, 4, 10, 5, 11, 10, 4, 7, 10, 11, 5, 6]
  elemQuals := quals
  lengthOf := lengthOf
  qualityOf := qualityOf

theorem ringRank_inside (own : Nat) (quals : List ℚ) (f g : List Nat → ℚ) :
    Inside3 (ringRank own quals (fun t => some (f t)) (fun t => some (g t))) 0 := by
  have st : ∀ (o r t : List Nat), o.Perm [0, 1, 2, 3] → inversions o % 2 = 0 → t.length = 4 →
      r.length = 4 → (∀ i, i < 4 → r[i]? = (o[i]?).bind (fun j => t[j]?)) → SameTet r t := by
    intro o r t h1 h2 h3 h4 h5
    refine ⟨o, h1, h2, h3, h4, ?_⟩
    intro i j hij
    have := (List.getElem?_eq_some_iff.1 hij).1
    rw [h1.length_eq] at this
    rw [h5 i this, hij]; rfl
  refine ⟨10, 11, [4, 5, 6, 7], [(0, 40), (1, 16), (2, 2), (3, 0)], ⟨_, 0, 4, rfl, rfl, rfl, rfl, ?_⟩, rfl, ?_, ?_,
    fun _ _ _ => rfl, fun _ _ _ => rfl⟩
  · intro j x hx
    rcases j with _ | _ | _ | _ | j
    all_goals first
      | (obtain rfl := Option.some.inj hx; exact ⟨rfl, rfl⟩)
      | simp at hx
  · intro x hx
    simp only [List.mem_cons, List.not_mem_nil, or_false] at hx
    rcases hx with rfl | rfl | rfl | rfl
    · exact ⟨5, 0, by decide, by decide, rfl, rfl, rfl⟩
    · exact ⟨2, 0, by decide, by decide, rfl, rfl, rfl⟩
    · exact ⟨0, 1, by decide, by decide, rfl, rfl, rfl⟩
    · exact ⟨0, 0, by decide, by decide, rfl, rfl, rfl⟩
  · refine ⟨by decide, by decide, [(6, 7), (4, 5), (7, 4), (5, 6)], by decide, ?_⟩
    refine .cons (st [2, 3, 0, 1] [6, 7, 10, 11] [10, 11, 6, 7] (by decide) rfl rfl rfl (by decide))
      (.cons (st [1, 2, 0, 3] [11, 4, 10, 5] [10, 11, 4, 5] (by decide) rfl rfl rfl (by decide))
      (.cons (st [1, 0, 3, 2] [11, 10, 4, 7] [10, 11, 7, 4] (by decide) rfl rfl rfl (by decide))
      (.cons (st [0, 1, 2, 3] [10, 11, 5, 6] [10, 11, 5, 6] (by decide) rfl rfl rfl (by decide)) .nil)))

/-- Two ranks, each with a copy of the tets around an edge that rank 1 owns. -/
def ringWorld : SwapWorld ℚ where
  rank := fun r => ringRank 1 (if r = 0 then [1/4, 1/4, 1/4, 1/4] else [1/4, 1/2, 1/2, 2/3]) (fun _ => some 1)
    (fun t => some (if 4 ∈ t ∧ 6 ∈ t then 1/3 else 1/2))
  owner := fun _ _ => (1, 0)
  ncells := fun _ => 4
  marks := fun _ => [1]

theorem ringWorld_ok : ringWorld.Ok 2 true Inside3 where
  size := by decide
  owners := ⟨fun r i _ _ => ⟨by show 1 < 2; decide, by show 0 < 1; decide, rfl⟩, fun h => by simp at h⟩
  ownerRanks := fun r _ => rfl
  fan := fun r _ => ⟨fan_one 4, rfl, rfl, by show ∀ c ∈ [0, 1, 2, 3], c < 4; decide, by
    show (if r = 0 then [1/4, 1/4, 1/4, 1/4] else [1/4, 1/2, 1/2, 2/3] : List ℚ).length = 4
    split <;> rfl⟩
  marked := fun r _ => ⟨rfl, by simp [ringWorld]⟩
  agree := fun r e _ he => by
    obtain rfl : e = 0 := Nat.lt_one_iff.1 he
    exact Iff.rfl
  inside := fun r e _ he _ _ => by
    obtain rfl : e = 0 := Nat.lt_one_iff.1 he
    exact ringRank_inside _ _ _ _

example (s : Nat → Nat → Nat → Sched) := C60_swap3d_partial s ringWorld 2 true 1 1 ringWorld_ok (le_refl _) (by
  intro r e _ _ _ _
  right
  rintro old ⟨L, y, _, _, hq⟩
  have hq : (if r = 0 then [1/4, 1/4, 1/4, 1/4] else [1/4, 1/2, 1/2, 2/3] : List ℚ)[y.1]? = some old := hq
  have := List.mem_of_getElem? hq
  split at this
  all_goals
    simp only [List.mem_cons, List.not_mem_nil, or_false] at this
    rcases this with rfl | rfl | rfl | rfl <;> decide +kernel)

/-- The diagonal that avoids 4-6 is taken. -/
example : (swapGhosted (fun _ _ _ => Sched.reversed) (ownersArg 2 true (fun _ => 1) ringWorld.owner) (world 2 ringWorld.rank)
    (swapMeasure3 1) 1 (world 2 ringWorld.marks)).map (Option.map (List.map (fun m => (m.marks, m.quals, m.configs)))) =
      some (some [([1], [1/2], [1]), ([1], [1/2], [1])]) := by decide +kernel

/-- One rank, where every new edge would be too long and one of the tets is inverted. -/
def invertedWorld : SwapWorld ℚ where
  rank := fun r => ringRank r [1/4, -1/2, 1/2, 2/3] (fun _ => some 2) (fun _ => some (1/2))
  owner := fun r e => (r, e)
  ncells := fun _ => 4
  marks := fun _ => [1]

/-- An edge for which there is no allowed configuration is picked, with configuration -1, if an element around it is inverted. -/
theorem C60_inverted_refuted : ∃ W : SwapWorld ℚ, W.Ok 1 false Inside3 ∧
    (∀ k q, ¬ Allowed3 1 (W.rank 0) 0 k q) ∧
    (swapGhosted (fun _ _ _ => Sched.serial) (ownersArg 1 false (fun r => (W.rank r).nedges) W.owner) (world 1 W.rank)
      (swapMeasure3 1) 1 (world 1 W.marks)).map (Option.map (List.map (fun m => (m.marks, m.configs)))) =
        some (some [([1], [-1])]) := by
  refine ⟨invertedWorld, ?_, ?_, by decide +kernel⟩
  · exact {
      size := by decide
      owners := ⟨fun r i hr hi => ⟨hr, hi, rfl⟩, fun _ _ _ _ _ => rfl⟩
      ownerRanks := fun r _ => rfl
      fan := fun r _ => ⟨fan_one 4, rfl, rfl, by show ∀ c ∈ [0, 1, 2, 3], c < 4; decide, rfl⟩
      marked := fun r _ => ⟨rfl, by simp [invertedWorld]⟩
      agree := fun r e _ he => Iff.rfl
      inside := fun r e _ he _ _ => by
        obtain rfl : e = 0 := Nat.lt_one_iff.1 he
        exact ringRank_inside _ _ _ _ }
  · obtain ⟨c, x, h1, _, _, h2⟩ := C60_choice (K := ℚ) (by decide +kernel) 1 (invertedWorld.rank 0) 0 (ringRank_inside _ _ _ _)
    refine h2.1 ?_
    have h3 : swapMeasure3 1 (invertedWorld.rank 0) 0 = some (-1, 0) := by decide +kernel
    exact (Prod.mk.inj (Option.some.inj (h1.symm.trans h3))).1

/-- Two triangles on the edge 0-2. -/
def pairRank (own : Nat) (quals : List ℚ) (len qual : ℚ) : SwapRank ℚ where
  nedges := 1
  ownerRanks := [own]
  up := ⟨[0, 2], [0, 1], some [18, 16]⟩
  ev2v := [0, 2]
  cv2v := [0, 1, 2, 2, 3, 0]
  elemQuals := quals
  lengthOf := fun _ => some len
  qualityOf := fun _ => some qual

theorem pairRank_inside (own : Nat) (quals : List ℚ) (len qual : ℚ) : Inside2 (pairRank own quals len qual) 0 := by
  refine ⟨0, 2, 1, 3, 0, 1, 2, 1, 2, 0, ⟨_, 0, 2, rfl, rfl, rfl, rfl, ?_⟩, ?_, ?_, by decide, rfl, rfl, fun _ _ _ => rfl, fun _ _ _ => rfl⟩
  · intro j x hx
    rcases j with _ | _ | j
    all_goals first
      | (obtain rfl := Option.some.inj hx; exact ⟨rfl, rfl⟩)
      | simp at hx
  · show TriOnEdge (row [0, 1, 2, 2, 3, 0] 3 0) 2 1 0 2 1
    unfold TriOnEdge; decide +kernel
  · show TriOnEdge (row [0, 1, 2, 2, 3, 0] 3 1) 2 0 0 2 3
    unfold TriOnEdge; decide +kernel

def pairWorld (quals : List ℚ) (len qual : ℚ) : SwapWorld ℚ where
  rank := fun r => pairRank r quals len qual
  owner := fun r e => (r, e)
  ncells := fun _ => 2
  marks := fun _ => [1]

theorem pairWorld_ok (quals : List ℚ) (h : quals.length = 2) (len qual : ℚ) : (pairWorld quals len qual).Ok 1 false Inside2 where
  size := by decide
  owners := ⟨fun r i hr hi => ⟨hr, hi, rfl⟩, fun _ _ _ _ _ => rfl⟩
  ownerRanks := fun r _ => rfl
  fan := fun r _ => ⟨fan_one 2, rfl, rfl, by show ∀ c ∈ [0, 1], c < 2; decide, h⟩
  marked := fun r _ => ⟨rfl, by simp [pairWorld]⟩
  agree := fun r e _ he => Iff.rfl
  inside := fun r e _ he _ _ => by
    obtain rfl : e = 0 := Nat.lt_one_iff.1 he
    exact pairRank_inside _ _ _ _

example (s : Nat → Nat → Nat → Sched) := C60_swap2d_partial s (pairWorld [1/4, 1/2] 1 (1/2)) 1 false 1 1
  (pairWorld_ok _ rfl _ _) (le_refl _) (by
    intro r e _ _ _ _
    right
    rintro old ⟨L, y, _, _, hq⟩
    have hq : ([1/4, 1/2] : List ℚ)[y.1]? = some old := hq
    have := List.mem_of_getElem? hq
    simp only [List.mem_cons, List.not_mem_nil, or_false] at this
    rcases this with rfl | rfl <;> decide +kernel)

example : (swapGhosted (fun _ _ _ => Sched.reversed) none (world 1 (pairWorld [1/4, 1/2] 1 (1/2)).rank)
    (swapMeasure2 1) 1 [[1]]).map (Option.map (List.map (fun m => (m.marks, m.quals)))) = some (some [([1], [1/2])]) := by decide +kernel

/-- A swap that makes an edge that is too long is picked if a triangle next to the edge has a quality below -1. -/
theorem C60_triangles_refuted : ∃ W : SwapWorld ℚ, W.Ok 1 false Inside2 ∧
    (∀ c q, ¬ Best2 1 (W.rank 0) 0 c q) ∧
    (swapGhosted (fun _ _ _ => Sched.serial) (ownersArg 1 false (fun r => (W.rank r).nedges) W.owner) (world 1 W.rank)
      (swapMeasure2 1) 1 (world 1 W.marks)).map (Option.map (List.map (fun m => m.marks))) = some (some [[1]]) := by
  refine ⟨pairWorld [1/4, -3] 2 (1/2), pairWorld_ok _ rfl _ _, ?_, by decide +kernel⟩
  obtain ⟨c, x, h1, h2⟩ := swapMeasure2_spec (1 : ℚ) ((pairWorld [1/4, -3] 2 (1/2)).rank 0) 0 (pairRank_inside _ _ _ _)
  have h3 : swapMeasure2 1 ((pairWorld [1/4, -3] 2 (1/2)).rank 0) 0 = some (0, -1) := by decide +kernel
  obtain ⟨rfl, rfl⟩ := Prod.mk.inj (Option.some.inj (h1.symm.trans h3))
  rcases h2 with ⟨_, _, h⟩ | ⟨_, _, _, _, _, hw⟩
  · exact h
  · rcases hw.1 with hbad | ⟨t, _, ht⟩
    · exact absurd hbad (by decide +kernel)
    · have ht : some (1/2 : ℚ) = some (-1) := ht
      exact absurd (Option.some.inj ht) (by decide +kernel)

end OmegaH
