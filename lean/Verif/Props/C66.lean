import Verif.Lemmas.Stats
import Mathlib.Algebra.Order.Ring.Rat
import Mathlib.Tactic.Ring
import Mathlib.Tactic.Linarith
/-! # C66: statistics count every entity once -/
namespace OmegaH
open Spec

section
variable {n N : Nat} {ents : Nat → List Nat} {owned : Option (Nat → List Int)}

theorem onRanks_total {α β : Type} {n : Nat} (f : Nat → α) (g : Nat → α → Option β) (v : Nat → β) (h : ∀ r, r < n → g r (f r) = some (v r)) :
    onRanks (world n f) g = some (world n v) := by
  unfold onRanks
  rw [world_length]
  refine mapM_range_some n _ v ?_
  intro r hr
  rw [world_get _ hr, Option.bind_some]
  exact h r hr

theorem sumMarks_spec (t : Nat → Team) (rt : RankTree) (hn : 0 < n) (marks : Nat → List Int) :
    sumMarks t rt (world n marks) =
      if ((List.range n).map (fun r => (marks r).sum)).sum < 2 ^ 31 then some ((List.range n).map (fun r => (marks r).sum)).sum else none := by
  unfold sumMarks
  rw [onRanks_total _ _ (fun r => (marks r).sum) (fun r _ => C43_get_sum (t r) (marks r)), Option.bind_some]
  rw [allreduce_eq rt (· + ·) 0 _ (by unfold world; simp; omega) Int.add_assoc Int.add_comm (by simp), Option.bind_some]
  have : (world n (fun r => (marks r).sum)).foldl (· + ·) 0 = ((List.range n).map (fun r => (marks r).sum)).sum := by
    rw [List.sum_eq_foldl]; rfl
  rw [this]

theorem count_sum {X : Type} (l : List X) (p : X → Prop) [DecidablePred p] :
    (l.map (fun g => b2i (decide (p g)))).sum = ((l.filter (fun g => p g)).length : Int) := by
  induction l with
  | nil => rfl
  | cons x l ih =>
    rw [List.map_cons, List.sum_cons, ih]
    by_cases h : p x
    · rw [List.filter_cons_of_pos (by simpa using h), List.length_cons]
      simp only [b2i, h, decide_true, if_true]
      push_cast
      ring
    · rw [List.filter_cons_of_neg (by simpa using h)]
      simp [b2i, h]

theorem land_sum {X : Type} (l : List X) (o : List Int) (p : X → Prop) [DecidablePred p] (h : ∀ x ∈ o, x = 0 ∨ x = 1) :
    (List.zipWith (fun x y => b2i (decide (x ≠ 0) && decide (y ≠ 0))) (l.map (fun g => b2i (decide (p g)))) o).sum =
      ((keptBy l (some o)).map (fun g => b2i (decide (p g)))).sum := by
  induction l generalizing o with
  | nil => rfl
  | cons x l ih =>
    cases o with
    | nil => rfl
    | cons y o =>
      have ih' := ih o (fun z hz => h z (by simp [hz]))
      rw [List.map_cons, List.zipWith_cons_cons, List.sum_cons, ih']
      rcases h y (by simp) with rfl | rfl
      · simp [keptBy, b2i]
      · by_cases hp : p x <;> simp [keptBy, b2i, hp]

/-- Counting marks counts the marked entities, each once however many copies there are, if they are fewer than 2^31; otherwise the sum overflows. -/
theorem C66_count (h : OneOwner n N ents owned) (s : Nat → Sched) (t : Nat → Team) (rt : RankTree) (p : Nat → Prop) [DecidablePred p] :
    countOwnedMarks s t rt (owned.map (world n)) (world n (fun r => (ents r).map (fun g => b2i (decide (p g))))) =
      if howMany N p < 2 ^ 31 then some (howMany N p : Int) else none := by
  have hs := h.sum (fun g => b2i (decide (p g)))
  rw [count_sum] at hs
  have key : ∀ marks : Nat → List Int, (∀ r, r < n → (marks r).sum =
      ((keptBy (ents r) (owned.map (fun o => o r))).map (fun g => b2i (decide (p g)))).sum) →
      sumMarks t rt (world n marks) = if howMany N p < 2 ^ 31 then some (howMany N p : Int) else none := by
    intro marks hm
    rw [sumMarks_spec t rt h.ranks]
    have : (List.range n).map (fun r => (marks r).sum) =
        (List.range n).map (fun r => ((keptBy (ents r) (owned.map (fun o => o r))).map (fun g => b2i (decide (p g)))).sum) :=
      List.map_congr_left (fun r hr => hm r (List.mem_range.1 hr))
    rw [this, hs]
    unfold howMany
    by_cases c : ((List.range N).filter (fun g => p g)).length < 2 ^ 31
    · rw [if_pos c, if_pos (by exact_mod_cast c)]
    · rw [if_neg c, if_neg (by exact_mod_cast c)]
  unfold countOwnedMarks
  cases owned with
  | none => exact key _ (fun r _ => rfl)
  | some o =>
    show (onRanks _ (fun r m => ((world n o)[r]?).bind (landEach (s r) m))).bind _ = _
    rw [onRanks_total _ _ (fun r => List.zipWith (fun x y => b2i (decide (x ≠ 0) && decide (y ≠ 0))) ((ents r).map (fun g => b2i (decide (p g)))) (o r)) (by
      intro r hr
      rw [world_get _ hr, Option.bind_some]
      exact zipEach_eq _ _ _ _ _ (by rw [List.length_map]; exact (h.len o rfl r hr).1.symm) (fun _ _ _ _ _ => rfl)), Option.bind_some]
    exact key _ (fun r hr => land_sum _ _ _ (h.len o rfl r hr).2)

/-- The number of entities of the whole mesh. -/
theorem C66_total (h : OneOwner n N ents owned) (t : Nat → Team) (rt : RankTree) :
    nglobalEnts t rt (owned.map (world n)) (world n (fun r => (ents r).length)) = some (N : Int) := by
  have hs := h.sum (fun _ => (1 : Int))
  have e : ∀ m, ((List.range m).map (fun _ => (1 : Int))).sum = m := by intro m; simp
  rw [e N] at hs
  have key : ∀ f : Nat → Int, (∀ r, r < n → f r = ((keptBy (ents r) (owned.map (fun o => o r))).map (fun _ => (1 : Int))).sum) →
      allreduce rt (· + ·) (world n f) = some (N : Int) := by
    intro f hf
    rw [allreduce_eq rt (· + ·) 0 _ (by have := h.ranks; unfold world; simp; omega) Int.add_assoc Int.add_comm (by simp)]
    rw [← hs, ← List.sum_eq_foldl]
    congr 2
    exact List.map_congr_left (fun r hr => hf r (List.mem_range.1 hr))
  unfold nglobalEnts
  cases owned with
  | none =>
    show allreduce rt (· + ·) ((world n _).map _) = _
    rw [world_map]
    exact key _ (fun r _ => by simp [keptBy])
  | some o =>
    show (onRanks (world n o) _).bind _ = _
    rw [onRanks_total _ _ (fun r => (o r).sum) (fun r _ => C43_get_sum (t r) (o r)), Option.bind_some]
    refine key _ (fun r hr => ?_)
    obtain ⟨h1, h2⟩ := h.len o rfl r hr
    show (o r).sum = _
    have : ∀ (a : List Nat) (o : List Int), o.length = a.length → (∀ x ∈ o, x = 0 ∨ x = 1) →
        o.sum = ((keptBy a (some o)).map (fun _ => (1 : Int))).sum := by
      intro a o
      induction o generalizing a with
      | nil => intro _ _; simp [keptBy]
      | cons x o ih =>
        intro hl hx
        obtain ⟨y, a, rfl⟩ : ∃ y b, a = y :: b := by
          cases a with
          | nil => simp at hl
          | cons y b => exact ⟨y, b, rfl⟩
        have := ih a (by simpa using hl) (fun z hz => hx z (by simp [hz]))
        rw [List.sum_cons, this]
        rcases hx x (by simp) with rfl | rfl
        · simp [keptBy]
        · simp [keptBy]
    exact this _ _ h1 h2

variable {K : Type} [Field K] [LinearOrder K]

theorem ownedArrays_spec {α : Type} (h : OneOwner n N ents owned) (s : Nat → Nat → Sched) (V : Nat → α) :
    ownedArrays s (world n (fun r => (ents r).length)) (owned.map (world n)) (world n (fun r => (ents r).map V)) =
      some (world n (fun r => (keptBy (ents r) (owned.map (fun o => o r))).map V)) := by
  unfold ownedArrays
  refine onRanks_total _ _ _ ?_
  intro r hr
  rw [world_get _ hr, Option.bind_some]
  cases owned with
  | none =>
    have := ownedArray_spec (s r) ((ents r).map V) none (fun l h => nomatch h)
    rw [List.length_map] at this
    show ownedArray _ _ none _ = _
    rw [this, keptBy_map]
    rfl
  | some o =>
    show ((world n o)[r]?).bind _ = _
    rw [world_get _ hr, Option.bind_some]
    have := ownedArray_spec (s r) ((ents r).map V) (some (o r)) (by
      intro l hl
      obtain rfl := Option.some.inj hl
      rw [List.length_map]
      exact h.len o rfl r hr)
    rw [List.length_map] at this
    rw [this, keptBy_map]
    rfl

omit [LinearOrder K] in
theorem binBound_eq (lo hi : K) (nbins i : Nat) : binBound lo hi nbins i = lo + (i : K) * ((hi - lo) / (nbins : K)) := by
  unfold binBound; ring

theorem binMarks_spec (s : Nat → Sched) (lo hi : K) (nbins i : Nat) (v : List K) :
    binMarks s lo hi nbins i v = some (v.map (fun x => b2i (decide (InBin lo hi nbins i x)))) := by
  unfold binMarks
  rw [mapEach_eq _ _ (fun x => b2i (decide (x ≥ binBound lo hi nbins i))) v (fun _ _ => rfl), Option.bind_some]
  have hz : ∀ (q : K → Bool), (landEach (s 2) (v.map (fun x => b2i (decide (x ≥ binBound lo hi nbins i)))) (v.map (fun x => b2i (q x)))) =
      some (v.map (fun x => b2i (decide (x ≥ binBound lo hi nbins i) && q x))) := by
    intro q
    unfold landEach
    rw [zipEach_eq _ _ (fun x y => b2i (decide (x ≠ 0) && decide (y ≠ 0))) _ _ (by simp) (fun _ _ _ _ _ => rfl)]
    congr 1
    rw [List.zipWith_map, List.zipWith_self]
    apply List.map_congr_left
    intro x _
    cases decide (x ≥ binBound lo hi nbins i) <;> cases q x <;> rfl
  by_cases c : i + 1 = nbins
  · rw [if_pos c, mapEach_eq _ _ (fun x => b2i (decide (x ≤ hi))) v (fun _ _ => rfl), Option.bind_some, hz]
    congr 1
    apply List.map_congr_left
    intro x _
    congr 1
    rw [← Bool.decide_and]
    apply decide_eq_decide.2
    unfold InBin
    rw [if_pos c, binBound_eq]
  · rw [if_neg c, mapEach_eq _ _ (fun x => b2i (decide (x < binBound lo hi nbins (i + 1)))) v (fun _ _ => rfl), Option.bind_some, hz]
    congr 1
    apply List.map_congr_left
    intro x _
    congr 1
    rw [← Bool.decide_and]
    apply decide_eq_decide.2
    unfold InBin
    rw [if_neg c, binBound_eq, binBound_eq]

/-- On fewer than 2^31 entities, a histogram has in each bin the number of entities whose value is in it. -/
theorem C66_histogram_partial (h : OneOwner n N ents owned) (hN : N < 2 ^ 31) (s : Nat → Nat → Nat → Sched) (t : Nat → Nat → Team) (rt : Nat → RankTree)
    (nbins : Nat) (lo hi : K) (V : Nat → K) :
    getHistogram s t rt (world n (fun r => (ents r).length)) (owned.map (world n)) nbins lo hi (world n (fun r => (ents r).map V)) =
      some ((List.range nbins).map (fun i => (howMany N (fun g => InBin lo hi nbins i (V g)) : Int))) := by
  unfold getHistogram
  rw [if_pos (by
    rw [world_map]
    exact world_congr (fun r _ => by simp))]
  rw [ownedArrays_spec h (s 0) V, Option.bind_some]
  refine mapM_range_some nbins _ _ ?_
  intro i _
  rw [onRanks_total _ _ (fun r => ((keptBy (ents r) (owned.map (fun o => o r))).map V).map (fun x => b2i (decide (InBin lo hi nbins i x))))
    (fun r _ => binMarks_spec _ _ _ _ _ _), Option.bind_some, sumMarks_spec _ _ h.ranks]
  have hs := h.sum (fun g => b2i (decide (InBin lo hi nbins i (V g))))
  rw [count_sum] at hs
  have e : (List.range n).map (fun r => (((keptBy (ents r) (owned.map (fun o => o r))).map V).map (fun x => b2i (decide (InBin lo hi nbins i x)))).sum) =
      (List.range n).map (fun r => ((keptBy (ents r) (owned.map (fun o => o r))).map (fun g => b2i (decide (InBin lo hi nbins i (V g))))).sum) := by
    apply List.map_congr_left
    intro r _
    rw [List.map_map]
    rfl
  rw [e, hs]
  have hle : ((List.range N).filter (fun g => InBin lo hi nbins i (V g))).length ≤ N := by
    have := List.length_filter_le (fun g => decide (InBin lo hi nbins i (V g))) (List.range N)
    rwa [List.length_range] at this
  rw [if_pos (by
    have : (((List.range N).filter (fun g => InBin lo hi nbins i (V g))).length : Int) < ((2 ^ 31 : Nat) : Int) := by exact_mod_cast (by omega)
    exact_mod_cast this)]
  rfl

theorem sum_swap {X Y : Type} (A : List X) (B : List Y) (f : X → Y → Nat) :
    (A.map (fun a => (B.map (fun b => f a b)).sum)).sum = (B.map (fun b => (A.map (fun a => f a b)).sum)).sum := by
  induction A with
  | nil => simp
  | cons a A ih =>
    rw [List.map_cons, List.sum_cons, ih]
    clear ih
    induction B with
    | nil => rfl
    | cons b B ih => simp only [List.map_cons, List.sum_cons] at ih ⊢; omega

theorem howMany_sum (N : Nat) (p : Nat → Prop) [DecidablePred p] : howMany N p = ((List.range N).map (fun g => if p g then 1 else 0)).sum := by
  unfold howMany
  generalize List.range N = l
  induction l with
  | nil => rfl
  | cons x l ih =>
    rw [List.map_cons, List.sum_cons, ← ih]
    by_cases h : p x <;> simp [h]; omega

variable [IsStrictOrderedRing K]

/-- The bins hold all values between the limits, each once. -/
theorem bin_unique (lo hi x : K) (hle : lo ≤ hi) (nbins : Nat) (hn : 0 < nbins) :
    ((List.range nbins).map (fun i => if InBin lo hi nbins i x then 1 else 0)).sum = if lo ≤ x ∧ x ≤ hi then 1 else 0 := by
  obtain ⟨m, rfl⟩ : ∃ m, nbins = m + 1 := ⟨nbins - 1, by omega⟩
  let B : Nat → K := fun i => lo + (i : K) * ((hi - lo) / ((m + 1 : Nat) : K))
  have hstep : 0 ≤ (hi - lo) / ((m + 1 : Nat) : K) := div_nonneg (by linarith) (Nat.cast_nonneg _)
  have hmono : ∀ i, B i ≤ B (i + 1) := by
    intro i
    show lo + (i : K) * _ ≤ lo + ((i + 1 : Nat) : K) * _
    push_cast
    push_cast at hstep
    nlinarith
  have hB0 : B 0 = lo := by simp [B]
  have hBm : ∀ k, lo ≤ B k := by
    intro k
    induction k with
    | zero => rw [hB0]
    | succ k ih => exact le_trans ih (hmono k)
  have hlast : B (m + 1) = hi := by
    show lo + ((m + 1 : Nat) : K) * ((hi - lo) / ((m + 1 : Nat) : K)) = hi
    have : ((m + 1 : Nat) : K) ≠ 0 := Nat.cast_ne_zero.2 (by omega)
    rw [mul_div_cancel₀ _ this]
    ring
  have hBle : B m ≤ hi := by rw [← hlast]; exact hmono m
  have hpart : ∀ k, k ≤ m → ((List.range k).map (fun i => if InBin lo hi (m + 1) i x then 1 else 0)).sum = if lo ≤ x ∧ x < B k then 1 else 0 := by
    intro k
    induction k with
    | zero =>
      intro _
      rw [hB0, if_neg (by rintro ⟨a, b⟩; exact absurd b (not_lt.2 a))]
      rfl
    | succ k ih =>
      intro hk
      rw [List.range_succ, List.map_append, List.sum_append, ih (by omega)]
      have hbin : InBin lo hi (m + 1) k x ↔ B k ≤ x ∧ x < B (k + 1) := by
        unfold InBin
        rw [if_neg (by omega)]
      simp only [List.map_cons, List.map_nil, List.sum_cons, List.sum_nil, Nat.add_zero, hbin]
      have h1 := hBm k
      have h2 := hmono k
      by_cases c1 : lo ≤ x
      · by_cases c2 : x < B k
        · rw [if_pos ⟨c1, c2⟩, if_neg (fun h => absurd h.1 (not_le.2 c2)), if_pos ⟨c1, lt_of_lt_of_le c2 h2⟩]
        · rw [if_neg (fun h => c2 h.2)]
          by_cases c3 : x < B (k + 1)
          · rw [if_pos ⟨not_lt.1 c2, c3⟩, if_pos ⟨c1, c3⟩]
          · rw [if_neg (fun h => c3 h.2), if_neg (fun h => c3 h.2)]
      · rw [if_neg (fun h => c1 h.1), if_neg (fun h => c1 (le_trans h1 h.1)), if_neg (fun h => c1 h.1)]
  rw [List.range_succ, List.map_append, List.sum_append, hpart m (Nat.le_refl _)]
  have hbin : InBin lo hi (m + 1) m x ↔ B m ≤ x ∧ x ≤ hi := by
    unfold InBin
    rw [if_pos rfl]
  simp only [List.map_cons, List.map_nil, List.sum_cons, List.sum_nil, Nat.add_zero, hbin]
  have h1 := hBm m
  by_cases c1 : lo ≤ x
  · by_cases c2 : x < B m
    · rw [if_pos ⟨c1, c2⟩, if_neg (fun h => absurd h.1 (not_le.2 c2)), if_pos ⟨c1, le_trans (le_of_lt c2) hBle⟩]
    · rw [if_neg (fun h => c2 h.2)]
      by_cases c3 : x ≤ hi
      · rw [if_pos ⟨not_lt.1 c2, c3⟩, if_pos ⟨c1, c3⟩]
      · rw [if_neg (fun h => c3 h.2), if_neg (fun h => c3 h.2)]
  · rw [if_neg (fun h => c1 h.1), if_neg (fun h => c1 (le_trans h1 h.1)), if_neg (fun h => c1 h.1)]

/-- The bins of a histogram add up to the number of entities with a value between the limits. -/
theorem C66_histogram_sum_partial (h : OneOwner n N ents owned) (hN : N < 2 ^ 31) (s : Nat → Nat → Nat → Sched) (t : Nat → Nat → Team) (rt : Nat → RankTree)
    (nbins : Nat) (hn : 0 < nbins) (lo hi : K) (hle : lo ≤ hi) (V : Nat → K) :
    ∃ bins, getHistogram s t rt (world n (fun r => (ents r).length)) (owned.map (world n)) nbins lo hi (world n (fun r => (ents r).map V)) = some bins ∧
      bins.length = nbins ∧ bins.sum = (howMany N (fun g => lo ≤ V g ∧ V g ≤ hi) : Int) := by
  refine ⟨_, C66_histogram_partial h hN s t rt nbins lo hi V, by simp, ?_⟩
  have e : (List.range nbins).map (fun i => (howMany N (fun g => InBin lo hi nbins i (V g)) : Int)) =
      ((List.range nbins).map (fun i => howMany N (fun g => InBin lo hi nbins i (V g)))).map (fun x : Nat => (x : Int)) := by
    rw [List.map_map]; rfl
  have hc : ∀ l : List Nat, (l.map (fun x : Nat => (x : Int))).sum = ((l.sum : Nat) : Int) := by
    intro l
    induction l with
    | nil => rfl
    | cons x l ih => simp [ih]
  rw [e, hc]
  congr 1
  rw [howMany_sum]
  have : (List.range nbins).map (fun i => howMany N (fun g => InBin lo hi nbins i (V g))) =
      (List.range nbins).map (fun i => ((List.range N).map (fun g => if InBin lo hi nbins i (V g) then 1 else 0)).sum) :=
    List.map_congr_left (fun i _ => howMany_sum N _)
  rw [this, sum_swap]
  congr 1
  exact List.map_congr_left (fun g _ => bin_unique lo hi (V g) hle nbins hn)

omit [Field K] [IsStrictOrderedRing K] in
/-- The numbers that are printed for a range: how many values are below, in and above it. -/
theorem C66_goals_partial (h : OneOwner n N ents owned) (hN : N < 2 ^ 31) (s : Nat → Nat → Sched) (t : Nat → Nat → Team) (rt : Nat → RankTree)
    (lo hi : K) (hle : lo ≤ hi) (V : Nat → K) :
    goalStats s t rt (world n (fun r => (ents r).length)) (owned.map (world n)) lo hi (world n (fun r => (ents r).map V)) =
      some ((howMany N (fun g => V g < lo) : Int), (howMany N (fun g => lo ≤ V g ∧ V g ≤ hi) : Int), (howMany N (fun g => hi < V g) : Int)) := by
  have hlt : ∀ (p : Nat → Prop) [DecidablePred p], howMany N p < 2 ^ 31 := by
    intro p _
    have := List.length_filter_le (fun g => decide (p g)) (List.range N)
    rw [List.length_range] at this
    unfold howMany
    omega
  unfold goalStats
  rw [onRanks_total _ _ (fun r => (ents r).map (fun g => b2i (decide (V g < lo)))) (by
    intro r _
    rw [mapEach_eq _ _ (fun x => b2i (decide (x < lo))) _ (fun _ _ => rfl), List.map_map]
    rfl), Option.bind_some]
  rw [onRanks_total _ _ (fun r => (ents r).map (fun g => b2i (decide (hi < V g)))) (by
    intro r _
    rw [mapEach_eq _ _ (fun x => b2i (decide (x > hi))) _ (fun _ _ => rfl), List.map_map]
    rfl), Option.bind_some]
  rw [C66_count h (s 2) (t 0) (rt 0) (fun g => V g < lo), if_pos (hlt _), Option.bind_some]
  rw [C66_count h (s 3) (t 1) (rt 1) (fun g => hi < V g), if_pos (hlt _), Option.bind_some]
  rw [C66_total h (t 2) (rt 2), Option.map_some]
  have hadd : howMany N (fun g => V g < lo) + howMany N (fun g => lo ≤ V g ∧ V g ≤ hi) + howMany N (fun g => hi < V g) = N := by
    rw [howMany_sum, howMany_sum, howMany_sum]
    have e : ((List.range N).map (fun _ => 1)).sum = N := by simp
    conv_rhs => rw [← e]
    generalize List.range N = l
    induction l with
    | nil => rfl
    | cons g l ih =>
      simp only [List.map_cons, List.sum_cons]
      have : (if V g < lo then 1 else 0) + (if lo ≤ V g ∧ V g ≤ hi then 1 else 0) + (if hi < V g then 1 else 0) = 1 := by
        by_cases c1 : V g < lo
        · rw [if_pos c1, if_neg (fun h => absurd h.1 (not_le.2 c1)), if_neg (not_lt.2 (le_trans (le_of_lt c1) hle))]
        · by_cases c2 : hi < V g
          · rw [if_neg c1, if_neg (fun h => absurd h.2 (not_le.2 c2)), if_pos c2]
          · rw [if_neg c1, if_pos ⟨not_lt.1 c1, not_lt.1 c2⟩, if_neg c2]
      omega
  congr 3
  omega

omit [Field K] [IsStrictOrderedRing K] in
theorem min_threshold (q a b : K) : q ≤ (if a < b then a else b) ↔ q ≤ a ∧ q ≤ b := by
  split
  · exact ⟨fun h => ⟨h, le_trans h (le_of_lt ‹_›)⟩, fun h => h.1⟩
  · exact ⟨fun h => ⟨le_trans h (not_lt.1 ‹_›), h⟩, fun h => h.2⟩

omit [Field K] [IsStrictOrderedRing K] in
theorem max_threshold (q a b : K) : (if a < b then b else a) ≤ q ↔ a ≤ q ∧ b ≤ q := by
  split
  · exact ⟨fun h => ⟨le_trans (le_of_lt ‹_›) h, h⟩, fun h => h.2⟩
  · exact ⟨fun h => ⟨h, le_trans (not_lt.1 ‹_›) h⟩, fun h => h.1⟩

omit [Field K] [IsStrictOrderedRing K] in
theorem globalMin_spec (h : OneOwner n N ents owned) (t : Nat → Team) (rt : RankTree) (big : K) (V : Nat → K) :
    ∃ m, globalMin t rt big (world n (fun r => (ents r).map V)) = some m ∧ ∀ q, q ≤ big → (q ≤ m ↔ ∀ g, g < N → q ≤ V g) := by
  have : Inhabited K := ⟨big⟩
  obtain ⟨mins, m1, m2⟩ := onRanks_spec (n := n) (fun r => (ents r).map V)
    (fun r v => transformReduce (t r) (fun x y => if x < y then x else y) big big (fun i => v[i]?) v.length)
    (fun r m => ∀ q, q ≤ m ↔ q ≤ big ∧ ∀ y ∈ (ents r).map V, q ≤ y) (by
      intro r _
      obtain ⟨x, x1, x2⟩ := transformReduce_all (t r) (fun x y : K => if x < y then x else y) big ((ents r).map V)
      exact ⟨x, x1, fun q => x2 (fun z => q ≤ z) (fun a b => min_threshold q a b)⟩)
  obtain ⟨m, a1, a2⟩ := allreduce_all rt (fun x y : K => if x < y then x else y) (world n mins) (by have := h.ranks; unfold world; simp; omega)
  refine ⟨m, by unfold globalMin; rw [m1, Option.bind_some]; exact a1, ?_⟩
  intro q hq
  rw [a2 (fun z => q ≤ z) (fun a b => min_threshold q a b)]
  constructor
  · intro hm g hg
    obtain ⟨r, i, r1, r2, _⟩ := h.some_ g hg
    have := hm (mins r) (List.mem_map.2 ⟨r, List.mem_range.2 r1, rfl⟩)
    exact ((m2 r r1 q).1 this).2 _ (List.mem_map.2 ⟨g, List.mem_of_getElem? r2, rfl⟩)
  · intro hm y hy
    obtain ⟨r, hr, rfl⟩ := List.mem_map.1 hy
    have hr := List.mem_range.1 hr
    rw [m2 r hr q]
    refine ⟨hq, fun y hy => ?_⟩
    obtain ⟨g, hg, rfl⟩ := List.mem_map.1 hy
    exact hm g (h.names r hr g hg)

omit [Field K] [IsStrictOrderedRing K] in
theorem globalMax_spec (h : OneOwner n N ents owned) (t : Nat → Team) (rt : RankTree) (small : K) (V : Nat → K) :
    ∃ m, globalMax t rt small (world n (fun r => (ents r).map V)) = some m ∧ ∀ q, small ≤ q → (m ≤ q ↔ ∀ g, g < N → V g ≤ q) := by
  have : Inhabited K := ⟨small⟩
  obtain ⟨maxs, m1, m2⟩ := onRanks_spec (n := n) (fun r => (ents r).map V)
    (fun r v => transformReduce (t r) (fun x y => if x < y then y else x) small small (fun i => v[i]?) v.length)
    (fun r m => ∀ q, m ≤ q ↔ small ≤ q ∧ ∀ y ∈ (ents r).map V, y ≤ q) (by
      intro r _
      obtain ⟨x, x1, x2⟩ := transformReduce_all (t r) (fun x y : K => if x < y then y else x) small ((ents r).map V)
      exact ⟨x, x1, fun q => x2 (fun z => z ≤ q) (fun a b => max_threshold q a b)⟩)
  obtain ⟨m, a1, a2⟩ := allreduce_all rt (fun x y : K => if x < y then y else x) (world n maxs) (by have := h.ranks; unfold world; simp; omega)
  refine ⟨m, by unfold globalMax; rw [m1, Option.bind_some]; exact a1, ?_⟩
  intro q hq
  rw [a2 (fun z => z ≤ q) (fun a b => max_threshold q a b)]
  constructor
  · intro hm g hg
    obtain ⟨r, i, r1, r2, _⟩ := h.some_ g hg
    have := hm (maxs r) (List.mem_map.2 ⟨r, List.mem_range.2 r1, rfl⟩)
    exact ((m2 r r1 q).1 this).2 _ (List.mem_map.2 ⟨g, List.mem_of_getElem? r2, rfl⟩)
  · intro hm y hy
    obtain ⟨r, hr, rfl⟩ := List.mem_map.1 hy
    have hr := List.mem_range.1 hr
    rw [m2 r hr q]
    refine ⟨hq, fun y hy => ?_⟩
    obtain ⟨g, hg, rfl⟩ := List.mem_map.1 hy
    exact hm g (h.names r hr g hg)

omit [Field K] [IsStrictOrderedRing K] in
/-- A mesh counts as adapted exactly if all its elements are good enough and all its edges have a length in the range, wherever their copies are. -/
theorem C66_status {nElems nEdges : Nat} {elems edges : Nat → List Nat} {ownedElems ownedEdges : Option (Nat → List Int)}
    (hq : OneOwner n nElems elems ownedElems) (hl : OneOwner n nEdges edges ownedEdges) (t : Nat → Nat → Team) (rt : Nat → RankTree)
    (small big minQuality minLength maxLength : K) (h1 : minQuality ≤ big) (h2 : minLength ≤ big) (h3 : small ≤ maxLength) (Q L : Nat → K) :
    ∃ b, adaptStatus t rt small big minQuality minLength maxLength (world n (fun r => (elems r).map Q)) (world n (fun r => (edges r).map L)) = some b ∧
      (b = true ↔ (∀ g, g < nElems → minQuality ≤ Q g) ∧ ∀ g, g < nEdges → minLength ≤ L g ∧ L g ≤ maxLength) := by
  obtain ⟨q, q1, q2⟩ := globalMin_spec hq (t 0) (rt 0) big Q
  obtain ⟨l, l1, l2⟩ := globalMin_spec hl (t 1) (rt 1) big L
  obtain ⟨u, u1, u2⟩ := globalMax_spec hl (t 2) (rt 2) small L
  unfold adaptStatus
  rw [q1, Option.bind_some, l1, Option.bind_some, u1, Option.map_some]
  refine ⟨_, rfl, ?_⟩
  rw [Bool.and_eq_true, Bool.and_eq_true, decide_eq_true_eq, decide_eq_true_eq, decide_eq_true_eq]
  show (minQuality ≤ q ∧ minLength ≤ l ∧ u ≤ maxLength) ↔ _
  rw [q2 _ h1, l2 _ h2, u2 _ h3]
  constructor
  · rintro ⟨a, b, c⟩; exact ⟨a, fun g hg => ⟨b g hg, c g hg⟩⟩
  · rintro ⟨a, b⟩; exact ⟨a, fun g hg => (b g hg).1, fun g hg => (b g hg).2⟩

omit [LinearOrder K] [IsStrictOrderedRing K] in
/-- The average quality is that of the elements of the whole mesh, each taken once. -/
theorem C66_average (h : OneOwner n N ents owned) (hN : 0 < N) (s : Nat → Nat → Sched) (t : Nat → Nat → Team) (rt : Nat → RankTree) (Q : Nat → K) :
    averageQuality s t rt (world n (fun r => (ents r).length)) (owned.map (world n)) (world n (fun r => (ents r).map Q)) =
      some (((List.range N).map Q).sum / (N : K)) := by
  unfold averageQuality
  rw [ownedArrays_spec h s Q, Option.bind_some]
  rw [onRanks_total _ _ (fun r => ((keptBy (ents r) (owned.map (fun o => o r))).map Q).sum) (by
    intro r _
    obtain ⟨w, hw, he⟩ := range_map_getElem' ((keptBy (ents r) (owned.map (fun o => o r))).map Q) 0
    rw [transformReduce_eq (t 0 r) (· + ·) 0 0 _ w _ add_assoc add_comm (by simp) hw, he, List.sum_eq_foldl]), Option.bind_some]
  rw [allreduce_eq (rt 0) (· + ·) 0 _ (by have := h.ranks; unfold world; simp; omega) add_assoc add_comm (by simp), Option.bind_some]
  rw [C66_total h (t 1) (rt 1), Option.bind_some, if_neg (by omega)]
  have hs := h.sum Q
  rw [List.sum_eq_foldl] at hs
  rw [show (world n fun r => ((keptBy (ents r) (owned.map (fun o => o r))).map Q).sum).foldl (fun x1 x2 => x1 + x2) 0 = ((List.range N).map Q).sum from hs]
  simp

end

/-- Two ranks with `m` elements each, which are not shared. -/
theorem halves_owner (m : Nat) : OneOwner 2 (2 * m) (fun r => List.range' (r * m) m) none := by
  refine ⟨by decide, ?_, by simp, ?_, ?_⟩
  · intro r hr g hg
    rw [List.mem_range'_1] at hg
    have : r = 0 ∨ r = 1 := by omega
    rcases this with rfl | rfl <;> omega
  · intro g hg
    by_cases c : g < m
    · exact ⟨0, g, by decide, by rw [List.getElem?_range' c]; simp, trivial⟩
    · refine ⟨1, g - m, by decide, ?_, trivial⟩
      rw [List.getElem?_range' (by omega)]
      congr 1
      omega
  · intro g r i r' i' hr hr' h1 h2 _ _
    have l1 : i < m := by simpa using (List.getElem?_eq_some_iff.1 h1).1
    have l2 : i' < m := by simpa using (List.getElem?_eq_some_iff.1 h2).1
    rw [List.getElem?_range' l1] at h1
    rw [List.getElem?_range' l2] at h2
    have e1 := Option.some.inj h1
    have e2 := Option.some.inj h2
    have c1 : r = 0 ∨ r = 1 := by omega
    have c2 : r' = 0 ∨ r' = 1 := by omega
    rcases c1 with rfl | rfl <;> rcases c2 with rfl | rfl <;> simp at e1 e2 <;> omega

/-- Counting fails on a mesh of 2^31 marked elements on two ranks, although the result is 64 bits wide and the number of elements is found. -/
theorem C66_count_refuted : ∃ (N : Nat) (ents : Nat → List Nat), OneOwner 2 N ents none ∧ N < 2 ^ 63 ∧
    (∀ t rt, nglobalEnts t rt none (world 2 (fun r => (ents r).length)) = some (N : Int)) ∧
    ∀ s t rt, countOwnedMarks s t rt none (world 2 (fun r => (ents r).map (fun _ => 1))) = none := by
  have key : ∀ m, m = 2 ^ 30 → ∃ (N : Nat) (ents : Nat → List Nat), OneOwner 2 N ents none ∧ N < 2 ^ 63 ∧
      (∀ t rt, nglobalEnts t rt none (world 2 (fun r => (ents r).length)) = some (N : Int)) ∧
      ∀ s t rt, countOwnedMarks s t rt none (world 2 (fun r => (ents r).map (fun _ => 1))) = none := by
    intro m hm
    refine ⟨2 * m, _, halves_owner m, by omega, ?_, ?_⟩
    · intro t rt
      exact C66_total (halves_owner m) t rt
    · intro s t rt
      have := C66_count (halves_owner m) s t rt (fun _ => True)
      rw [if_neg (by
        unfold howMany
        rw [List.filter_eq_self.2 (by simp), List.length_range]
        omega)] at this
      exact this
  exact key _ rfl

/-- Three entities on two ranks; the middle one has two copies. -/
def sharedEnts : Nat → List Nat := fun r => if r = 0 then [0, 1] else [1, 2]

def sharedOwned : Nat → List Int := fun r => if r = 0 then [1, 1] else [0, 1]

/-- The hypotheses hold. -/
theorem shared_owner : OneOwner 2 3 sharedEnts (some sharedOwned) := by
  have h2 : ∀ r i g : Nat, r < 2 → (sharedEnts r)[i]? = some g → IsOwned (some sharedOwned) r i →
      (r = 0 ∧ i = 0 ∧ g = 0) ∨ (r = 0 ∧ i = 1 ∧ g = 1) ∨ (r = 1 ∧ i = 1 ∧ g = 2) := by
    intro r i g hr h ho
    have hi : i < 2 := by
      have := (List.getElem?_eq_some_iff.1 h).1
      simp only [sharedEnts] at this
      split at this <;> simpa using this
    have c1 : r = 0 ∨ r = 1 := by omega
    have c2 : i = 0 ∨ i = 1 := by omega
    rcases c1 with rfl | rfl <;> rcases c2 with rfl | rfl
    · exact Or.inl ⟨rfl, rfl, (Option.some.inj h).symm⟩
    · exact Or.inr (Or.inl ⟨rfl, rfl, (Option.some.inj h).symm⟩)
    · exact absurd (Option.some.inj ho) (by decide)
    · exact Or.inr (Or.inr ⟨rfl, rfl, (Option.some.inj h).symm⟩)
  refine ⟨by decide, ?_, ?_, ?_, ?_⟩
  · intro r hr
    have c1 : r = 0 ∨ r = 1 := by omega
    rcases c1 with rfl | rfl <;> decide
  · intro o ho r hr
    obtain rfl := Option.some.inj ho
    have c1 : r = 0 ∨ r = 1 := by omega
    rcases c1 with rfl | rfl <;> decide
  · intro g hg
    have c1 : g = 0 ∨ g = 1 ∨ g = 2 := by omega
    rcases c1 with rfl | rfl | rfl
    · exact ⟨0, 0, by decide, rfl, rfl⟩
    · exact ⟨0, 1, by decide, rfl, rfl⟩
    · exact ⟨1, 1, by decide, rfl, rfl⟩
  · intro g r i r' i' hr hr' h1 h1' o1 o2
    rcases h2 r i g hr h1 o1 with ⟨a, b, c⟩ | ⟨a, b, c⟩ | ⟨a, b, c⟩ <;>
      rcases h2 r' i' g hr' h1' o2 with ⟨a', b', c'⟩ | ⟨a', b', c'⟩ | ⟨a', b', c'⟩ <;> omega

/-- The shared entity is counted once; a value at a bound is in the upper bin, the largest one in the last bin. -/
example : getHistogram (K := ℚ) (fun _ _ _ => Sched.reversed) (fun _ _ => Team.two) (fun _ => RankTree.left) [2, 2] (some [[1, 1], [0, 1]]) 2 0 1
    [[0, 1 / 2], [1 / 2, 1]] = some [1, 2] := by decide +kernel

example : goalStats (K := ℚ) (fun _ _ => Sched.reversed) (fun _ _ => Team.two) (fun _ => RankTree.left) [2, 2] (some [[1, 1], [0, 1]]) (1 / 4) 1
    [[0, 1 / 2], [1 / 2, 2]] = some (1, 1, 1) := by decide +kernel

example : averageQuality (K := ℚ) (fun _ _ => Sched.reversed) (fun _ _ => Team.two) (fun _ => RankTree.left) [2, 2] (some [[1, 1], [0, 1]])
    [[0, 1 / 2], [1 / 2, 1]] = some (1 / 2) := by decide +kernel

example : adaptStatus (K := ℚ) (fun _ _ => Team.two) (fun _ => RankTree.left) (-1000) 1000 (1 / 4) (1 / 2) 2 [[1 / 2], [1 / 4]] [[1, 2], [2, 1 / 2]] = some true := by
  decide +kernel

end OmegaH
