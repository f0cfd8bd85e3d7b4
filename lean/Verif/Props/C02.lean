import Verif.Lemmas.Sort
import Verif.Lemmas.Offsets

/-! # C02 — sort_by_keys returns the stable lexicographic ordering permutation -/

namespace OmegaH
open Spec

/-- `sort_by_keys` succeeds on arrays of complete keys of width 1 to 4 and returns the stable
lexicographic ordering permutation. -/
theorem C02_sort_by_keys (keys : List Int) (w n : Nat) (hw : 1 ≤ w ∧ w ≤ 4)
    (hlen : keys.length = n * w) :
    ∃ perm, sortByKeys keys w = some perm ∧ IsStableSort keys w n perm := by
  have hn : keys.length / w = n := by rw [hlen]; exact Nat.mul_div_cancel _ (by omega)
  have hlen' : n * w = keys.length := hlen.symm
  unfold sortByKeys
  rw [if_pos hw, if_pos (by rw [hlen]; exact Nat.mul_mod_left _ _), hn]
  refine ⟨_, rfl, ?_⟩
  have htrans : ∀ a b c : Nat, compareKeySets keys w b a = false →
      compareKeySets keys w c b = false → compareKeySets keys w c a = false := by
    intro a b c h1 h2
    exact lexLe_trans _ _ _ (by simp [keyRow_length]) (by simp [keyRow_length]) h1 h2
  have hperm := stableSort_perm (compareKeySets keys w) (List.range n)
  have hsorted := stableSort_sorted (compareKeySets keys w) htrans
    (fun a b h => lexLt_asymm _ _ h) (List.range n)
  have hP := isPermutation_of_perm hperm
  refine ⟨hP, ?_⟩
  intro i j a b hij hi hj
  have han : a < n := hP.2.1 a (List.mem_of_getElem? hi)
  have hbn : b < n := hP.2.1 b (List.mem_of_getElem? hj)
  have hsub := pair_sublist_of_lt hij hi hj
  have hle : compareKeySets keys w b a = false := by
    have := hsorted.sublist hsub
    simpa using this
  have hnd : (stableSort (compareKeySets keys w) (List.range n)).Nodup :=
    hperm.nodup_iff.2 List.nodup_range
  by_cases hlt : compareKeySets keys w a b = true
  · exact Or.inl ((compareKeySets_iff keys w a b n hlen' han hbn).1 hlt)
  · right
    have hrow : keyRow keys w a = keyRow keys w b := by
      refine lexLt_total _ _ (by simp [keyRow_length]) ?_ ?_
      · simpa [compareKeySets] using hlt
      · simpa [compareKeySets] using hle
    refine ⟨keyEq_of_row_eq keys w a b n hlen' han hbn hrow, ?_⟩
    rcases Nat.lt_trichotomy a b with h | h | h
    · exact h
    · subst h
      have := hP.2.2 i j a hi hj
      omega
    · exfalso
      have hba : [b, a].Sublist (List.range n) :=
        pair_sublist_of_lt h (by simp [hbn]) (by simp [han])
      have hle' : compareKeySets keys w a b = false := by simpa using hlt
      have := pair_sublist_stableSort _ b a _ hle' hba
      exact pair_sublist_antisymm hnd hsub this

/-- The specification determines the permutation: any stable sort gives the same result. -/
theorem C02_stable_sort_unique (keys : List Int) (w n : Nat) (p q : List Nat)
    (hp : IsStableSort keys w n p) (hq : IsStableSort keys w n q) : p = q := by
  have hperm : p.Perm q := (isPermutation_perm hp.1).trans (isPermutation_perm hq.1).symm
  have hpw : ∀ r : List Nat, IsStableSort keys w n r →
      r.Pairwise (fun a b => KeyLt keys w a b ∨ (KeyEq keys w a b ∧ a < b)) := by
    intro r hr
    rw [List.pairwise_iff_getElem]
    intro i j hi hj hij
    exact hr.2 i j _ _ hij (List.getElem?_eq_getElem hi) (List.getElem?_eq_getElem hj)
  refine hperm.eq_of_pairwise ?_ (hpw p hp) (hpw q hq)
  intro a b _ _ h1 h2
  exfalso
  have hlteq : ∀ a b, KeyLt keys w a b → KeyEq keys w b a → False := by
    rintro a b ⟨k, hk, _, x, y, e1, e2, hxy⟩ he
    have := he k hk
    rw [e1, e2] at this
    have := Option.some.inj this; omega
  rcases h1 with ⟨k, hk, hpre, x, y, e1, e2, hxy⟩ | ⟨h1, l1⟩
  · rcases h2 with ⟨k', hk', hpre', x', y', e1', e2', hxy'⟩ | ⟨h2, _⟩
    · rcases Nat.lt_trichotomy k k' with h | h | h
      · have := hpre' k h
        rw [e1, e2] at this; have := Option.some.inj this; omega
      · subst h
        rw [e1] at e2'; rw [e2] at e1'
        have := Option.some.inj e2'; have := Option.some.inj e1'; omega
      · have := hpre k' h
        rw [e1', e2'] at this; have := Option.some.inj this; omega
    · exact hlteq a b ⟨k, hk, hpre, x, y, e1, e2, hxy⟩ h2
  · rcases h2 with h2 | ⟨_, l2⟩
    · exact hlteq b a h2 h1
    · omega

/-- Equal keys occupy consecutive positions: whatever stands between two items with the same key has
that key too, so numbering runs of equal keys numbers the distinct keys. -/
theorem C02_equal_keys_contiguous (keys : List Int) (w n : Nat) (perm : List Nat)
    (hp : IsStableSort keys w n perm) (i j k a b c : Nat) (hij : i < j) (hjk : j < k)
    (hi : perm[i]? = some a) (hj : perm[j]? = some b) (hk : perm[k]? = some c)
    (hac : KeyEq keys w a c) : KeyEq keys w a b := by
  rcases hp.2 i j a b hij hi hj with h1 | h1
  · exfalso
    obtain ⟨m, hm, hpre, x, y, e1, e2, hxy⟩ := h1
    have hacm := hac m hm
    rcases hp.2 j k b c hjk hj hk with h2 | h2
    · obtain ⟨m', hm', hpre', x', y', e1', e2', hxy'⟩ := h2
      have hacm' := hac m' hm'
      rcases Nat.lt_trichotomy m m' with h | h | h
      · have h3 := hpre' m h
        rw [← hacm, e1, e2] at h3; have := Option.some.inj h3; omega
      · subst h
        rw [e2] at e1'; rw [← hacm, e1] at e2'
        have := Option.some.inj e1'; have := Option.some.inj e2'; omega
      · have h3 := hpre m' h
        rw [hacm', e2', e1'] at h3; have := Option.some.inj h3; omega
    · have h3 := h2.1 m hm
      rw [← hacm, e1, e2] at h3; have := Option.some.inj h3; omega
  · exact h1.1

/-- Widths outside 1..4 and incomplete keys are rejected. -/
theorem C02_rejects (keys : List Int) (w : Nat)
    (h : w = 0 ∨ 4 < w ∨ keys.length % w ≠ 0) : sortByKeys keys w = none := by
  unfold sortByKeys
  rcases h with h | h | h
  · rw [if_neg (by omega)]
  · rw [if_neg (by omega)]
  · simp [h]

theorem sum_indicator (l : List Int) (v : Int) :
    (l.map (fun x => if x = v then (1 : Int) else 0)).sum = (l.count v : Int) := by
  induction l with
  | nil => rfl
  | cons x l ih =>
    rw [List.map_cons, List.sum_cons, ih, List.count_cons]
    by_cases h : x = v
    · simp [h]; omega
    · simp [h]

theorem numberSameValues_getElem? (a : List Int) (v : Int) (i : Nat) (hi : i ≤ a.length) :
    (numberSameValues a v)[i]? = some (countBefore a v i : Int) := by
  unfold numberSameValues countBefore
  rw [offsetScan_int_getElem? _ i (by simpa using hi), ← List.map_take, sum_indicator]

theorem numberSameValues_last (a : List Int) (v : Int) :
    (numberSameValues a v).getLast? = some (a.count v : Int) := by
  unfold numberSameValues
  rw [offsetScan_int_getLast?, sum_indicator]

theorem nextSmallestValue_spec (maxVal : Int) (a : List Int) (v : Int)
    (hmax : ∀ x ∈ a, x ≤ maxVal) (hex : ∃ x ∈ a, v < x) :
    nextSmallestValue maxVal a v ∈ a ∧ v < nextSmallestValue maxVal a v ∧
      ∀ x ∈ a, v < x → nextSmallestValue maxVal a v ≤ x := by
  have gen : ∀ (l : List Int) (acc : Int), (∀ x ∈ l, x ≤ maxVal) → acc ≤ maxVal →
      let r := l.foldl (fun acc x => min acc (if x > v then x else maxVal)) acc
      (r = acc ∨ (r ∈ l ∧ v < r)) ∧ r ≤ acc ∧ ∀ x ∈ l, v < x → r ≤ x := by
    intro l
    induction l with
    | nil => intro acc _ _; simp
    | cons y l ih =>
      intro acc hl hacc
      simp only [List.foldl_cons]
      have hy := hl y (by simp)
      have hm : min acc (if y > v then y else maxVal) ≤ maxVal := by omega
      obtain ⟨h1, h2, h3⟩ := ih (min acc (if y > v then y else maxVal))
        (fun x hx => hl x (by simp [hx])) hm
      generalize hr : l.foldl (fun acc x => min acc (if x > v then x else maxVal))
        (min acc (if y > v then y else maxVal)) = r at *
      refine ⟨?_, by omega, ?_⟩
      · rcases h1 with h1 | ⟨h1, h1'⟩
        · by_cases hc : y > v
          · rw [if_pos hc] at h1
            rcases Int.le_total acc y with h | h
            · left; omega
            · right; have : r = y := by omega
              exact ⟨by simp [this], by omega⟩
          · rw [if_neg hc] at h1; left; omega
        · right; exact ⟨by simp [h1], h1'⟩
      · intro x hx hvx
        rcases List.mem_cons.1 hx with rfl | hx
        · rw [if_pos hvx] at h2; omega
        · exact h3 x hx hvx
  obtain ⟨h1, h2, h3⟩ := gen a maxVal hmax (Int.le_refl _)
  unfold nextSmallestValue
  generalize a.foldl (fun acc x => min acc (if x > v then x else maxVal)) maxVal = r at *
  obtain ⟨x, hx, hvx⟩ := hex
  have hrx := h3 x hx hvx
  refine ⟨?_, ?_, h3⟩
  · rcases h1 with h1 | h1
    · have := hmax x hx
      have : r = x := by omega
      rw [this]; exact hx
    · exact h1.1
  · rcases h1 with h1 | h1
    · have := hmax x hx; omega
    · exact h1.2

/-- Loop invariant of `sort_small_range`: everything below `value` has been placed. -/
def SmallInv (a : List Int) (value ndone : Int) (perm fan uniq : List Int) : Prop :=
  value ∈ a ∧ uniq.Pairwise (· < ·) ∧ (∀ v, v ∈ uniq ↔ v ∈ a ∧ v < value) ∧
  fan.length = uniq.length + 1 ∧ fan[0]? = some 0 ∧ fan[uniq.length]? = some ndone ∧
  ndone = (a.countP (fun x => decide (x < value)) : Int) ∧
  (∀ (k : Nat) (v lo : Int), uniq[k]? = some v → fan[k]? = some lo →
    fan[k + 1]? = some (lo + (a.count v : Int))) ∧
  perm.length = a.length ∧
  ∀ (i k : Nat) (v lo : Int), a[i]? = some v → uniq[k]? = some v → fan[k]? = some lo →
    perm[i]? = some (lo + (countBefore a v i : Int))

theorem countP_le (a : List Int) (v : Int) :
    a.countP (fun x => decide (x ≤ v)) = a.countP (fun x => decide (x < v)) + a.count v := by
  induction a with
  | nil => rfl
  | cons x a ih =>
    rw [List.countP_cons, List.countP_cons, List.count_cons, ih]
    rcases Int.lt_trichotomy x v with h | h | h
    · simp [h, Int.le_of_lt h, Int.ne_of_lt h]; omega
    · subst h; simp; omega
    · have h1 : ¬ x ≤ v := by omega
      have h2 : ¬ x < v := by omega
      have h3 : ¬ x = v := by omega
      simp [h1, h2, h3]

theorem sortSmallLoop_spec (maxVal : Int) (a : List Int) (hmax : ∀ x ∈ a, x ≤ maxVal) :
    ∀ (fuel : Nat) (value ndone : Int) (perm fan uniq : List Int),
      SmallInv a value ndone perm fan uniq → (a.length : Int) - ndone ≤ fuel →
      ∃ r, sortSmallLoop maxVal a fuel value ndone perm fan uniq = some r ∧
        IsSmallSort a r.1 r.2.1 r.2.2 := by
  intro fuel
  induction fuel with
  | zero =>
    intro value ndone perm fan uniq hinv hfuel
    exfalso
    obtain ⟨hv, _, _, _, _, _, hn, _⟩ := hinv
    have h1 := countP_le a value
    have h2 : a.countP (fun x => decide (x ≤ value)) ≤ a.length := List.countP_le_length
    have h3 : 0 < a.count value := List.count_pos_iff.2 hv
    omega
  | succ fuel ih =>
    intro value ndone perm fan uniq hinv hfuel
    obtain ⟨hv, hsort, hmem, hfl, hf0, hflast, hn, hstep, hpl, hperm⟩ := hinv
    have hcnt := countP_le a value
    have hcle : a.countP (fun x => decide (x ≤ value)) ≤ a.length := List.countP_le_length
    have hpos : 0 < a.count value := List.count_pos_iff.2 hv
    -- facts about the updated arrays
    have hU : (uniq ++ [value]).Pairwise (· < ·) := by
      rw [List.pairwise_append]
      refine ⟨hsort, by simp, ?_⟩
      intro x hx y hy
      simp only [List.mem_singleton] at hy
      subst hy; exact ((hmem x).1 hx).2
    have hUm : ∀ v, v ∈ uniq ++ [value] ↔ v ∈ a ∧ v ≤ value := by
      intro v
      rw [List.mem_append, hmem, List.mem_singleton]
      constructor
      · rintro (⟨h1, h2⟩ | rfl)
        · exact ⟨h1, by omega⟩
        · exact ⟨hv, Int.le_refl _⟩
      · rintro ⟨h1, h2⟩
        by_cases h : v = value
        · exact Or.inr h
        · exact Or.inl ⟨h1, by omega⟩
    have hFl : (fan ++ [ndone + (a.count value : Int)]).length = (uniq ++ [value]).length + 1 := by
      simp; omega
    have hF0 : (fan ++ [ndone + (a.count value : Int)])[0]? = some 0 := by
      rw [List.getElem?_append_left (by omega)]; exact hf0
    have hFlast : (fan ++ [ndone + (a.count value : Int)])[(uniq ++ [value]).length]? =
        some (ndone + (a.count value : Int)) := by
      rw [List.getElem?_append_right (by simp; omega)]
      simp [hfl]
    have hUidx : ∀ (k : Nat) (v : Int), (uniq ++ [value])[k]? = some v →
        (k < uniq.length ∧ uniq[k]? = some v) ∨ (k = uniq.length ∧ v = value) := by
      intro k v hk
      by_cases h : k < uniq.length
      · rw [List.getElem?_append_left h] at hk; exact Or.inl ⟨h, hk⟩
      · rw [List.getElem?_append_right (by omega)] at hk
        have h2 := (List.getElem?_eq_some_iff.1 hk).1
        simp at h2
        have h3 : k = uniq.length := by omega
        subst h3
        simp at hk
        exact Or.inr ⟨rfl, hk.symm⟩
    have hStep : ∀ (k : Nat) (v lo : Int), (uniq ++ [value])[k]? = some v →
        (fan ++ [ndone + (a.count value : Int)])[k]? = some lo →
        (fan ++ [ndone + (a.count value : Int)])[k + 1]? = some (lo + (a.count v : Int)) := by
      intro k v lo hk hlo
      rcases hUidx k v hk with ⟨h1, h2⟩ | ⟨h1, h2⟩
      · rw [List.getElem?_append_left (by omega)] at hlo ⊢
        exact hstep k v lo h2 hlo
      · subst h1; subst h2
        rw [List.getElem?_append_left (by omega), hflast] at hlo
        have := Option.some.inj hlo
        subst this
        rw [List.getElem?_append_right (by omega)]
        simp [hfl]
    have hPerm : ∀ (i k : Nat) (v lo : Int), a[i]? = some v → (uniq ++ [value])[k]? = some v →
        (fan ++ [ndone + (a.count value : Int)])[k]? = some lo →
        (combinePerms a value (numberSameValues a value) perm ndone)[i]? =
          some (lo + (countBefore a v i : Int)) := by
      intro i k v lo hi hk hlo
      have hil := (List.getElem?_eq_some_iff.1 hi).1
      unfold combinePerms
      rw [List.getElem?_mapIdx]
      rcases hUidx k v hk with ⟨h1, h2⟩ | ⟨h1, h2⟩
      · rw [List.getElem?_append_left (by omega)] at hlo
        rw [hperm i k v lo hi h2 hlo, hi]
        have hlt := ((hmem v).1 (List.mem_of_getElem? h2)).2
        simp only [Option.map_some, Option.some.injEq]
        rw [if_neg (by omega)]
      · subst h1; subst h2
        rw [List.getElem?_append_left (by omega), hflast] at hlo
        have := Option.some.inj hlo
        subst this
        rw [List.getElem?_eq_getElem (show i < perm.length by omega), hi,
          numberSameValues_getElem? a v i (by omega)]
        simp only [Option.map_some, Option.some.injEq, if_true, Option.getD_some]
        omega
    have hPl : (combinePerms a value (numberSameValues a value) perm ndone).length = a.length := by
      unfold combinePerms; rw [List.length_mapIdx]; exact hpl
    unfold sortSmallLoop
    simp only [numberSameValues_last, Option.getD_some]
    by_cases hdone : ndone + (a.count value : Int) = a.length
    · rw [if_pos hdone]
      refine ⟨_, rfl, hU, ?_, hFl, hF0, hStep, hPl, hPerm⟩
      intro v
      rw [hUm]
      constructor
      · exact fun h => h.1
      · intro h
        refine ⟨h, ?_⟩
        have hall : a.countP (fun x => decide (x ≤ value)) = a.length := by omega
        have := List.countP_eq_length.1 hall v h
        simpa using this
    · rw [if_neg hdone]
      have hex : ∃ x ∈ a, value < x := by
        by_cases h : ∃ x ∈ a, value < x
        · exact h
        · exfalso
          have hall : a.countP (fun x => decide (x ≤ value)) = a.length := by
            rw [List.countP_eq_length]
            intro x hx
            have : ¬ value < x := fun hlt => h ⟨x, hx, hlt⟩
            simp; omega
          omega
      obtain ⟨n1, n2, n3⟩ := nextSmallestValue_spec maxVal a value hmax hex
      apply ih
      · refine ⟨n1, hU, ?_, hFl, hF0, hFlast, ?_, hStep, hPl, hPerm⟩
        · intro v
          rw [hUm]
          constructor
          · rintro ⟨h1, h2⟩; exact ⟨h1, by omega⟩
          · rintro ⟨h1, h2⟩
            refine ⟨h1, ?_⟩
            rcases Int.lt_or_le value v with h | h
            · have := n3 v h1 h; omega
            · exact h
        · have : a.countP (fun x => decide (x < nextSmallestValue maxVal a value)) =
              a.countP (fun x => decide (x ≤ value)) := by
            apply List.countP_congr
            intro x hx
            simp only [decide_eq_true_eq]
            constructor
            · intro h
              rcases Int.lt_or_le value x with h' | h'
              · have := n3 x hx h'; omega
              · exact h'
            · intro h; omega
          omega
      · omega

/-- `sort_small_range` terminates (in at most as many rounds as there are entries) and groups equal
entries stably in ascending order, for all values up to the maximum of the type. -/
theorem C02_sort_small_range (maxVal : Int) (a : List Int) (hmax : ∀ x ∈ a, x ≤ maxVal)
    (fuel : Nat) (hfuel : a.length ≤ fuel) :
    ∃ pos fan uniq, sortSmallRange maxVal a fuel = some (pos, fan, uniq) ∧
      IsSmallSort a pos fan uniq := by
  unfold sortSmallRange
  by_cases h0 : a.length = 0
  · rw [if_pos h0]
    have : a = [] := List.length_eq_zero_iff.1 h0
    subst this
    refine ⟨[], [0], [], rfl, ?_⟩
    simp [IsSmallSort]
  · rw [if_neg h0]
    have hminmem : ∀ (l : List Int) (acc : Int), (∀ x ∈ l, x ≤ maxVal) →
        (l.foldl min acc = acc ∨ l.foldl min acc ∈ l) ∧ l.foldl min acc ≤ acc ∧
          ∀ x ∈ l, l.foldl min acc ≤ x := by
      intro l
      induction l with
      | nil => intro acc _; simp
      | cons y l ih =>
        intro acc hl
        obtain ⟨h1, h2, h3⟩ := ih (min acc y) (fun x hx => hl x (by simp [hx]))
        simp only [List.foldl_cons]
        refine ⟨?_, by omega, ?_⟩
        · rcases h1 with h1 | h1
          · rcases Int.le_total acc y with h | h
            · left; rw [h1]; omega
            · right
              have : List.foldl min (min acc y) l = y := by rw [h1]; omega
              simp [this]
          · right; simp [h1]
        · intro x hx
          rcases List.mem_cons.1 hx with rfl | hx
          · omega
          · exact h3 x hx
    obtain ⟨m1, m2, m3⟩ := hminmem a maxVal hmax
    have hmem : getMin maxVal a ∈ a := by
      unfold getMin
      rcases m1 with m1 | m1
      · obtain ⟨x, hx⟩ := List.exists_mem_of_length_pos (show 0 < a.length by omega)
        have := m3 x hx
        have := hmax x hx
        have : a.foldl min maxVal = x := by omega
        rw [this]; exact hx
      · exact m1
    obtain ⟨⟨pos, fan, uniq⟩, hr, hs⟩ := sortSmallLoop_spec maxVal a hmax fuel (getMin maxVal a) 0
      (List.replicate a.length (-42)) [0] [] (by
        refine ⟨hmem, List.Pairwise.nil, ?_, rfl, rfl, rfl, ?_, by simp, by simp, by simp⟩
        · intro v
          simp only [List.not_mem_nil, false_iff]
          rintro ⟨h1, h2⟩
          have := m3 v h1
          unfold getMin at h2; omega
        · have : a.countP (fun x => decide (x < getMin maxVal a)) = 0 := by
            rw [List.countP_eq_zero]
            intro x hx
            have := m3 x hx
            unfold getMin
            simp; exact this
          omega) (by omega)
    exact ⟨pos, fan, uniq, hr, hs⟩

/-! Non-vacuity. -/
example : sortByKeys [2, 1, 1, 5, 2, 1, 1, 4] 2 = some [3, 1, 0, 2] := by decide +kernel
example : sortByKeys [3, 1, 3, 1, 2] 1 = some [1, 3, 4, 0, 2] := by decide +kernel
example : sortSmallRange 2147483647 [5, -1, 5, 2147483647, -1] 5 =
    some ([2, 0, 3, 4, 1], [0, 2, 4, 5], [-1, 5, 2147483647]) := by decide +kernel

end OmegaH
