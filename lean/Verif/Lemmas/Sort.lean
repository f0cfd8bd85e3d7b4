import Verif.Model.Sort
import Verif.Spec.Sort
import Verif.Lemmas.Perm

/-! Helper lemmas about the key comparison and stable sorting. -/

namespace OmegaH
open Spec

theorem keyRow_length (keys : List Int) (N a : Nat) : (keyRow keys N a).length = N := by
  simp [keyRow]

theorem lexLt_irrefl (x : List Int) : lexLt x x = false := by
  induction x with
  | nil => rfl
  | cons a x ih => simp [lexLt, ih]

theorem lexLt_total : ∀ (x y : List Int), x.length = y.length →
    lexLt x y = false → lexLt y x = false → x = y := by
  intro x
  induction x with
  | nil => intro y h _ _; cases y with | nil => rfl | cons => simp at h
  | cons a x ih =>
    intro y h h1 h2
    cases y with
    | nil => simp at h
    | cons b y =>
      simp only [lexLt] at h1 h2
      by_cases hab : a = b
      · subst hab
        rw [if_neg (by simp)] at h1 h2
        rw [ih y (by simpa using h) h1 h2]
      · rw [if_pos hab] at h1
        rw [if_pos (fun e => hab e.symm)] at h2
        simp only [decide_eq_false_iff_not] at h1 h2
        omega

theorem lexLt_asymm : ∀ (x y : List Int), lexLt x y = true → lexLt y x = false := by
  intro x
  induction x with
  | nil => intro y h; simp [lexLt] at h
  | cons a x ih =>
    intro y h
    cases y with
    | nil => simp [lexLt] at h
    | cons b y =>
      simp only [lexLt] at h ⊢
      by_cases hab : a = b
      · subst hab
        rw [if_neg (by simp)] at h ⊢
        exact ih y h
      · rw [if_pos hab] at h
        rw [if_pos (fun e => hab e.symm)]
        simp only [decide_eq_true_eq, decide_eq_false_iff_not] at h ⊢
        omega

theorem lexLt_trans : ∀ (x y z : List Int), lexLt x y = true → lexLt y z = true →
    lexLt x z = true := by
  intro x
  induction x with
  | nil => intro y z h; simp [lexLt] at h
  | cons a x ih =>
    intro y z h1 h2
    cases y with
    | nil => simp [lexLt] at h1
    | cons b y =>
      cases z with
      | nil => simp [lexLt] at h2
      | cons c z =>
        simp only [lexLt] at h1 h2 ⊢
        by_cases hab : a = b
        · subst hab
          rw [if_neg (by simp)] at h1
          by_cases hac : a = c
          · subst hac
            rw [if_neg (by simp)] at h2 ⊢
            exact ih y z h1 h2
          · rw [if_pos hac] at h2 ⊢; exact h2
        · rw [if_pos hab] at h1
          simp only [decide_eq_true_eq] at h1
          by_cases hbc : b = c
          · subst hbc
            rw [if_pos hab]; simpa using h1
          · rw [if_pos hbc] at h2
            simp only [decide_eq_true_eq] at h2
            rw [if_pos (by omega)]; simp; omega

theorem lexLe_trans (x y z : List Int) (h1 : x.length = y.length) (h2 : y.length = z.length)
    (hxy : lexLt y x = false) (hyz : lexLt z y = false) : lexLt z x = false := by
  by_cases hc : lexLt z x = true
  · exfalso
    by_cases hyx : lexLt x y = true
    · have := lexLt_trans _ _ _ hc hyx; rw [hyz] at this; exact absurd this (by simp)
    · have : x = y := lexLt_total x y h1 (by simpa using hyx) hxy
      subst this; rw [hyz] at hc; exact absurd hc (by simp)
  · simpa using hc

theorem lexLt_iff : ∀ (x y : List Int), x.length = y.length →
    (lexLt x y = true ↔ ∃ k : Nat, (∀ j : Nat, j < k → x[j]? = y[j]?) ∧
      ∃ a b, x[k]? = some a ∧ y[k]? = some b ∧ a < b) := by
  intro x
  induction x with
  | nil =>
    intro y h
    simp [lexLt]
  | cons a x ih =>
    intro y h
    cases y with
    | nil => simp at h
    | cons b y =>
      simp only [lexLt]
      by_cases hab : a = b
      · subst hab
        rw [if_neg (by simp), ih y (by simpa using h)]
        constructor
        · rintro ⟨k, h1, p, q, h2, h3, h4⟩
          refine ⟨k + 1, ?_, p, q, by simpa using h2, by simpa using h3, h4⟩
          intro j hj
          cases j with
          | zero => rfl
          | succ j => simpa using h1 j (by omega)
        · rintro ⟨k, h1, p, q, h2, h3, h4⟩
          cases k with
          | zero =>
            simp only [List.getElem?_cons_zero, Option.some.injEq] at h2 h3
            omega
          | succ k =>
            refine ⟨k, ?_, p, q, by simpa using h2, by simpa using h3, h4⟩
            intro j hj
            simpa using h1 (j + 1) (by omega)
      · rw [if_pos hab]
        simp only [decide_eq_true_eq]
        constructor
        · intro hlt
          exact ⟨0, by intro j hj; omega, a, b, rfl, rfl, hlt⟩
        · rintro ⟨k, h1, p, q, h2, h3, h4⟩
          cases k with
          | zero =>
            simp only [List.getElem?_cons_zero, Option.some.injEq] at h2 h3
            omega
          | succ k =>
            have := h1 0 (by omega)
            simp at this
            exact absurd this hab

theorem keyRow_getElem? (keys : List Int) (N a n k : Nat) (hlen : n * N = keys.length) (ha : a < n)
    (hk : k < N) : (keyRow keys N a)[k]? = entry keys N a k := by
  have hlt : a * N + k < keys.length := by
    have : (a + 1) * N ≤ n * N := Nat.mul_le_mul_right _ ha
    rw [Nat.add_mul] at this; omega
  simp [keyRow, hk, entry, hlt]

theorem compareKeySets_iff (keys : List Int) (N a b n : Nat) (hlen : n * N = keys.length)
    (ha : a < n) (hb : b < n) : compareKeySets keys N a b = true ↔ KeyLt keys N a b := by
  unfold compareKeySets
  rw [lexLt_iff _ _ (by simp [keyRow_length])]
  unfold KeyLt
  constructor
  · rintro ⟨k, h1, x, y, h2, h3, h4⟩
    have hk : k < N := by
      have := (List.getElem?_eq_some_iff.1 h2).1; rwa [keyRow_length] at this
    refine ⟨k, hk, ?_, x, y, ?_, ?_, h4⟩
    · intro j hj
      rw [← keyRow_getElem? keys N a n j hlen ha (by omega),
        ← keyRow_getElem? keys N b n j hlen hb (by omega)]
      exact h1 j hj
    · rw [← keyRow_getElem? keys N a n k hlen ha hk]; exact h2
    · rw [← keyRow_getElem? keys N b n k hlen hb hk]; exact h3
  · rintro ⟨k, hk, h1, x, y, h2, h3, h4⟩
    refine ⟨k, ?_, x, y, ?_, ?_, h4⟩
    · intro j hj
      rw [keyRow_getElem? keys N a n j hlen ha (by omega),
        keyRow_getElem? keys N b n j hlen hb (by omega)]
      exact h1 j hj
    · rw [keyRow_getElem? keys N a n k hlen ha hk]; exact h2
    · rw [keyRow_getElem? keys N b n k hlen hb hk]; exact h3

theorem keyEq_of_row_eq (keys : List Int) (N a b n : Nat) (hlen : n * N = keys.length)
    (ha : a < n) (hb : b < n) (h : keyRow keys N a = keyRow keys N b) : KeyEq keys N a b := by
  intro j hj
  rw [← keyRow_getElem? keys N a n j hlen ha hj, ← keyRow_getElem? keys N b n j hlen hb hj, h]

theorem pair_sublist_of_lt {α : Type} {l : List α} {i j : Nat} {a b : α} (hij : i < j)
    (hi : l[i]? = some a) (hj : l[j]? = some b) : [a, b].Sublist l := by
  induction l generalizing i j with
  | nil => simp at hi
  | cons x l ih =>
    obtain ⟨j, rfl⟩ : ∃ k, j = k + 1 := ⟨j - 1, by omega⟩
    simp only [List.getElem?_cons_succ] at hj
    cases i with
    | zero =>
      simp only [List.getElem?_cons_zero, Option.some.injEq] at hi
      subst hi
      exact List.Sublist.cons_cons _ (List.singleton_sublist.2 (List.mem_of_getElem? hj))
    | succ i =>
      simp only [List.getElem?_cons_succ] at hi
      exact List.Sublist.cons _ (ih (by omega) hi hj)

theorem pair_sublist_antisymm {α : Type} {l : List α} {a b : α} (hnd : l.Nodup)
    (h1 : [a, b].Sublist l) (h2 : [b, a].Sublist l) : False := by
  induction l with
  | nil => simp at h1
  | cons x l ih =>
    rw [List.nodup_cons] at hnd
    cases h1 with
    | cons _ h1 =>
      cases h2 with
      | cons _ h2 => exact ih hnd.2 h1 h2
      | cons_cons _ h2 =>
        exact hnd.1 (h1.subset (by simp))
    | cons_cons _ h1 =>
      cases h2 with
      | cons _ h2 => exact hnd.1 (h2.subset (by simp))
      | cons_cons _ h2 => exact hnd.1 (h1.subset (by simp))

theorem insertStable_perm {α : Type} (lt : α → α → Bool) (x : α) (l : List α) :
    (insertStable lt x l).Perm (x :: l) := by
  induction l with
  | nil => exact List.Perm.refl _
  | cons y ys ih =>
    unfold insertStable
    split
    · exact (ih.cons y).trans (List.Perm.swap x y ys)
    · exact List.Perm.refl _

theorem stableSort_perm {α : Type} (lt : α → α → Bool) (l : List α) : (stableSort lt l).Perm l := by
  induction l with
  | nil => exact List.Perm.refl _
  | cons x l ih => exact (insertStable_perm lt x _).trans (ih.cons x)

theorem insertStable_sorted {α : Type} (lt : α → α → Bool)
    (htrans : ∀ a b c, lt b a = false → lt c b = false → lt c a = false)
    (hasymm : ∀ a b, lt a b = true → lt b a = false) (x : α) (l : List α)
    (h : l.Pairwise (fun a b => lt b a = false)) :
    (insertStable lt x l).Pairwise (fun a b => lt b a = false) := by
  induction l with
  | nil => simp [insertStable]
  | cons y ys ih =>
    rw [List.pairwise_cons] at h
    unfold insertStable
    by_cases hc : lt y x = true
    · rw [if_pos hc, List.pairwise_cons]
      refine ⟨?_, ih h.2⟩
      intro z hz
      rcases List.mem_cons.1 ((insertStable_perm lt x ys).mem_iff.1 hz) with rfl | hz
      · exact hasymm _ _ hc
      · exact h.1 z hz
    · rw [if_neg hc]
      simp only [Bool.not_eq_true] at hc
      rw [List.pairwise_cons]
      refine ⟨?_, List.pairwise_cons.2 h⟩
      intro z hz
      rcases List.mem_cons.1 hz with rfl | hz
      · exact hc
      · exact htrans x y z hc (h.1 z hz)

theorem stableSort_sorted {α : Type} (lt : α → α → Bool)
    (htrans : ∀ a b c, lt b a = false → lt c b = false → lt c a = false)
    (hasymm : ∀ a b, lt a b = true → lt b a = false) (l : List α) :
    (stableSort lt l).Pairwise (fun a b => lt b a = false) := by
  induction l with
  | nil => exact List.Pairwise.nil
  | cons x l ih => exact insertStable_sorted lt htrans hasymm x _ ih

theorem sublist_insertStable {α : Type} (lt : α → α → Bool) (x : α) (l : List α) :
    l.Sublist (insertStable lt x l) := by
  induction l with
  | nil => simp
  | cons y ys ih =>
    unfold insertStable
    split
    · exact ih.cons_cons y
    · exact List.sublist_cons_self x _

theorem pair_sublist_insertStable {α : Type} (lt : α → α → Bool) (a b : α) (l : List α)
    (hb : b ∈ l) (hle : lt b a = false) : [a, b].Sublist (insertStable lt a l) := by
  induction l with
  | nil => simp at hb
  | cons y ys ih =>
    unfold insertStable
    by_cases hc : lt y a = true
    · rw [if_pos hc]
      rcases List.mem_cons.1 hb with rfl | hb
      · rw [hle] at hc; simp at hc
      · exact List.Sublist.cons _ (ih hb)
    · rw [if_neg hc]
      exact List.Sublist.cons_cons _ (List.singleton_sublist.2 hb)

/-- Stability: elements that need not be exchanged keep their relative order. -/
theorem pair_sublist_stableSort {α : Type} (lt : α → α → Bool) (a b : α) (l : List α)
    (hle : lt b a = false) (h : [a, b].Sublist l) : [a, b].Sublist (stableSort lt l) := by
  induction l with
  | nil => simp at h
  | cons x l ih =>
    show [a, b].Sublist (insertStable lt x (stableSort lt l))
    cases h with
    | cons _ h => exact (ih h).trans (sublist_insertStable lt x _)
    | cons_cons _ h =>
      refine pair_sublist_insertStable lt a b _ ?_ hle
      exact (stableSort_perm lt l).mem_iff.2 (h.subset (by simp))

end OmegaH
