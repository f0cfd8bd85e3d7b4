import Verif.Spec.ModifyWorld
import Mathlib.Data.List.Nodup
import Mathlib.Data.List.Perm.Subperm
/-! # The new global numbers of a change: each is given once -/
namespace OmegaH
open Spec

theorem represented_sum (c : Change) (g : Nat) :
    ((c.mods.filter (fun x => c.rep x < g + 1)).map c.nprods).sum =
      ((c.mods.filter (fun x => c.rep x < g)).map c.nprods).sum + c.represented g := by
  unfold Change.represented
  induction c.mods with
  | nil => rfl
  | cons x l ih =>
    simp only [List.filter_cons]
    by_cases h1 : c.rep x < g
    · have h2 : c.rep x < g + 1 := by omega
      have h3 : ¬ c.rep x = g := by omega
      simp only [h1, h2, h3, decide_true, decide_false, if_true, Bool.false_eq_true, if_false, List.map_cons, List.sum_cons]
      omega
    · by_cases h3 : c.rep x = g
      · have h2 : c.rep x < g + 1 := by omega
        simp only [h1, h2, decide_true, decide_false, if_true, Bool.false_eq_true, if_false, List.map_cons, List.sum_cons]
        simp only [h3, decide_true, if_true, List.map_cons, List.sum_cons]
        omega
      · have h2 : ¬ c.rep x < g + 1 := by omega
        simp only [h1, h2, h3, decide_false, Bool.false_eq_true, if_false]
        exact ih

theorem below_succ (c : Change) (g : Nat) :
    c.below (g + 1) = c.below g + ((if c.stays g then 1 else 0) + c.represented g) := by
  unfold Change.below
  rw [represented_sum, List.range_succ, List.filter_append, List.length_append]
  by_cases h : c.stays g = true
  · simp [h]; omega
  · simp [h]; omega

theorem below_mono (c : Change) {g g' : Nat} (h : g ≤ g') : c.below g ≤ c.below g' := by
  induction g' with
  | zero => obtain rfl : g = 0 := by omega
            exact Nat.le_refl _
  | succ k ih =>
    rcases Nat.lt_or_ge k g with h1 | h1
    · obtain rfl : g = k + 1 := by omega
      exact Nat.le_refl _
    · rw [below_succ]
      exact Nat.le_trans (ih h1) (by omega)

/-- Intervals that do not overlap and whose lengths add up to the end leave no gaps. -/
theorem intervals_cover {X : Type} (l : List X) (lo len : X → Nat) (hnd : l.Nodup)
    (hfit : ∀ x ∈ l, lo x + len x ≤ (l.map len).sum)
    (hdis : ∀ x ∈ l, ∀ y ∈ l, x ≠ y → 0 < len x → 0 < len y → lo x + len x ≤ lo y ∨ lo y + len y ≤ lo x)
    (k : Nat) (hk : k < (l.map len).sum) : ∃ x ∈ l, lo x ≤ k ∧ k < lo x + len x := by
  have hN : (l.flatMap (fun x => List.range' (lo x) (len x))).Nodup := by
    rw [List.nodup_flatMap]
    refine ⟨fun x _ => List.nodup_range', ?_⟩
    refine List.Pairwise.imp_of_mem ?_ hnd
    intro x y hx hy hne a ha hb
    rw [List.mem_range'_1] at ha hb
    have := hdis x hx y hy hne (by omega) (by omega)
    omega
  have hsub : l.flatMap (fun x => List.range' (lo x) (len x)) ⊆ List.range (l.map len).sum := by
    intro a ha
    obtain ⟨x, hx, hax⟩ := List.mem_flatMap.1 ha
    rw [List.mem_range'_1] at hax
    have := hfit x hx
    rw [List.mem_range]; omega
  have hlen : (l.flatMap (fun x => List.range' (lo x) (len x))).length = (l.map len).sum := by
    rw [List.length_flatMap]; simp
  have hp := (List.subperm_of_subset hN hsub).perm_of_length_le (by rw [List.length_range, hlen]; exact Nat.le_refl _)
  have := hp.mem_iff.2 (List.mem_range.2 hk)
  obtain ⟨x, hx, hax⟩ := List.mem_flatMap.1 this
  rw [List.mem_range'_1] at hax
  exact ⟨x, hx, hax⟩

theorem num_between {c : Change} (h : c.Ok) {e : Nat ⊕ ((Nat × Nat) × Nat)} (he : c.New e) :
    c.source e < c.N ∧ c.below (c.source e) ≤ c.num e ∧ c.num e < c.below (c.source e + 1) := by
  rw [below_succ]
  cases e with
  | inl g =>
    obtain ⟨h1, h2⟩ := he
    refine ⟨h1, Nat.le_refl _, ?_⟩
    show c.below g < c.below g + _
    rw [show (if c.stays (c.source (Sum.inl g)) = true then 1 else 0) = 1 from if_pos h2]
    omega
  | inr y =>
    obtain ⟨x, j⟩ := y
    obtain ⟨h1, h2⟩ := he
    have := h.fits x h1
    refine ⟨h.repLt x h1, ?_, ?_⟩
    · show c.below (c.rep x) ≤ c.below (c.rep x) + _ + _ + _
      omega
    · show c.below (c.rep x) + _ + _ + _ < c.below (c.rep x) + (_ + c.represented (c.rep x))
      show c.below (c.rep x) + (if c.stays (c.rep x) then 1 else 0) + c.place x + j <
        c.below (c.rep x) + ((if c.stays (c.rep x) then 1 else 0) + c.represented (c.rep x))
      omega

theorem num_injective {c : Change} (h : c.Ok) {e e' : Nat ⊕ ((Nat × Nat) × Nat)} (he : c.New e) (he' : c.New e')
    (hnum : c.num e = c.num e') : e = e' := by
  obtain ⟨a1, a2, a3⟩ := num_between h he
  obtain ⟨b1, b2, b3⟩ := num_between h he'
  have hsrc : c.source e = c.source e' := by
    rcases Nat.lt_trichotomy (c.source e) (c.source e') with hlt | heq | hgt
    · have := below_mono c (show c.source e + 1 ≤ c.source e' from hlt)
      omega
    · exact heq
    · have := below_mono c (show c.source e' + 1 ≤ c.source e from hgt)
      omega
  cases e with
  | inl g =>
    cases e' with
    | inl g' => exact congrArg Sum.inl hsrc
    | inr y =>
      obtain ⟨x, j⟩ := y
      exfalso
      have h1 : c.below g = c.below (c.rep x) + (if c.stays (c.rep x) then 1 else 0) + c.place x + j := hnum
      have h2 : g = c.rep x := hsrc
      rw [← h2, if_pos he.2] at h1
      omega
  | inr y =>
    obtain ⟨x, j⟩ := y
    cases e' with
    | inl g' =>
      exfalso
      have h1 : c.below (c.rep x) + (if c.stays (c.rep x) then 1 else 0) + c.place x + j = c.below g' := hnum
      have h2 : c.rep x = g' := hsrc
      rw [h2, if_pos he'.2] at h1
      omega
    | inr y' =>
      obtain ⟨x', j'⟩ := y'
      have h1 : c.below (c.rep x) + (if c.stays (c.rep x) then 1 else 0) + c.place x + j =
        c.below (c.rep x') + (if c.stays (c.rep x') then 1 else 0) + c.place x' + j' := hnum
      have h2 : c.rep x = c.rep x' := hsrc
      rw [← h2] at h1
      obtain ⟨hx, hj⟩ := he
      obtain ⟨hx', hj'⟩ := he'
      by_cases e : x = x'
      · subst e
        obtain rfl : j = j' := by omega
        rfl
      · have := h.apart x hx x' hx' e h2 (by omega) (by omega)
        omega

theorem num_onto {c : Change} (h : c.Ok) : ∀ g, g ≤ c.N → ∀ v, v < c.below g → ∃ e, c.New e ∧ c.num e = v := by
  intro g
  induction g with
  | zero =>
    intro _ v hv
    unfold Change.below at hv
    simp at hv
  | succ g ih =>
    intro hg v hv
    by_cases h1 : v < c.below g
    · exact ih (by omega) v h1
    · rw [below_succ] at hv
      by_cases hs : c.stays g = true ∧ v = c.below g
      · exact ⟨.inl g, ⟨by omega, hs.1⟩, hs.2.symm⟩
      · obtain ⟨k, hk⟩ : ∃ k, v = c.below g + (if c.stays g then 1 else 0) + k := by
          refine ⟨v - (c.below g + (if c.stays g then 1 else 0)), ?_⟩
          by_cases hst : c.stays g = true
          · have : v ≠ c.below g := fun e => hs ⟨hst, e⟩
            rw [if_pos hst]; omega
          · rw [if_neg hst]; omega
        have hk2 : k < c.represented g := by omega
        unfold Change.represented at hk2
        obtain ⟨x, hx, l1, l2⟩ := intervals_cover (c.mods.filter (fun x => c.rep x = g)) c.place c.nprods
          (h.once.filter _) (by
            intro x hx
            obtain ⟨x1, x2⟩ := List.mem_filter.1 hx
            have := h.fits x x1
            rw [of_decide_eq_true x2] at this
            exact this) (by
            intro x hx y hy hne
            obtain ⟨x1, x2⟩ := List.mem_filter.1 hx
            obtain ⟨y1, y2⟩ := List.mem_filter.1 hy
            exact h.apart x x1 y y1 hne ((of_decide_eq_true x2).trans (of_decide_eq_true y2).symm)) k hk2
        obtain ⟨x1, x2⟩ := List.mem_filter.1 hx
        have x2 := of_decide_eq_true x2
        refine ⟨.inr (x, k - c.place x), ⟨x1, by omega⟩, ?_⟩
        show c.below (c.rep x) + (if c.stays (c.rep x) then 1 else 0) + c.place x + (k - c.place x) = v
        rw [x2]; omega

theorem num_lt {c : Change} (h : c.Ok) {e : Nat ⊕ ((Nat × Nat) × Nat)} (he : c.New e) : c.num e < c.below c.N := by
  obtain ⟨a1, a2, a3⟩ := num_between h he
  exact Nat.lt_of_lt_of_le a3 (below_mono c a1)

end OmegaH
