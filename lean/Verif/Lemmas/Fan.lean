import Verif.Spec.Map
import Verif.Lemmas.Map

/-! Helper lemmas about fan offsets. -/

namespace OmegaH
open Spec

theorem fan_le {o : List Nat} (h : IsFan o) : ∀ {i j : Nat}, i ≤ j → ∀ {x y : Nat}, o[i]? = some x →
    o[j]? = some y → x ≤ y := by
  intro i j hij
  induction j with
  | zero =>
    intro x y hx hy
    have : i = 0 := by omega
    subst this
    rw [hx] at hy; have := Option.some.inj hy; omega
  | succ j ih =>
    intro x y hx hy
    rcases Nat.lt_or_ge j i with hlt | hge
    · have : i = j + 1 := by omega
      subst this
      rw [hx] at hy; have := Option.some.inj hy; omega
    · have hj := (List.getElem?_eq_some_iff.1 hy).1
      have hz := List.getElem?_eq_getElem (show j < o.length by omega)
      have h1 := ih hge hx hz
      have h2 := h.2 j _ _ hz hy
      omega

theorem fan_ne_nil {o : List Nat} (h : IsFan o) : o ≠ [] := by
  intro e; subst e; simp [IsFan] at h

theorem fan_last {o : List Nat} (h : IsFan o) :
    ∃ n, o.getLast? = some n ∧ o[o.length - 1]? = some n := by
  have hn := fan_ne_nil h
  have hl : 0 < o.length := by cases o with | nil => exact absurd rfl hn | cons => simp
  refine ⟨o[o.length - 1], ?_, List.getElem?_eq_getElem (by omega)⟩
  rw [List.getLast?_eq_getElem?, List.getElem?_eq_getElem (by omega)]

theorem inFan_unique {o : List Nat} (h : IsFan o) {a a' b : Nat} (h1 : InFan o a b)
    (h2 : InFan o a' b) : a = a' := by
  obtain ⟨lo, hi, e1, e2, e3, e4⟩ := h1
  obtain ⟨lo', hi', f1, f2, f3, f4⟩ := h2
  rcases Nat.lt_trichotomy a a' with hlt | heq | hgt
  · have := fan_le h (show a + 1 ≤ a' by omega) e2 f1; omega
  · exact heq
  · have := fan_le h (show a' + 1 ≤ a by omega) f2 e1; omega

theorem inFan_lt {o : List Nat} (h : IsFan o) {a b n : Nat} (h1 : InFan o a b)
    (hn : o[o.length - 1]? = some n) : b < n ∧ a < o.length - 1 := by
  obtain ⟨lo, hi, e1, e2, e3, e4⟩ := h1
  have hl := (List.getElem?_eq_some_iff.1 e2).1
  have := fan_le h (show a + 1 ≤ o.length - 1 by omega) e2 hn
  omega

theorem inFan_cover {o : List Nat} (h : IsFan o) {b n : Nat}
    (hn : o[o.length - 1]? = some n) (hb : b < n) : ∃ a, InFan o a b := by
  have : ∀ k : Nat, ∀ m, o[k]? = some m → b < m → ∃ a, InFan o a b := by
    intro k
    induction k with
    | zero => intro m hm hbm; rw [h.1] at hm; have := Option.some.inj hm; omega
    | succ k ih =>
      intro m hm hbm
      have hj := (List.getElem?_eq_some_iff.1 hm).1
      have hz := List.getElem?_eq_getElem (show k < o.length by omega)
      by_cases hc : b < o[k]
      · exact ih _ hz hc
      · exact ⟨k, o[k], m, hz, hm, by omega, hbm⟩
  exact this _ n hn hb

theorem fanMembers_spec {o : List Nat} {a : Nat} (ha : a < o.length - 1) :
    ∃ bs, fanMembers o a = some bs ∧ bs.Nodup ∧ ∀ b, b ∈ bs ↔ InFan o a b := by
  have e1 := List.getElem?_eq_getElem (show a < o.length by omega)
  have e2 := List.getElem?_eq_getElem (show a + 1 < o.length by omega)
  refine ⟨List.range' o[a] (o[a + 1] - o[a]), ?_, List.nodup_range', ?_⟩
  · unfold fanMembers; rw [e1, e2]
  · intro b
    rw [List.mem_range'_1]
    constructor
    · intro h; exact ⟨_, _, e1, e2, by omega, by omega⟩
    · rintro ⟨lo, hi, f1, f2, f3, f4⟩
      rw [e1] at f1; rw [e2] at f2
      have := Option.some.inj f1; have := Option.some.inj f2
      omega

theorem mapM_list_spec {α β : Type} (l : List α) (W : α → Option β) (h : ∀ x ∈ l, (W x).isSome) :
    ∃ out, l.mapM W = some out ∧ out.length = l.length ∧
      (∀ y, y ∈ out ↔ ∃ x ∈ l, W x = some y) ∧
      ∀ (i : Nat) (x : α), l[i]? = some x → out[i]? = W x := by
  induction l with
  | nil => exact ⟨[], rfl, rfl, by simp, by simp⟩
  | cons a l ih =>
    obtain ⟨out, h1, h2, h3, h4⟩ := ih (fun x hx => h x (by simp [hx]))
    obtain ⟨v, hv⟩ := Option.isSome_iff_exists.1 (h a (by simp))
    refine ⟨v :: out, ?_, by simp [h2], ?_, ?_⟩
    · rw [List.mapM_cons, hv, h1]; rfl
    · intro y
      rw [List.mem_cons, h3]
      constructor
      · rintro (rfl | ⟨x, hx, hy⟩)
        · exact ⟨a, by simp, hv⟩
        · exact ⟨x, by simp [hx], hy⟩
      · rintro ⟨x, hx, hy⟩
        rcases List.mem_cons.1 hx with rfl | hx
        · left; rw [hv] at hy; exact (Option.some.inj hy).symm
        · exact Or.inr ⟨x, hx, hy⟩
    · intro i x hx
      cases i with
      | zero => simp only [List.getElem?_cons_zero, Option.some.injEq] at hx ⊢; subst hx; exact hv.symm
      | succ i => simpa using h4 i x (by simpa using hx)

end OmegaH
