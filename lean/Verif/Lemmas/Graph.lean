import Verif.Model.Graph
import Verif.Spec.Graph
import Verif.Lemmas.Fan
import Verif.Lemmas.Perm
import Verif.Lemmas.Offsets
import Verif.Props.C02

/-! Helper lemmas about map inversion. -/

namespace OmegaH
open Spec

theorem sum_set_succ (l : List Nat) : ∀ (b d : Nat), l[b]? = some d →
    (l.set b (d + 1)).sum = l.sum + 1 := by
  induction l with
  | nil => intro b d h; simp at h
  | cons x l ih =>
    intro b d h
    cases b with
    | zero => simp at h; subst h; simp; omega
    | succ b => simp at h; simp [ih b d h]; omega

theorem atomicCounts_spec (a2b : List Nat) (nb : Nat) (hr : InRange a2b nb) (l : List Nat) :
    ∀ (deg : List Nat), deg.length = nb → (∀ a ∈ l, a < a2b.length) →
    ∃ out, atomicCounts a2b l deg = some out ∧ out.length = nb ∧ out.sum = deg.sum + l.length ∧
      ∀ (b d : Nat), deg[b]? = some d →
        out[b]? = some (d + l.countP (fun a => decide (a2b[a]? = some b))) := by
  induction l with
  | nil => intro deg h _; exact ⟨deg, rfl, h, by simp, by simp⟩
  | cons a l ih =>
    intro deg h hl
    have ha := hl a (by simp)
    have hb := hr _ (List.getElem_mem ha)
    have e1 := List.getElem?_eq_getElem ha
    have e2 := List.getElem?_eq_getElem (show a2b[a] < deg.length by omega)
    obtain ⟨out, o1, o2, o3, o4⟩ := ih (deg.set a2b[a] (deg[a2b[a]]'(by omega) + 1)) (by simpa using h)
      (fun x hx => hl x (by simp [hx]))
    refine ⟨out, ?_, o2, ?_, ?_⟩
    · unfold atomicCounts
      simp only [e1, e2]
      exact o1
    · rw [o3, sum_set_succ _ _ _ e2]; simp; omega
    · intro b d hd
      rw [List.countP_cons]
      by_cases hc : a2b[a] = b
      · have hd' : deg[a2b[a]]'(by omega) = d := by
          have e : some (deg[a2b[a]]'(by omega)) = some d := by rw [← e2, hc]; exact hd
          exact Option.some.inj e
        have := o4 b (d + 1) (by rw [← hc, List.getElem?_set_self (by omega), hd'])
        rw [this]; simp [hc, ha]; omega
      · have := o4 b d (by rw [List.getElem?_set_ne hc]; exact hd)
        rw [this]; simp [hc, ha]

theorem fetchAdds_spec (a2b b2ba : List Nat) (nb : Nat) (hr : InRange a2b nb)
    (hoff : nb ≤ b2ba.length) (l : List Nat) :
    ∀ (pos : List Nat), pos.length = nb → (∀ a ∈ l, a < a2b.length) →
    ∃ ws, fetchAdds a2b b2ba l pos = some ws ∧ ws.length = l.length ∧
      ∀ (k a b f c : Nat), l[k]? = some a → a2b[a]? = some b → b2ba[b]? = some f → pos[b]? = some c →
        ws[k]? = some (f + (c + (l.take k).countP (fun x => decide (a2b[x]? = some b))), a) := by
  induction l with
  | nil => intro pos _ _; exact ⟨[], rfl, rfl, by simp⟩
  | cons a l ih =>
    intro pos h hl
    have ha := hl a (by simp)
    have hb := hr _ (List.getElem_mem ha)
    have e1 := List.getElem?_eq_getElem ha
    have e2 := List.getElem?_eq_getElem (show a2b[a] < pos.length by omega)
    have e3 := List.getElem?_eq_getElem (show a2b[a] < b2ba.length by omega)
    obtain ⟨ws, w1, w2, w3⟩ := ih (pos.set a2b[a] (pos[a2b[a]]'(by omega) + 1)) (by simpa using h)
      (fun x hx => hl x (by simp [hx]))
    refine ⟨(b2ba[a2b[a]]'(by omega) + pos[a2b[a]]'(by omega), a) :: ws, ?_, by simp [w2], ?_⟩
    · unfold fetchAdds
      simp only [e1, e2, e3, w1]
      rfl
    · intro k x b f c hk hx hf hc
      cases k with
      | zero =>
        simp only [List.getElem?_cons_zero, Option.some.injEq] at hk
        subst hk
        rw [e1] at hx
        have := Option.some.inj hx
        subst this
        rw [e3] at hf; rw [e2] at hc
        have h1 := Option.some.inj hf; have h2 := Option.some.inj hc
        simp [h1, h2]
      | succ k =>
        simp only [List.getElem?_cons_succ] at hk ⊢
        rw [List.take_succ_cons, List.countP_cons]
        by_cases hcb : a2b[a] = b
        · have hc' : pos[a2b[a]]'(by omega) = c := by
            have e : some (pos[a2b[a]]'(by omega)) = some c := by rw [← e2, hcb]; exact hc
            exact Option.some.inj e
          rw [w3 k x b f (c + 1) hk hx hf (by rw [← hcb, List.getElem?_set_self (by omega), hc'])]
          simp [hcb, ha]; omega
        · rw [w3 k x b f c hk hx hf (by rw [List.getElem?_set_ne hcb]; exact hc)]
          simp [hcb, ha]

theorem toIndices?_map (l : List Nat) : toIndices? (l.map Int.ofNat) = some l := by
  unfold toIndices?
  induction l with
  | nil => rfl
  | cons a l ih => rw [List.map_cons, List.mapM_cons, ih]; rfl

/-- Entries below `x` in a list. -/
def cntLt (l : List Nat) (x : Nat) : Nat := l.countP (fun y => decide (y < x))

theorem cntLt_mono (l : List Nat) {x y : Nat} (h : x ≤ y) : cntLt l x ≤ cntLt l y := by
  unfold cntLt
  apply List.countP_mono_left
  intro z _ hz
  simp only [decide_eq_true_eq] at hz ⊢; omega

theorem cntLt_of_split (l : List Nat) (x k : Nat) (hk : k ≤ l.length)
    (h1 : ∀ i (_ : i < l.length), i < k → l[i] < x) (h2 : ∀ i (_ : i < l.length), k ≤ i → x ≤ l[i]) :
    cntLt l x = k := by
  unfold cntLt
  rw [← List.take_append_drop k l, List.countP_append]
  have a1 : (l.take k).countP (fun y => decide (y < x)) = k := by
    have hlen : (l.take k).length = k := by simp; omega
    refine Eq.trans ?_ hlen
    rw [List.countP_eq_length]
    intro y hy
    obtain ⟨i, hi⟩ := List.mem_iff_getElem?.1 hy
    have hik := (List.getElem?_eq_some_iff.1 hi).1
    rw [hlen] at hik
    rw [List.getElem?_take, if_pos hik, List.getElem?_eq_getElem (by omega)] at hi
    have := h1 i (by omega) hik
    have := Option.some.inj hi
    simp; omega
  have a2 : (l.drop k).countP (fun y => decide (y < x)) = 0 := by
    rw [List.countP_eq_zero]
    intro y hy
    obtain ⟨i, hi⟩ := List.mem_iff_getElem?.1 hy
    rw [List.getElem?_drop] at hi
    have hik := (List.getElem?_eq_some_iff.1 hi).1
    rw [List.getElem?_eq_getElem hik] at hi
    have := h2 (k + i) hik (by omega)
    have := Option.some.inj hi
    simp; omega
  omega

theorem lt_cntLt_iff (l : List Nat) (hs : l.Pairwise (· ≤ ·)) (p x : Nat) (hp : p < l.length) :
    p < cntLt l x ↔ l[p] < x := by
  rw [List.pairwise_iff_getElem] at hs
  constructor
  · intro h
    rcases Nat.lt_or_ge l[p] x with h' | h'
    · exact h'
    · exfalso
      -- everything from p on is ≥ x, so the count is at most p
      have : cntLt l x ≤ p := by
        unfold cntLt
        rw [← List.take_append_drop p l, List.countP_append]
        have a1 : (l.take p).countP (fun y => decide (y < x)) ≤ p := by
          refine Nat.le_trans List.countP_le_length ?_
          simp; omega
        have a2 : (l.drop p).countP (fun y => decide (y < x)) = 0 := by
          rw [List.countP_eq_zero]
          intro y hy
          obtain ⟨i, hi⟩ := List.mem_iff_getElem?.1 hy
          rw [List.getElem?_drop] at hi
          have hik := (List.getElem?_eq_some_iff.1 hi).1
          rw [List.getElem?_eq_getElem hik] at hi
          have := Option.some.inj hi
          have : l[p] ≤ l[p + i] := by
            rcases Nat.eq_zero_or_pos i with h0 | h0
            · subst h0; simp
            · exact hs p (p + i) hp hik (by omega)
          simp; omega
        omega
      omega
  · intro h
    unfold cntLt
    have hlen : (l.take (p + 1)).length = p + 1 := by simp; omega
    have a1 : (l.take (p + 1)).countP (fun y => decide (y < x)) = (l.take (p + 1)).length := by
      rw [List.countP_eq_length]
      intro y hy
      obtain ⟨i, hi⟩ := List.mem_iff_getElem?.1 hy
      have hik := (List.getElem?_eq_some_iff.1 hi).1
      rw [hlen] at hik
      rw [List.getElem?_take, if_pos hik, List.getElem?_eq_getElem (by omega)] at hi
      have := Option.some.inj hi
      have : l[i] ≤ l[p] := by
        rcases Nat.lt_or_ge i p with h0 | h0
        · exact hs i p (by omega) hp h0
        · have : i = p := by omega
          subst this; exact Nat.le_refl _
      simp; omega
    have := List.countP_append (p := fun y => decide (y < x)) (l₁ := l.take (p + 1)) (l₂ := l.drop (p + 1))
    rw [List.take_append_drop] at this
    omega

end OmegaH
