import Mathlib.Algebra.Order.Field.Basic
import Mathlib.Algebra.Order.BigOperators.Group.List
import Mathlib.Tactic.Ring
import Mathlib.Tactic.LinearCombination
import Verif.Lemmas.Tables
/-!
# Sums of errors and integrals over parts of a mesh
-/
namespace OmegaH
open Spec

section
variable {K : Type} [Field K]

/-- The sum of `f` over the members of `l` that are in `P`. -/
def sumOver {α : Type} (P : α → Bool) (f : α → K) (l : List α) : K := ((l.filter P).map f).sum

theorem sumOver_nil {α : Type} (P : α → Bool) (f : α → K) : sumOver P f [] = 0 := rfl

theorem sumOver_cons {α : Type} (P : α → Bool) (f : α → K) (a : α) (l : List α) :
    sumOver P f (a :: l) = (if P a then f a else 0) + sumOver P f l := by
  unfold sumOver
  cases h : P a <;> simp [h]

theorem sumOver_append {α : Type} (P : α → Bool) (f : α → K) (l m : List α) :
    sumOver P f (l ++ m) = sumOver P f l + sumOver P f m := by
  unfold sumOver
  rw [List.filter_append, List.map_append, List.sum_append]

theorem sumOver_perm {α : Type} (P : α → Bool) (f : α → K) {l m : List α} (h : l.Perm m) : sumOver P f l = sumOver P f m :=
  ((h.filter P).map f).sum_eq

theorem sumOver_add {α : Type} (P : α → Bool) (f g : α → K) (l : List α) :
    sumOver P (fun a => f a + g a) l = sumOver P f l + sumOver P g l := by
  induction l with
  | nil => simp [sumOver_nil]
  | cons a l ih => simp only [sumOver_cons, ih]; split <;> ring

theorem sumOver_sub {α : Type} (P : α → Bool) (f g : α → K) (l : List α) :
    sumOver P (fun a => f a - g a) l = sumOver P f l - sumOver P g l := by
  induction l with
  | nil => simp [sumOver_nil]
  | cons a l ih => simp only [sumOver_cons, ih]; split <;> ring

theorem sumOver_mul {α : Type} (P : α → Bool) (f : α → K) (c : K) (l : List α) :
    sumOver P (fun a => c * f a) l = c * sumOver P f l := by
  induction l with
  | nil => simp [sumOver_nil]
  | cons a l ih => simp only [sumOver_cons, ih]; split <;> ring

theorem sumOver_map {α β : Type} (P : β → Bool) (f : β → K) (g : α → β) (l : List α) :
    sumOver P f (l.map g) = sumOver (fun a => P (g a)) (fun a => f (g a)) l := by
  induction l with
  | nil => rfl
  | cons a l ih => rw [List.map_cons, sumOver_cons, sumOver_cons, ih]

theorem sumOver_congr {α : Type} {P Q : α → Bool} {f g : α → K} {l : List α} (h : ∀ a ∈ l, P a = Q a ∧ (P a = true → f a = g a)) :
    sumOver P f l = sumOver Q g l := by
  induction l with
  | nil => rfl
  | cons a l ih =>
    rw [sumOver_cons, sumOver_cons, ih (fun b hb => h b (List.mem_cons_of_mem _ hb))]
    obtain ⟨h1, h2⟩ := h a (List.mem_cons_self ..)
    rw [← h1]
    cases hp : P a
    · simp
    · rw [h2 hp]

theorem sumOver_flatMap {κ α : Type} (P : α → Bool) (f : α → K) (keys : List κ) (R : κ → List α) :
    sumOver P f (keys.flatMap R) = (keys.map (fun k => sumOver P f (R k))).sum := by
  induction keys with
  | nil => rfl
  | cons k keys ih => rw [List.flatMap_cons, sumOver_append, ih, List.map_cons, List.sum_cons]

theorem sumOver_true {α : Type} (f : α → K) (l : List α) : sumOver (fun _ => true) f l = (l.map f).sum := by
  unfold sumOver; simp

/-- Sums of what is gathered at each place. -/
theorem sumOver_gather {β : Type} (P : Nat → Bool) (M : List (β × Nat)) (A : β × Nat → K) (n : Nat) (hr : ∀ p ∈ M, p.2 < n) :
    sumOver P (fun e => ((M.filter (fun p => decide (p.2 = e))).map A).sum) (List.range n) = sumOver (fun p => P p.2) A M := by
  induction M with
  | nil =>
    rw [sumOver_nil]
    unfold sumOver
    simp
  | cons p M ih =>
    have h1 := ih (fun q hq => hr q (List.mem_cons_of_mem _ hq))
    have hp := hr p (List.mem_cons_self ..)
    rw [sumOver_cons, ← h1]
    have h2 : ∀ e, (((p :: M).filter (fun p => decide (p.2 = e))).map A).sum
        = (if p.2 = e then A p else 0) + ((M.filter (fun p => decide (p.2 = e))).map A).sum := by
      intro e
      by_cases h : p.2 = e
      · rw [List.filter_cons_of_pos (by simpa using h), if_pos h]; simp
      · rw [List.filter_cons_of_neg (by simpa using h), if_neg h]; simp
    simp only [h2]
    rw [sumOver_add]
    congr 1
    have h3 : ∀ n, sumOver P (fun e => if p.2 = e then A p else 0) (List.range n) = if p.2 < n then (if P p.2 then A p else 0) else 0 := by
      intro n
      induction n with
      | zero => simp [sumOver_nil]
      | succ n ihn =>
        rw [List.range_succ, sumOver_append, ihn, sumOver_cons, sumOver_nil, add_zero]
        rcases Nat.lt_trichotomy p.2 n with h | h | h
        · rw [if_pos h, if_pos (by omega : p.2 < n + 1), if_neg (by omega : ¬ p.2 = n)]; simp
        · rw [if_neg (by omega : ¬ p.2 < n), if_pos (by omega : p.2 < n + 1), if_pos h, h]; simp
        · rw [if_neg (by omega : ¬ p.2 < n), if_neg (by omega : ¬ p.2 < n + 1), if_neg (by omega : ¬ p.2 = n)]; simp
    rw [h3, if_pos hp]

variable [LinearOrder K] [IsStrictOrderedRing K]

theorem sum_pos_of {l : List Nat} {Z : Nat → K} (hl : l ≠ []) (h : ∀ e ∈ l, 0 < Z e) : 0 < (l.map Z).sum := by
  apply List.sum_pos
  · intro x hx
    obtain ⟨e, he, rfl⟩ := List.mem_map.1 hx
    exact h e he
  · simpa using hl

/-- What `spreadErrors` does to sums of errors. -/
theorem spreadErrors_spec {κ : Type} (s : Nat → Sched) (keys : List κ) (R : κ → List Nat) (Z : Nat → K) (w n : Nat) (X : κ → Nat → K)
    (E : Nat → Nat → K) (hn : (keys.flatMap R).Nodup) (hr : ∀ e ∈ keys.flatMap R, e < n) (hZ : ∀ e ∈ keys.flatMap R, 0 < Z e)
    (h0 : ∀ k ∈ keys, R k = [] → ∀ j, j < w → X k j = 0) :
    ∃ E', spreadErrors s (graphOn keys R) ((keys.flatMap R).map Z) (tableOf keys w X) w (tableOf (List.range n) w E)
        = some (tableOf (List.range n) w E') ∧
      ∀ (P : Nat → Bool) (Q : κ → Bool), (∀ k ∈ keys, ∀ e ∈ R k, P e = Q k) → ∀ j, j < w →
        sumOver P (fun e => E' e j) (List.range n) = sumOver P (fun e => E e j) (List.range n) + sumOver Q (fun k => X k j) keys := by
  have hmap : (edgesOn keys R).map (fun p => Z p.2) = (keys.flatMap R).map Z := by
    rw [← edgesOn_snd, List.map_map]; rfl
  have hs1 : fanReduce (s 0) sumFunctorK (graphOn keys R).a2ab ((keys.flatMap R).map Z) 1 = some (keys.map (fun k => ((R k).map Z).sum)) := by
    have := sum_table (s 0) keys R 1 (fun p _ => Z p.2)
    rw [tableOf_one, tableOf_one, hmap] at this
    exact this
  have hpos : ∀ k ∈ keys, R k ≠ [] → 0 < ((R k).map Z).sum := by
    intro k hk hne
    exact sum_pos_of hne (fun e he => hZ e (List.mem_flatMap.2 ⟨k, hk, he⟩))
  have hs2 := divide_table (s 1) keys w X (fun k => ((R k).map Z).sum) (by
    intro k hk hz j hj
    by_cases hne : R k = []
    · exact h0 k hk hne j hj
    · exact absurd hz (ne_of_gt (hpos k hk hne)))
  have hs3 := expand_table (s 2) keys R w (fun k j => X k j / ((R k).map Z).sum)
  have hs4 := multiply_table (s 3) (edgesOn keys R) w (fun p j => X p.1 j / ((R p.1).map Z).sum) (fun p => Z p.2)
  rw [hmap] at hs4
  have hr' : ∀ p ∈ edgesOn keys R, p.2 < n := by
    intro p hp
    apply hr
    rw [← edgesOn_snd]
    exact List.mem_map_of_mem hp
  have hs5 := addInto_table (s 4) (edgesOn keys R) w n (fun p j => X p.1 j / ((R p.1).map Z).sum * Z p.2) E
    (by rw [edgesOn_snd]; exact hn) hr'
  rw [edgesOn_snd] at hs5
  refine ⟨_, by unfold spreadErrors; simp only [bind, hs1, Option.bind_some, hs2, hs3, hs4]; exact hs5, ?_⟩
  intro P Q hPQ j hj
  rw [sumOver_add]
  congr 1
  rw [sumOver_gather P (edgesOn keys R) (fun p => X p.1 j / ((R p.1).map Z).sum * Z p.2) n hr']
  unfold edgesOn
  rw [sumOver_flatMap]
  unfold sumOver
  rw [show ((keys.filter Q).map (fun k => X k j)).sum = sumOver Q (fun k => X k j) keys from rfl]
  clear hmap hs1 hs2 hs3 hs4 hs5 hr' hr hn hZ
  induction keys with
  | nil => rfl
  | cons k keys ih =>
    rw [List.map_cons, List.sum_cons, sumOver_cons, ih (fun k' hk' => h0 k' (List.mem_cons_of_mem _ hk'))
      (fun k' hk' => hpos k' (List.mem_cons_of_mem _ hk')) (fun k' hk' => hPQ k' (List.mem_cons_of_mem _ hk'))]
    congr 1
    have hq := hPQ k (List.mem_cons_self ..)
    cases hQ : Q k
    · rw [List.filter_eq_nil_iff.2]
      · simp
      · intro p hp
        obtain ⟨e, he, rfl⟩ := List.mem_map.1 hp
        simp [hq e he, hQ]
    · rw [List.filter_eq_self.2]
      · rw [List.map_map, if_pos rfl]
        show ((R k).map (fun e => X k j / ((R k).map Z).sum * Z e)).sum = _
        rw [← sumOver_true, sumOver_mul, sumOver_true]
        by_cases hne : R k = []
        · rw [h0 k (List.mem_cons_self ..) hne j hj]; simp
        · exact div_mul_cancel₀ _ (ne_of_gt (hpos k (List.mem_cons_self ..) hne))
      · intro p hp
        obtain ⟨e, he, rfl⟩ := List.mem_map.1 hp
        rw [hq e he, hQ]

omit [LinearOrder K] [IsStrictOrderedRing K] in
/-- `sumOver` of rows that are entirely in or out. -/
theorem sumOver_rows {κ : Type} (P : Nat → Bool) (Q : κ → Bool) (f : Nat → K) (keys : List κ) (R : κ → List Nat)
    (h : ∀ k ∈ keys, ∀ e ∈ R k, P e = Q k) : sumOver Q (fun k => ((R k).map f).sum) keys = sumOver P f (keys.flatMap R) := by
  induction keys with
  | nil => rfl
  | cons k keys ih =>
    rw [List.flatMap_cons, sumOver_append, sumOver_cons, ih (fun k' hk' => h k' (List.mem_cons_of_mem _ hk'))]
    congr 1
    have hq := h k (List.mem_cons_self ..)
    unfold sumOver
    cases hQ : Q k
    · rw [List.filter_eq_nil_iff.2 (fun e he => by simp [hq e he, hQ])]; simp
    · rw [List.filter_eq_self.2 (fun e he => by rw [hq e he, hQ])]; simp

/-- The cavities of a set of keys. -/
def cavsOn {κ : Type} (keys : List κ) (Ro Rn : κ → List Nat) : Cavs := ⟨graphOn keys Ro, graphOn keys Rn⟩

theorem carryError_spec {κ : Type} (s : Nat → Sched) (new : ElemMesh K) (keys : List κ) (Ro Rn : κ → List Nat) (Z : Nat → K) (w no n : Nat)
    (Eo E : Nat → Nat → K) (hs : new.sizes = (List.range n).map Z)
    (hro : ∀ e ∈ keys.flatMap Ro, e < no)
    (hn : (keys.flatMap Rn).Nodup) (hr : ∀ e ∈ keys.flatMap Rn, e < n) (hZ : ∀ e ∈ keys.flatMap Rn, 0 < Z e)
    (h0 : ∀ k ∈ keys, Rn k = [] → Ro k = []) :
    ∃ E', carryError s new (cavsOn keys Ro Rn) (tableOf (List.range no) w Eo) w (tableOf (List.range n) w E)
        = some (tableOf (List.range n) w E') ∧
      ∀ (P P' : Nat → Bool) (Q : κ → Bool), (∀ k ∈ keys, ∀ e ∈ Rn k, P e = Q k) → (∀ k ∈ keys, ∀ e ∈ Ro k, P' e = Q k) → ∀ j, j < w →
        sumOver P (fun e => E' e j) (List.range n)
          = sumOver P (fun e => E e j) (List.range n) + sumOver P' (fun e => Eo e j) (keys.flatMap Ro) := by
  have h1 := unmap_ones (s 0) (keys.flatMap Rn) n Z hr
  have h2 := unmap_table (s 1) (keys.flatMap Ro) no w Eo hro
  have h3 := sum_table (s 2) keys Ro w (fun p j => Eo p.2 j)
  rw [show tableOf (edgesOn keys Ro) w (fun p j => Eo p.2 j) = tableOf (keys.flatMap Ro) w Eo by
    rw [← edgesOn_snd, tableOf_map]] at h3
  obtain ⟨E', e1, e2⟩ := spreadErrors_spec (fun k => s (k + 3)) keys Rn Z w n (fun k j => ((Ro k).map (fun e => Eo e j)).sum) E hn hr hZ (by
    intro k hk he j hj
    rw [h0 k hk he]; rfl)
  refine ⟨E', ?_, ?_⟩
  · unfold carryError cavsOn
    rw [hs]
    simp only [bind]
    have h1' : unmap (s 0) (graphOn keys Rn).ab2b ((List.range n).map Z) 1 = _ := h1
    have h2' : unmap (s 1) (graphOn keys Ro).ab2b (tableOf (List.range no) w Eo) w = _ := h2
    rw [h1', Option.bind_some, h2', Option.bind_some, h3, Option.bind_some]
    exact e1
  · intro P P' Q hP hP' j hj
    rw [e2 P Q hP j hj, sumOver_rows P' Q (fun e => Eo e j) keys Ro hP']

omit [LinearOrder K] [IsStrictOrderedRing K] in
theorem cavIntegrals_spec {κ : Type} (s : Nat → Sched) (keys : List κ) (R : κ → List Nat) (D : Nat → Nat → K) (Z : Nat → K) (w n : Nat)
    (hr : ∀ e ∈ keys.flatMap R, e < n) :
    cavIntegrals s (graphOn keys R) (tableOf (List.range n) w D) ((List.range n).map Z) w
      = some (tableOf keys w (fun k j => ((R k).map (fun e => D e j * Z e)).sum)) := by
  have h1 := unmap_table (s 0) (keys.flatMap R) n w D hr
  have h2 := unmap_ones (s 1) (keys.flatMap R) n Z hr
  have h3 := multiply_table (s 2) (keys.flatMap R) w D Z
  have h4 := sum_table (s 3) keys R w (fun p j => D p.2 j * Z p.2)
  rw [show tableOf (edgesOn keys R) w (fun p j => D p.2 j * Z p.2) = tableOf (keys.flatMap R) w (fun e j => D e j * Z e) by
    rw [← edgesOn_snd, tableOf_map]] at h4
  unfold cavIntegrals
  simp only [bind]
  have h1' : unmap (s 0) (graphOn keys R).ab2b (tableOf (List.range n) w D) w = _ := h1
  have h2' : unmap (s 1) (graphOn keys R).ab2b ((List.range n).map Z) 1 = _ := h2
  rw [h1', Option.bind_some, h2', Option.bind_some, h3, Option.bind_some]
  exact h4

theorem introduceError_spec {κ : Type} (s : Nat → Sched) (old new : ElemMesh K) (keys : List κ) (Ro Rn : κ → List Nat) (Zo Z : Nat → K)
    (w no n : Nat) (Do D E : Nat → Nat → K) (hno : no ≠ 0) (hne : old.nelems = no) (hso : old.sizes = (List.range no).map Zo)
    (hs : new.sizes = (List.range n).map Z) (hro : ∀ e ∈ keys.flatMap Ro, e < no)
    (hn : (keys.flatMap Rn).Nodup) (hr : ∀ e ∈ keys.flatMap Rn, e < n) (hZ : ∀ e ∈ keys.flatMap Rn, 0 < Z e)
    (h0 : ∀ k ∈ keys, Rn k = [] → Ro k = []) :
    ∃ E', introduceError s old new (cavsOn keys Ro Rn) (tableOf (List.range no) w Do) (tableOf (List.range n) w D) (tableOf (List.range n) w E)
        = some (tableOf (List.range n) w E') ∧
      ∀ (P P' : Nat → Bool) (Q : κ → Bool), (∀ k ∈ keys, ∀ e ∈ Rn k, P e = Q k) → (∀ k ∈ keys, ∀ e ∈ Ro k, P' e = Q k) → ∀ j, j < w →
        sumOver P (fun e => E' e j) (List.range n)
          = sumOver P (fun e => E e j) (List.range n) + (sumOver P (fun e => D e j * Z e) (keys.flatMap Rn)
            - sumOver P' (fun e => Do e j * Zo e) (keys.flatMap Ro)) := by
  have h1 := cavIntegrals_spec s keys Ro Do Zo w no hro
  have h2 := cavIntegrals_spec (fun k => s (k + 4)) keys Rn D Z w n hr
  have h3 := subtract_table (s 8) keys w (fun k j => ((Rn k).map (fun e => D e j * Z e)).sum) (fun k j => ((Ro k).map (fun e => Do e j * Zo e)).sum)
  have h4 : unmap (s 9) (graphOn keys Rn).ab2b ((List.range n).map Z) 1 = _ := unmap_ones (s 9) (keys.flatMap Rn) n Z hr
  have hdiv : divideNoRemainder (tableOf (List.range no) w Do).length old.nelems = some w := by
    rw [hne]
    exact divide_width hno (by rw [tableOf_length, List.length_range])
  obtain ⟨E', e1, e2⟩ := spreadErrors_spec (fun k => s (k + 10)) keys Rn Z w n
    (fun k j => ((Rn k).map (fun e => D e j * Z e)).sum - ((Ro k).map (fun e => Do e j * Zo e)).sum) E hn hr hZ (by
    intro k hk he j hj
    rw [h0 k hk he, he]; simp)
  refine ⟨E', ?_, ?_⟩
  · unfold introduceError
    rw [hs, hso, hdiv]
    simp only [bind, Option.bind_some]
    unfold cavsOn
    simp only
    rw [h1, Option.bind_some, h2, Option.bind_some, h3, Option.bind_some, h4, Option.bind_some]
    exact e1
  · intro P P' Q hP hP' j hj
    rw [e2 P Q hP j hj, sumOver_sub, sumOver_rows P Q (fun e => D e j * Z e) keys Rn hP, sumOver_rows P' Q (fun e => Do e j * Zo e) keys Ro hP']

end
end OmegaH
