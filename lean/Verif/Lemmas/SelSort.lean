import Verif.Model.Adj
import Verif.Lemmas.Fan
import Verif.Spec.Adj
import Mathlib.Data.List.Basic

/-! # The in-place selection sort of one fan -/

namespace OmegaH

open Spec

theorem swapAt_map {α β : Type} (f : α → β) (a : List α) (i j : Nat) :
    swapAt (a.map f) i j = (swapAt a i j).map (List.map f) := by
  unfold swapAt
  rw [List.getElem?_map, List.getElem?_map]
  cases a[i]? <;> cases a[j]? <;> simp [List.map_set]

theorem minFrom_fold (a : List Nat) (j : Nat) : ∀ (len k : Nat) (b : Nat × Nat), k + len ≤ a.length →
    b.1 < k → j ≤ b.1 → j ≤ k → a[b.1]? = some b.2 →
    (∀ (q x : Nat), j ≤ q → q < k → a[q]? = some x → b.2 ≤ x) →
    ∃ b', (List.range' k len).foldlM (fun (best : Nat × Nat) k =>
      (a[k]?).map (fun h => if h < best.2 then (k, h) else best)) b = some b' ∧
      j ≤ b'.1 ∧ b'.1 < k + len ∧ a[b'.1]? = some b'.2 ∧
      (∀ (q x : Nat), j ≤ q → q < k + len → a[q]? = some x → b'.2 ≤ x) := by
  intro len
  induction len with
  | zero =>
    intro k b _ h1 h2 _ h3 h4
    exact ⟨b, rfl, h2, h1, h3, h4⟩
  | succ len ih =>
    intro k b hk h1 h2 hjk h3 h4
    have hak := List.getElem?_eq_getElem (show k < a.length by omega)
    rw [List.range'_succ, List.foldlM_cons, hak]
    simp only [Option.map_some, Option.bind_eq_bind, Option.bind_some]
    by_cases hlt : a[k] < b.2
    · rw [if_pos hlt]
      obtain ⟨b', e1, e2, e3, e4, e5⟩ := ih (k + 1) (k, a[k]) (by omega) (by simp)
        (by simpa using hjk) (by omega) (by simpa using hak) (by
          intro q x q1 q2 q3
          rcases Nat.lt_or_ge q k with h | h
          · have := h4 q x q1 h q3
            show a[k] ≤ x
            omega
          · have hqk : q = k := by omega
            subst hqk
            rw [hak] at q3
            exact Nat.le_of_eq (Option.some.inj q3))
      exact ⟨b', e1, e2, by omega, e4, fun q x q1 q2 q3 => e5 q x q1 (by omega) q3⟩
    · rw [if_neg hlt]
      obtain ⟨b', e1, e2, e3, e4, e5⟩ := ih (k + 1) b (by omega) (by omega) h2 (by omega) h3 (by
          intro q x q1 q2 q3
          rcases Nat.lt_or_ge q k with h | h
          · exact h4 q x q1 h q3
          · have hqk : q = k := by omega
            subst hqk
            rw [hak] at q3
            have := Option.some.inj q3
            omega)
      exact ⟨b', e1, e2, by omega, e4, fun q x q1 q2 q3 => e5 q x q1 (by omega) q3⟩

theorem minFrom_spec (a : List Nat) (j hi : Nat) (hj : j < hi) (hh : hi ≤ a.length) :
    ∃ k m, minFrom a j hi = some (k, m) ∧ j ≤ k ∧ k < hi ∧ a[k]? = some m ∧
      ∀ (q x : Nat), j ≤ q → q < hi → a[q]? = some x → m ≤ x := by
  unfold minFrom
  have haj := List.getElem?_eq_getElem (show j < a.length by omega)
  obtain ⟨b', e1, e2, e3, e4, e5⟩ := minFrom_fold a j (hi - (j + 1)) (j + 1) (j, a[j]) (by omega)
    (by simp) (by simp) (by omega) (by simpa using haj) (by
      intro q x q1 q2 q3
      have : q = j := by omega
      subst this
      rw [haj] at q3
      exact Nat.le_of_eq (Option.some.inj q3))
  rw [haj]
  refine ⟨b'.1, b'.2, by simpa using e1, e2, by omega, e4, fun q x q1 q2 q3 => e5 q x q1 (by omega) q3⟩

/-- The two parallel arrays as one array of pairs. -/
def unz {γ : Type} (z : List (Nat × γ)) : List Nat × List γ := (z.map Prod.fst, z.map Prod.snd)

theorem sortStep_spec {γ : Type} (pre : List (Nat × γ)) (x : Nat × γ) (rest post : List (Nat × γ)) :
    ∃ m rest', sortStep (pre.length + (rest.length + 1)) (unz (pre ++ (x :: rest) ++ post)) pre.length =
        some (unz (pre ++ (m :: rest') ++ post)) ∧ (m :: rest').Perm (x :: rest) ∧
      ∀ y ∈ rest', m.1 ≤ y.1 := by
  set z := pre ++ (x :: rest) ++ post with hz
  have hzl : z.length = pre.length + (rest.length + 1) + post.length := by simp [hz]; omega
  obtain ⟨k, mh, e1, e2, e3, e4, e5⟩ := minFrom_spec (z.map Prod.fst) pre.length
    (pre.length + (rest.length + 1)) (by omega) (by simp [hzl])
  unfold sortStep unz
  simp only [e1]
  obtain ⟨i, rfl⟩ := Nat.le.dest e2
  have hi : i < (x :: rest).length := by simp; omega
  have hz0 : z[pre.length]? = some x := by simp [hz]
  have hzi : z[pre.length + i]? = some ((x :: rest)[i]) := by
    rw [hz, List.getElem?_append_left (by simp; simp at hi; omega), List.getElem?_append_right (by omega)]
    rw [Nat.add_sub_cancel_left, List.getElem?_eq_getElem hi]
  have hsw : swapAt z pre.length (pre.length + i) =
      some (pre ++ (((x :: rest).set 0 ((x :: rest)[i])).set i x) ++ post) := by
    unfold swapAt
    rw [hz0, hzi]
    simp only [hz]
    have hi' : i < rest.length + 1 := by simpa using hi
    rw [List.set_append_left pre.length _ (by simp), List.set_append_right pre.length _ (Nat.le_refl _),
      Nat.sub_self]
    rw [List.set_append_left (pre.length + i) _ (by simp; omega),
      List.set_append_right (pre.length + i) _ (by omega), Nat.add_sub_cancel_left]
  have hperm : (((x :: rest).set 0 ((x :: rest)[i])).set i x).Perm (x :: rest) :=
    List.set_set_perm (as := x :: rest) (i := 0) (j := i) (by simp) hi
  simp only [Option.bind_eq_bind, Option.bind_some]
  rw [swapAt_map, swapAt_map, hsw]
  have hmin : ∀ y ∈ x :: rest, ((x :: rest)[i]).1 ≤ y.1 := by
    intro y hy
    have hm : mh = ((x :: rest)[i]).1 := by
      rw [List.getElem?_map, hzi] at e4
      simpa using e4.symm
    rw [← hm]
    obtain ⟨q, hq⟩ := List.mem_iff_getElem?.1 hy
    have hq' := (List.getElem?_eq_some_iff.1 hq).1
    refine e5 (pre.length + q) y.1 (by omega) (by simp at hq'; omega) ?_
    rw [List.getElem?_map, hz, List.getElem?_append_left (by simp; simp at hq'; omega),
      List.getElem?_append_right (by omega), Nat.add_sub_cancel_left, hq]
    rfl
  cases i with
  | zero =>
    refine ⟨x, rest, ?_, List.Perm.refl _, fun y hy => hmin y (List.mem_cons_of_mem _ hy)⟩
    simp
  | succ i =>
    refine ⟨(x :: rest)[i + 1], rest.set i x, ?_, ?_, ?_⟩
    · simp
    · simpa using hperm
    · intro y hy
      have : y ∈ (((x :: rest).set 0 ((x :: rest)[i + 1])).set (i + 1) x) := by
        simp only [List.set_cons_zero, List.set_cons_succ]
        exact List.mem_cons_of_mem _ hy
      exact hmin y (hperm.mem_iff.1 this)

theorem sortFan_aux {γ : Type} : ∀ (n : Nat) (pre seg post : List (Nat × γ)), seg.length = n →
    ∃ seg', (List.range' pre.length n).foldlM (sortStep (pre.length + n)) (unz (pre ++ seg ++ post)) =
        some (unz (pre ++ seg' ++ post)) ∧ seg'.Perm seg ∧ seg'.Pairwise (fun a b => a.1 ≤ b.1) := by
  intro n
  induction n with
  | zero =>
    intro pre seg post h
    have := List.length_eq_zero_iff.1 h
    subst this
    exact ⟨[], rfl, List.Perm.refl _, List.Pairwise.nil⟩
  | succ n ih =>
    intro pre seg post h
    match seg, h with
    | x :: rest, h =>
      have hr : rest.length = n := by simpa using h
      obtain ⟨m, rest', e1, e2, e3⟩ := sortStep_spec pre x rest post
      have hr' : rest'.length = n := by
        have := e2.length_eq
        simp at this; omega
      obtain ⟨seg', f1, f2, f3⟩ := ih (pre ++ [m]) rest' post hr'
      rw [hr] at e1
      rw [List.range'_succ, List.foldlM_cons, e1]
      simp only [Option.bind_eq_bind, Option.bind_some]
      refine ⟨m :: seg', ?_, (f2.cons m).trans e2, ?_⟩
      · have hl : (pre ++ [m]).length = pre.length + 1 := by simp
        have e : pre ++ (m :: rest') ++ post = pre ++ [m] ++ rest' ++ post := by simp
        have e' : pre ++ (m :: seg') ++ post = pre ++ [m] ++ seg' ++ post := by simp
        rw [hl] at f1
        have e'' : pre.length + (n + 1) = pre.length + 1 + n := by omega
        rw [e, e', e'', f1]
      · exact List.Pairwise.cons (fun y hy => e3 y (f2.mem_iff.1 hy)) f3

/-- Sorting one fan permutes its cells, leaves it ascending, and touches nothing else. -/
theorem sortFan_spec {γ : Type} (z : List (Nat × γ)) (lo hi : Nat) (h1 : lo ≤ hi) (h2 : hi ≤ z.length) :
    ∃ z', sortFan lo hi (unz z) = some (unz z') ∧ z'.length = z.length ∧
      (∀ p : Nat, p < lo ∨ hi ≤ p → z'[p]? = z[p]?) ∧
      (segment z' lo hi).Perm (segment z lo hi) ∧
      (segment z' lo hi).Pairwise (fun a b => a.1 ≤ b.1) := by
  have hsplit : z = z.take lo ++ segment z lo hi ++ z.drop hi := by
    unfold segment
    have : z.take lo = (z.take hi).take lo := by rw [List.take_take, Nat.min_eq_left h1]
    rw [this, List.take_append_drop, List.take_append_drop]
  have hpl : (z.take lo).length = lo := by rw [List.length_take]; omega
  have hsl : (segment z lo hi).length = hi - lo := by
    unfold segment; rw [List.length_drop, List.length_take]; omega
  obtain ⟨seg', e1, e2, e3⟩ := sortFan_aux (hi - lo) (z.take lo) (segment z lo hi) (z.drop hi) hsl
  rw [← hsplit, hpl, Nat.add_sub_cancel' h1] at e1
  have hsl' : seg'.length = hi - lo := e2.length_eq.trans hsl
  have hseg : segment (z.take lo ++ seg' ++ z.drop hi) lo hi = seg' := by
    unfold segment
    rw [List.take_append_of_le_length (by simp [hsl']; omega), List.take_of_length_le (by simp [hsl']; omega),
      List.drop_append_of_le_length (by omega)]
    simp [hpl]
  refine ⟨z.take lo ++ seg' ++ z.drop hi, e1, ?_, ?_, ?_, ?_⟩
  · simp [hsl']; omega
  · intro p hp
    rcases hp with hp | hp
    · rw [List.getElem?_append_left (by simp [hsl']; omega), List.getElem?_append_left (by omega),
        List.getElem?_take_of_lt hp]
    · rw [List.getElem?_append_right (by simp [hsl']; omega), List.getElem?_drop]
      congr 1
      simp [hsl']; omega
  · rw [hseg]; exact e2
  · rw [hseg]; exact e3

theorem segment_congr {α : Type} (a b : List α) (lo hi : Nat)
    (h : ∀ p : Nat, lo ≤ p → p < hi → a[p]? = b[p]?) : segment a lo hi = segment b lo hi := by
  apply List.ext_getElem?
  intro i
  unfold segment
  rw [List.getElem?_drop, List.getElem?_drop, List.getElem?_take, List.getElem?_take]
  by_cases hi' : lo + i < hi
  · rw [if_pos hi', if_pos hi', h _ (by omega) hi']
  · rw [if_neg hi', if_neg hi']

theorem sort_fold {γ : Type} (o : List Nat) (ho : IsFan o) :
    ∀ (ls : List Nat) (z : List (Nat × γ)), ls.Nodup → (∀ l ∈ ls, l < o.length - 1) →
    o[o.length - 1]? = some z.length →
    ∃ z', ls.foldlM (fun st l => match o[l]?, o[l + 1]? with
        | some lo, some hi => sortFan lo hi st
        | _, _ => none) (unz z) = some (unz z') ∧ z'.length = z.length ∧
      (∀ l lo hi : Nat, o[l]? = some lo → o[l + 1]? = some hi →
        (segment z' lo hi).Perm (segment z lo hi) ∧
        (l ∈ ls → (segment z' lo hi).Pairwise (fun a b => a.1 ≤ b.1)) ∧
        (l ∉ ls → segment z' lo hi = segment z lo hi)) := by
  intro ls
  induction ls with
  | nil =>
    intro z _ _ _
    exact ⟨z, rfl, rfl, fun l lo hi _ _ => ⟨List.Perm.refl _, by simp, by simp⟩⟩
  | cons l ls ih =>
    intro z hn hlt hlast
    have hl := hlt l (by simp)
    have e1 := List.getElem?_eq_getElem (show l < o.length by omega)
    have e2 := List.getElem?_eq_getElem (show l + 1 < o.length by omega)
    have hle := ho.2 l _ _ e1 e2
    have hle2 := fan_le ho (show l + 1 ≤ o.length - 1 by omega) e2 hlast
    obtain ⟨z1, f1, f2, f3, f4, f5⟩ := sortFan_spec z _ _ hle hle2
    rw [List.foldlM_cons, e1, e2]
    simp only [Option.bind_eq_bind, f1, Option.bind_some]
    obtain ⟨z2, g1, g2, g3⟩ := ih z1 (List.nodup_cons.1 hn).2 (fun l' h => hlt l' (by simp [h]))
      (by rw [f2]; exact hlast)
    refine ⟨z2, g1, g2.trans f2, ?_⟩
    intro l' lo hi h1 h2
    obtain ⟨k1, k2, k3⟩ := g3 l' lo hi h1 h2
    by_cases hll : l' = l
    · subst hll
      rw [e1] at h1; rw [e2] at h2
      obtain rfl := Option.some.inj h1
      obtain rfl := Option.some.inj h2
      refine ⟨k1.trans f4, fun _ => ?_, fun h => absurd (by simp) h⟩
      rw [k3 (List.nodup_cons.1 hn).1]; exact f5
    · have hsame : segment z1 lo hi = segment z lo hi := by
        apply segment_congr
        intro p p1 p2
        apply f3
        rcases Nat.lt_or_ge l' l with h | h
        · have := fan_le ho (show l' + 1 ≤ l by omega) h2 e1
          omega
        · have := fan_le ho (show l + 1 ≤ l' by omega) e2 h1
          omega
      rw [hsame] at k1 k3
      refine ⟨k1, fun h => k2 ?_, fun h => k3 ?_⟩
      · rcases List.mem_cons.1 h with h | h
        · exact absurd h hll
        · exact h
      · intro h'; exact h (List.mem_cons_of_mem _ h')

/-- `sort_by_high_index`: every fan ends ascending and keeps its members, for every schedule. -/
theorem sortByHighIndex_spec {γ : Type} (s : Sched) (o : List Nat) (ho : IsFan o)
    (z : List (Nat × γ)) (hlast : o[o.length - 1]? = some z.length) :
    ∃ z', sortByHighIndex s o (unz z) = some (unz z') ∧ z'.length = z.length ∧
      ∀ l lo hi : Nat, o[l]? = some lo → o[l + 1]? = some hi →
        (segment z' lo hi).Perm (segment z lo hi) ∧
        (segment z' lo hi).Pairwise (fun a b => a.1 ≤ b.1) := by
  have hp := s.ok (o.length - 1)
  obtain ⟨z', e1, e2, e3⟩ := sort_fold o ho (s.order (o.length - 1)) z (hp.nodup_iff.2 List.nodup_range)
    (fun l h => List.mem_range.1 (hp.mem_iff.1 h)) hlast
  refine ⟨z', e1, e2, ?_⟩
  intro l lo hi h1 h2
  obtain ⟨k1, k2, _⟩ := e3 l lo hi h1 h2
  refine ⟨k1, k2 (hp.mem_iff.2 (List.mem_range.2 ?_))⟩
  have := (List.getElem?_eq_some_iff.1 h2).1
  omega

end OmegaH
