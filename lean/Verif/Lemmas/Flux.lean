import Mathlib.Algebra.Order.Field.Basic
import Mathlib.Tactic.Ring
import Mathlib.Tactic.Linarith
import Mathlib.Tactic.FieldSimp
import Verif.Spec.Correct
import Verif.Lemmas.Conserve
/-!
# Exchange between neighbouring elements
-/
namespace OmegaH
open Spec

section
variable {K : Type} [Field K]

theorem places_sum (n deg : Nat) (f : Nat × Nat → K) :
    ((places n deg).map f).sum = ((List.range n).map (fun e => ((List.range deg).map (fun i => f (e, i))).sum)).sum := by
  unfold places
  induction List.range n with
  | nil => rfl
  | cons a l ih => simp only [List.flatMap_cons, List.map_append, List.sum_append, List.map_cons, List.sum_cons, ih, List.map_map]; rfl

theorem mem_places {n deg : Nat} {p : Nat × Nat} : p ∈ places n deg ↔ p.1 < n ∧ p.2 < deg := by
  unfold places
  simp only [List.mem_flatMap, List.mem_range, List.mem_map]
  constructor
  · rintro ⟨e, he, i, hi, rfl⟩; exact ⟨he, hi⟩
  · rintro ⟨h1, h2⟩; exact ⟨p.1, h1, p.2, h2, rfl⟩

/-- Counting by what lies below and by what lies above. -/
theorem double_count {n deg nlow : Nat} {down : Nat → Nat → Nat} {up : Nat → List Nat} (h : Incident n deg nlow down up)
    (g : Nat → Nat → K) :
    ((List.range nlow).map (fun t => ((up t).map (fun e => g e t)).sum)).sum
      = ((List.range n).map (fun e => ((List.range deg).map (fun i => g e (down e i))).sum)).sum := by
  have h1 := sumOver_gather (K := K) (fun _ => true) ((places n deg).map (fun p => (p, down p.1 p.2))) (fun q => g q.1.1 q.2) nlow (by
    intro q hq
    obtain ⟨p, hp, rfl⟩ := List.mem_map.1 hq
    exact h.below _ _ (mem_places.1 hp).1 (mem_places.1 hp).2)
  rw [sumOver_true, sumOver_true, List.map_map] at h1
  rw [places_sum n deg ((fun q : (Nat × Nat) × Nat => g q.1.1 q.2) ∘ fun p => (p, down p.1 p.2))] at h1
  refine Eq.trans ?_ h1
  congr 1
  apply List.map_congr_left
  intro t ht
  have h2 := h.above t (List.mem_range.1 ht)
  rw [(h2.map (fun e => g e t)).sum_eq, List.filter_map, List.map_map, List.map_map]
  congr 1
  apply List.map_congr_left
  intro p hp
  have := of_decide_eq_true (List.mem_filter.1 hp).2
  show g p.1 t = g p.1 (down p.1 p.2)
  rw [← this]

end

section
variable {K : Type} [Field K] [LinearOrder K] (m : FluxMesh K)

/-- Every element at a side is an element of the mesh that has the side. -/
theorem Spec.Incident.mem {n deg nlow : Nat} {down : Nat → Nat → Nat} {up : Nat → List Nat} (h : Incident n deg nlow down up) {t e : Nat}
    (ht : t < nlow) : e ∈ up t ↔ e < n ∧ ∃ i, i < deg ∧ down e i = t := by
  rw [(h.above t ht).mem_iff]
  simp only [List.mem_map, List.mem_filter, decide_eq_true_eq]
  constructor
  · rintro ⟨p, ⟨hp, h1⟩, rfl⟩
    exact ⟨(mem_places.1 hp).1, p.2, (mem_places.1 hp).2, h1⟩
  · rintro ⟨he, i, hi, h1⟩
    exact ⟨(e, i), ⟨mem_places.2 ⟨he, hi⟩, h1⟩, rfl⟩

variable {m}

/-- The elements across an interior side of an element. -/
theorem across_one (hm : m.Sound) {e i : Nat} (he : e < m.nelems) (hi : i < m.dim + 1) (h : m.interior (m.sides e i) = true) :
    ∃ a b, a ≠ b ∧ m.sideElems (m.sides e i) = [a, b] ∧
      ((e = a ∧ (m.sideElems (m.sides e i)).filter (fun o => decide (o ≠ e)) = [b]) ∨
       (e = b ∧ (m.sideElems (m.sides e i)).filter (fun o => decide (o ≠ e)) = [a])) := by
  have hlt := hm.sides.below e i he hi
  obtain ⟨a, b, hab, h2⟩ := hm.two _ hlt h
  have hmem := (hm.sides.mem hlt (e := e)).2 ⟨he, i, hi, rfl⟩
  refine ⟨a, b, hab, h2, ?_⟩
  rw [h2] at hmem ⊢
  rcases List.mem_cons.1 hmem with rfl | hmem
  · left
    refine ⟨rfl, ?_⟩
    rw [List.filter_cons_of_neg (by simp), List.filter_cons_of_pos (by simpa using hab.symm)]
    rfl
  · have := List.mem_singleton.1 hmem
    subst this
    right
    refine ⟨rfl, ?_⟩
    rw [List.filter_cons_of_pos (by simpa using hab), List.filter_cons_of_neg (by simp)]
    rfl

theorem neighbours_lt (hm : m.Sound) {e o : Nat} (he : e < m.nelems) (ho : o ∈ m.neighbours e) : o < m.nelems := by
  unfold FluxMesh.neighbours at ho
  obtain ⟨i, hi, h⟩ := List.mem_flatMap.1 ho
  have hi := List.mem_range.1 hi
  cases hc : m.interior (m.sides e i)
  · simp [hc] at h
  · simp only [hc, if_true] at h
    exact ((hm.sides.mem (hm.sides.below e i he hi)).1 (List.mem_filter.1 h).1).1

theorem neighbours_length_le (hm : m.Sound) {e : Nat} (he : e < m.nelems) : (m.neighbours e).length ≤ m.dim + 1 := by
  unfold FluxMesh.neighbours
  rw [List.length_flatMap]
  have : ∀ l : List Nat, (∀ i ∈ l, i < m.dim + 1) → (l.map (fun i => (if m.interior (m.sides e i) then
      (m.sideElems (m.sides e i)).filter (fun o => decide (o ≠ e)) else []).length)).sum ≤ l.length := by
    intro l
    induction l with
    | nil => intro _; simp
    | cons i l ih =>
      intro h
      have h1 := ih (fun j hj => h j (List.mem_cons_of_mem _ hj))
      rw [List.map_cons, List.sum_cons, List.length_cons]
      have : (if m.interior (m.sides e i) then (m.sideElems (m.sides e i)).filter (fun o => decide (o ≠ e)) else []).length ≤ 1 := by
        cases hc : m.interior (m.sides e i)
        · simp
        · obtain ⟨a, b, _, _, h | h⟩ := across_one hm he (h i (List.mem_cons_self ..)) hc <;> simp only [if_true, h.2] <;> simp
      omega
  exact le_trans (this _ (fun i hi => List.mem_range.1 hi)) (by simp)

/-- With a side on the boundary, there are fewer. -/
theorem neighbours_length_lt (hm : m.Sound) {e i : Nat} (he : e < m.nelems) (hi : i < m.dim + 1) (hb : m.interior (m.sides e i) = false) :
    (m.neighbours e).length < m.dim + 1 := by
  unfold FluxMesh.neighbours
  rw [List.length_flatMap]
  have : ∀ l : List Nat, (∀ i ∈ l, i < m.dim + 1) → (l.map (fun i => (if m.interior (m.sides e i) then
      (m.sideElems (m.sides e i)).filter (fun o => decide (o ≠ e)) else []).length)).sum + (if i ∈ l then 1 else 0) ≤ l.length := by
    intro l
    induction l with
    | nil => intro _; simp
    | cons j l ih =>
      intro h
      have h1 := ih (fun k hk => h k (List.mem_cons_of_mem _ hk))
      rw [List.map_cons, List.sum_cons, List.length_cons]
      have h2 : (if m.interior (m.sides e j) then (m.sideElems (m.sides e j)).filter (fun o => decide (o ≠ e)) else []).length ≤ 1 := by
        cases hc : m.interior (m.sides e j)
        · simp
        · obtain ⟨a, b, _, _, h | h⟩ := across_one hm he (h j (List.mem_cons_self ..)) hc <;> simp only [if_true, h.2] <;> simp
      by_cases hij : i = j
      · subst hij
        simp only [hb, Bool.false_eq_true, if_false, List.length_nil]
        by_cases hil : i ∈ l <;> simp [hil] at h1 ⊢ <;> omega
      · simp only [List.mem_cons, hij, false_or]
        omega
  have h := this (List.range (m.dim + 1)) (fun i hi => List.mem_range.1 hi)
  rw [if_pos (List.mem_range.2 hi), List.length_range] at h
  omega

/-- What passes between neighbours cancels. -/
theorem antisymmetric_sum (hm : m.Sound) {C : Nat → Bool} (hC : m.Closed C) (F : Nat → Nat → K) (hF : ∀ a b, F a b = - F b a) :
    sumOver C (fun e => ((m.neighbours e).map (F e)).sum) (List.range m.nelems) = 0 := by
  have h0 : sumOver C (fun e => ((m.neighbours e).map (F e)).sum) (List.range m.nelems)
      = ((List.range m.nelems).map (fun e => ((List.range (m.dim + 1)).map (fun i => if C e = true ∧ m.interior (m.sides e i) = true then
          (((m.sideElems (m.sides e i)).filter (fun o => decide (o ≠ e))).map (F e)).sum else 0)).sum)).sum := by
    rw [← sumOver_true]
    have : ∀ l : List Nat, sumOver C (fun e => ((m.neighbours e).map (F e)).sum) l = sumOver (fun _ => true) (fun e =>
        ((List.range (m.dim + 1)).map (fun i => if C e = true ∧ m.interior (m.sides e i) = true then
          (((m.sideElems (m.sides e i)).filter (fun o => decide (o ≠ e))).map (F e)).sum else 0)).sum) l := by
      intro l
      induction l with
      | nil => rfl
      | cons e l ih =>
        rw [sumOver_cons, sumOver_cons, ih]
        congr 1
        cases hc : C e
        · simp
        · simp only [if_true, true_and]
          unfold FluxMesh.neighbours
          induction List.range (m.dim + 1) with
          | nil => rfl
          | cons i l ih2 =>
            rw [List.flatMap_cons, List.map_append, List.sum_append, ih2, List.map_cons, List.sum_cons]
            congr 1
            cases m.interior (m.sides e i) <;> simp
    exact this _
  rw [h0, ← double_count hm.sides (fun e t => if C e = true ∧ m.interior t = true then
    (((m.sideElems t).filter (fun o => decide (o ≠ e))).map (F e)).sum else 0)]
  apply List.sum_eq_zero
  intro x hx
  obtain ⟨t, ht, rfl⟩ := List.mem_map.1 hx
  have ht := List.mem_range.1 ht
  cases hi : m.interior t
  · simp
  · obtain ⟨a, b, hab, h2⟩ := hm.two t ht hi
    obtain ⟨ha, i, hi1, hi2⟩ := (hm.sides.mem ht (e := a)).1 (by rw [h2]; simp)
    have hcab : C b = C a := by
      refine hC a ha b ?_
      unfold FluxMesh.neighbours
      refine List.mem_flatMap.2 ⟨i, List.mem_range.2 hi1, ?_⟩
      rw [hi2, hi, if_pos rfl, h2]
      simp [hab.symm]
    rw [h2, List.map_cons, List.map_cons, List.map_nil, List.sum_cons, List.sum_cons, List.sum_nil, hcab]
    have f1 : [a, b].filter (fun o => decide (o ≠ a)) = [b] := by
      rw [List.filter_cons_of_neg (by simp), List.filter_cons_of_pos (by simpa using hab.symm)]; rfl
    have f2 : [a, b].filter (fun o => decide (o ≠ b)) = [a] := by
      rw [List.filter_cons_of_pos (by simpa using hab), List.filter_cons_of_neg (by simp)]; rfl
    rw [f1, f2]
    cases C a
    · simp
    · simp only [and_self, if_true, List.map_cons, List.map_nil, List.sum_cons, List.sum_nil]
      rw [hF a b]; ring

variable (m) in
/-- How strongly element `e` takes the value of its neighbour `o`. -/
def pull (W : Nat → K) (e o : Nat) : K := min (W e) (W o) / (W e * ((m.dim + 1 : Nat) : K))

variable (m) in
/-- One round of diffusion. -/
def fluxStep (W X : Nat → K) (e : Nat) : K := X e + ((m.neighbours e).map (fun o => (X o - X e) * pull m W e o)).sum

variable [IsStrictOrderedRing K]

theorem sidesPer_pos : (0 : K) < ((m.dim + 1 : Nat) : K) := by exact_mod_cast Nat.succ_pos _

theorem fluxStep_total (hm : m.Sound) {W : Nat → K} (hW : ∀ e, e < m.nelems → 0 < W e) {C : Nat → Bool} (hC : m.Closed C) (X : Nat → K) :
    m.total C (fun e => fluxStep m W X e * W e) = m.total C (fun e => X e * W e) := by
  have h1 : m.total C (fun e => fluxStep m W X e * W e) = sumOver C (fun e => X e * W e +
      ((m.neighbours e).map (fun o => (X o - X e) * (min (W e) (W o) / ((m.dim + 1 : Nat) : K)))).sum) (List.range m.nelems) := by
    refine sumOver_congr ?_
    intro e he
    refine ⟨rfl, fun _ => ?_⟩
    have hwe := (hW e (List.mem_range.1 he)).ne'
    unfold fluxStep
    rw [add_mul]
    congr 1
    induction m.neighbours e with
    | nil => simp
    | cons o l ih =>
      rw [List.map_cons, List.sum_cons, List.map_cons, List.sum_cons, add_mul, ih]
      congr 1
      unfold pull
      have := (sidesPer_pos (m := m)).ne'
      field_simp
  rw [h1, sumOver_add]
  rw [antisymmetric_sum hm hC (fun e o => (X o - X e) * (min (W e) (W o) / ((m.dim + 1 : Nat) : K))) (by
    intro a b; rw [min_comm]; ring), add_zero]
  rfl

theorem pull_nonneg {W : Nat → K} {e o : Nat} (he : 0 < W e) (ho : 0 < W o) : 0 < pull m W e o :=
  div_pos (lt_min he ho) (mul_pos he sidesPer_pos)

theorem pull_le {W : Nat → K} {e o : Nat} (he : 0 < W e) : pull m W e o ≤ 1 / ((m.dim + 1 : Nat) : K) := by
  unfold pull
  rw [div_le_div_iff₀ (mul_pos he sidesPer_pos) sidesPer_pos, one_mul]
  exact mul_le_mul_of_nonneg_right (min_le_left _ _) sidesPer_pos.le

theorem pulls_le {W : Nat → K} {e : Nat} (he : 0 < W e) (l : List Nat) :
    (l.map (pull m W e)).sum ≤ (l.length : K) / ((m.dim + 1 : Nat) : K) := by
  induction l with
  | nil => simp
  | cons o l ih =>
    rw [List.map_cons, List.sum_cons, List.length_cons]
    have := pull_le (m := m) (W := W) (o := o) he
    have h : ((l.length + 1 : Nat) : K) / ((m.dim + 1 : Nat) : K) = 1 / ((m.dim + 1 : Nat) : K) + (l.length : K) / ((m.dim + 1 : Nat) : K) := by
      push_cast; ring
    rw [h]
    exact add_le_add this ih

/-- A round of diffusion takes a weighted mean. -/
theorem fluxStep_mean (W X : Nat → K) (e : Nat) (hi : K) :
    hi - fluxStep m W X e = (1 - ((m.neighbours e).map (pull m W e)).sum) * (hi - X e)
      + ((m.neighbours e).map (fun o => pull m W e o * (hi - X o))).sum := by
  unfold fluxStep
  induction m.neighbours e with
  | nil => simp
  | cons o l ih =>
    simp only [List.map_cons, List.sum_cons] at ih ⊢
    linear_combination ih

theorem fluxStep_neg (W X : Nat → K) (e : Nat) : fluxStep m W (fun e => - X e) e = - fluxStep m W X e := by
  unfold fluxStep
  induction m.neighbours e with
  | nil => simp
  | cons o l ih =>
    simp only [List.map_cons, List.sum_cons] at ih ⊢
    linear_combination ih

/-- Values stay below a bound, and the gap to the bound does not close faster than by a factor. -/
theorem fluxStep_gap (hm : m.Sound) {W : Nat → K} (hW : ∀ e, e < m.nelems → 0 < W e) {C : Nat → Bool} (hC : m.Closed C) {X : Nat → K}
    {hi : K} (hX : ∀ e, e < m.nelems → C e = true → X e ≤ hi) {e : Nat} (he : e < m.nelems) (hCe : C e = true) :
    fluxStep m W X e ≤ hi ∧ (∀ o ∈ m.neighbours e, pull m W e o * (hi - X o) ≤ hi - fluxStep m W X e) ∧
      ((∃ i, i < m.dim + 1 ∧ m.interior (m.sides e i) = false) → 1 / ((m.dim + 1 : Nat) : K) * (hi - X e) ≤ hi - fluxStep m W X e) := by
  have hpos : ∀ o ∈ m.neighbours e, 0 ≤ pull m W e o * (hi - X o) := by
    intro o ho
    have holt := neighbours_lt hm he ho
    have := hX o holt ((hC e he o ho).trans hCe)
    exact mul_nonneg (pull_nonneg (hW e he) (hW o holt)).le (by linarith)
  have hsum : 0 ≤ ((m.neighbours e).map (fun o => pull m W e o * (hi - X o))).sum := by
    apply List.sum_nonneg
    intro x hx
    obtain ⟨o, ho, rfl⟩ := List.mem_map.1 hx
    exact hpos o ho
  have hone : ∀ o ∈ m.neighbours e, pull m W e o * (hi - X o) ≤ ((m.neighbours e).map (fun o => pull m W e o * (hi - X o))).sum := by
    intro o ho
    exact List.single_le_sum (by
      intro x hx
      obtain ⟨o, ho, rfl⟩ := List.mem_map.1 hx
      exact hpos o ho) _ (List.mem_map.2 ⟨o, ho, rfl⟩)
  have hgap : 0 ≤ hi - X e := by have := hX e he hCe; linarith
  have hd := sidesPer_pos (m := m)
  have hp := pulls_le (m := m) (W := W) (hW e he) (m.neighbours e)
  have hle : (((m.neighbours e).length : Nat) : K) / ((m.dim + 1 : Nat) : K) ≤ 1 := by
    rw [div_le_one hd]
    exact_mod_cast neighbours_length_le hm he
  have hself : 0 ≤ (1 - ((m.neighbours e).map (pull m W e)).sum) * (hi - X e) := mul_nonneg (by linarith) hgap
  have hmean := fluxStep_mean (m := m) W X e hi
  refine ⟨by linarith, fun o ho => by have := hone o ho; linarith, ?_⟩
  rintro ⟨i, hi1, hi2⟩
  have hlt : (((m.neighbours e).length : Nat) : K) / ((m.dim + 1 : Nat) : K) ≤ 1 - 1 / ((m.dim + 1 : Nat) : K) := by
    have h1 : ((m.neighbours e).length : K) ≤ ((m.dim + 1 : Nat) : K) - 1 := by
      have := neighbours_length_lt hm he hi1 hi2
      have h2 : (((m.neighbours e).length + 1 : Nat) : K) ≤ ((m.dim + 1 : Nat) : K) := by exact_mod_cast this
      push_cast at h2 ⊢; linarith
    rw [div_le_iff₀ hd]
    have : (1 - 1 / ((m.dim + 1 : Nat) : K)) * ((m.dim + 1 : Nat) : K) = ((m.dim + 1 : Nat) : K) - 1 := by
      rw [sub_mul, one_mul, one_div, inv_mul_cancel₀ hd.ne']
    rw [this]
    exact h1
  have := mul_le_mul_of_nonneg_right (show 1 / ((m.dim + 1 : Nat) : K) ≤ 1 - ((m.neighbours e).map (pull m W e)).sum by linarith) hgap
  linarith

end
end OmegaH
