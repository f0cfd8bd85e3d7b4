import Mathlib.Algebra.Order.Archimedean.Basic
import Verif.Lemmas.Flux
import Verif.Lemmas.Blocks
/-!
# Rounds of diffusion
-/
namespace OmegaH
open Spec

theorem table_get {K : Type} (n w : Nat) (F : Nat → Nat → K) {i j : Nat} (hi : i < n) (hj : j < w) :
    (tableOf (List.range n) w F)[i * w + j]? = some (F i j) := by
  have := tableOf_entry (List.range n) w F i j hj
  unfold entry at this
  rw [this, List.getElem?_range hi]; rfl

theorem range_get {K : Type} (n : Nat) (F : Nat → K) {i : Nat} (hi : i < n) : ((List.range n).map F)[i]? = some (F i) := by
  rw [List.getElem?_map, List.getElem?_range hi]; rfl

/-- The edges of a node of a graph given by its rows. -/
theorem graphOn_edge (n : Nat) (R : Nat → List Nat) {a j : Nat} (ha : a < n) (hj : j < (R a).length) :
    (graphOn (List.range n) R).ab2b[(((List.range n).map (fun k => (R k).length)).take a).sum + j]? = (R a)[j]? := by
  have h := flatMap_segment (List.range n) R a a (List.getElem?_range ha)
  have h2 : ((((List.range n).flatMap R).drop ((((List.range n).map (fun k => (R k).length)).take a).sum)).take (R a).length)[j]? = (R a)[j]? := by
    rw [h]
  rw [List.getElem?_take, if_pos hj, List.getElem?_drop] at h2
  exact h2

section
variable {K : Type} {m : FluxMesh K}

/-- What the loop over the sides of an element finds at one of them. -/
def acrossAt (m : FluxMesh K) (e i : Nat) : List Nat :=
  if m.interior (m.sides e i) then (m.sideElems (m.sides e i)).filter (fun o => decide (o ≠ e)) else []

theorem exposed_get (m : FluxMesh K) {t : Nat} (ht : t < m.nsides) :
    ((List.range m.nsides).map (fun t => b2i (decide (m.sideDim t < (m.dim : Int)))))[t]? = some (b2i (!m.interior t)) := by
  rw [range_get _ _ ht]
  unfold FluxMesh.interior
  congr 2
  by_cases h : (m.dim : Int) ≤ m.sideDim t
  · simp [h]
  · simp [h]; omega

variable [Field K] [LinearOrder K]

theorem acrossAt_length (hm : m.Sound) {e i : Nat} (he : e < m.nelems) (hi : i < m.dim + 1) :
    ((acrossAt m e i).length : Int) = if b2i (!m.interior (m.sides e i)) = 0 then 1 else 0 := by
  unfold acrossAt
  cases hc : m.interior (m.sides e i)
  · simp [b2i]
  · obtain ⟨a, b, _, _, h | h⟩ := across_one hm he hi hc <;> simp only [if_true, h.2] <;> simp [b2i]

theorem acrossSide_spec (hm : m.Sound) {e i : Nat} (he : e < m.nelems) (hi : i < m.dim + 1) (hc : m.interior (m.sides e i) = true) :
    (acrossSide m.sideGraph e (m.sides e i)).map (fun o => [o]) = some (acrossAt m e i) := by
  have hlt := hm.sides.below e i he hi
  obtain ⟨a, b, hab, h2, h⟩ := across_one hm he hi hc
  unfold acrossSide acrossAt FluxMesh.sideGraph
  rw [graphOn_offset (List.range m.nsides) m.sideElems (m.sides e i) (by simp; omega)]
  have g0 := graphOn_edge m.nsides m.sideElems (j := 0) hlt (by rw [h2]; simp)
  have g1 := graphOn_edge m.nsides m.sideElems (j := 1) hlt (by rw [h2]; simp)
  rw [Nat.add_zero] at g0
  simp only [Option.bind_some, g0, g1, hc, if_true, h2, List.getElem?_cons_zero, List.getElem?_cons_succ]
  rw [h2] at h
  rcases h with ⟨h3, h4⟩ | ⟨h3, h4⟩
  · rw [h4, if_pos h3.symm]; rfl
  · rw [h4, if_neg (by rw [h3]; exact hab)]; rfl

/-- The graph of diffusion joins each element to its neighbours. -/
theorem diffusionGraph_spec (s : Nat → Sched) (hm : m.Sound) :
    diffusionGraph s m.dim m.sideDims m.sideArray m.sideGraph = some (graphOn (List.range m.nelems) m.neighbours) := by
  have hb : eachLt (s 0) m.sideDims m.dim = some ((List.range m.nsides).map (fun t => b2i (decide (m.sideDim t < (m.dim : Int))))) := by
    unfold eachLt FluxMesh.sideDims
    rw [mapEach_eq (s 0) _ (fun x => b2i (decide (x < (m.dim : Int)))) _ (fun _ _ => rfl), List.map_map]
    rfl
  have hn : divideNoRemainder m.sideArray.length (m.dim + 1) = some m.nelems :=
    divide_no_rem (Nat.succ_pos _) (by unfold FluxMesh.sideArray; rw [tableOf_length, List.length_range])
  unfold diffusionGraph elementsAcrossSides
  rw [hb]
  simp only [bind, Option.bind_some, hn]
  have hside : ∀ e i, e < m.nelems → i < m.dim + 1 → m.sideArray[e * (m.dim + 1) + i]? = some (m.sides e i) :=
    fun e i he hi => table_get m.nelems (m.dim + 1) m.sides he hi
  have hcount : acrossCount (s (0 + 1)) (m.dim + 1) m.nelems m.sideArray ((List.range m.nsides).map (fun t => b2i (decide (m.sideDim t < (m.dim : Int)))))
      = some (((List.range m.nelems).map (fun e => (m.neighbours e).length)).map Int.ofNat) := by
    unfold acrossCount
    have hk : ∀ e, e < m.nelems → ((List.range (m.dim + 1)).mapM (fun i => (m.sideArray[e * (m.dim + 1) + i]?).bind (fun side =>
        (((List.range m.nsides).map (fun t => b2i (decide (m.sideDim t < (m.dim : Int)))))[side]?).map (fun x =>
        if x = 0 then (1 : Int) else 0)))).map List.sum = some ((m.neighbours e).length : Int) := by
      intro e he
      rw [mapM_range_some (m.dim + 1) _ (fun i => ((acrossAt m e i).length : Int))]
      · rw [Option.map_some]
        congr 1
        unfold FluxMesh.neighbours
        show _ = (((List.range (m.dim + 1)).flatMap (acrossAt m e)).length : Int)
        rw [List.length_flatMap]
        induction List.range (m.dim + 1) with
        | nil => rfl
        | cons i l ih => simp only [List.map_cons, List.sum_cons, ih]; push_cast; rfl
      · intro i hi
        rw [hside e i he hi, Option.bind_some, exposed_get m (hm.sides.below e i he hi), acrossAt_length hm he hi]
        rfl
    obtain ⟨out, o1, o2, o3⟩ := parEach (s (0 + 1)) m.nelems (fun e => ((List.range (m.dim + 1)).mapM (fun i => (m.sideArray[e * (m.dim + 1) + i]?).bind (fun side =>
        (((List.range m.nsides).map (fun t => b2i (decide (m.sideDim t < (m.dim : Int)))))[side]?).map (fun x =>
        if x = 0 then (1 : Int) else 0)))).map List.sum) (fun e he => by rw [hk e he]; rfl)
    have heq : out = ((List.range m.nelems).map (fun e => (m.neighbours e).length)).map Int.ofNat := by
      apply List.ext_getElem?
      intro p
      by_cases hp : p < m.nelems
      · rw [o3 p hp, hk p hp]; simp [hp]
      · simp [hp, o2]
    rw [← heq, ← o1]
    congr 2
    funext e
    rw [Option.map_map]
    rfl
  rw [hcount, Option.bind_some, offsetScan_cast, Option.bind_some, offsetScan_nat_getLast?, Option.bind_some]
  have hoff : ∀ k, (((List.range m.nelems).map (fun e => (m.neighbours e).length)).take k) = ((List.range (min k m.nelems)).map (fun e => (m.neighbours e).length)) := by
    intro k
    rw [← List.map_take, List.take_range]
  have hfill : acrossFill (s (1 + 1)) (m.dim + 1) m.nelems m.sideArray m.sideGraph
      ((List.range m.nsides).map (fun t => b2i (decide (m.sideDim t < (m.dim : Int)))))
      (offsetScan ((List.range m.nelems).map (fun e => (m.neighbours e).length)))
      ((List.range m.nelems).map (fun e => (m.neighbours e).length)).sum = some ((List.range m.nelems).flatMap m.neighbours) := by
    unfold acrossFill
    refine parConcat (s (1 + 1)) m.nelems m.neighbours _ ?_
    intro e he
    rw [offsetScan_nat_getElem? _ e (by simp; omega), Option.bind_some, hoff, Nat.min_eq_left he.le]
    rw [mapM_range_some (m.dim + 1) _ (acrossAt m e)]
    · rfl
    · intro i hi
      rw [hside e i he hi, Option.bind_some, exposed_get m (hm.sides.below e i he hi), Option.bind_some]
      cases hc : m.interior (m.sides e i)
      · unfold acrossAt; simp [hc, b2i]
      · rw [if_pos (by simp [b2i])]
        exact acrossSide_spec hm he hi hc
  rw [hfill]
  rfl

theorem diffuseElem_spec (hm : m.Sound) [IsStrictOrderedRing K] {W : Nat → K} (hW : ∀ e, e < m.nelems → 0 < W e) (X : Nat → K) {e : Nat} (he : e < m.nelems) :
    diffuseElem (graphOn (List.range m.nelems) m.neighbours) (m.dim + 1) ((List.range m.nelems).map X) ((List.range m.nelems).map W) e
      = some (fluxStep m W X e) := by
  unfold diffuseElem
  rw [range_get _ _ he, range_get _ _ he, graphOn_offset _ _ e (by simp; omega), graphOn_offset_succ _ _ e e (List.getElem?_range he)]
  simp only [Option.bind_some, Nat.add_sub_cancel_left]
  have hd := sidesPer_pos (m := m)
  have h0 : ¬ (W e * ((m.dim + 1 : Nat) : K) = 0) := (mul_pos (hW e he) hd).ne'
  have key : ∀ (l : List Nat) (lo : Nat) (acc : K), (∀ j, j < l.length → (graphOn (List.range m.nelems) m.neighbours).ab2b[lo + j]? = l[j]?) →
      (∀ o ∈ l, o < m.nelems) →
      (List.range' lo l.length).foldlM (fun acc ee => ((graphOn (List.range m.nelems) m.neighbours).ab2b[ee]?).bind (fun oe =>
        (((List.range m.nelems).map W)[oe]?).bind (fun os => (((List.range m.nelems).map X)[oe]?).bind (fun ox =>
        if W e * ((m.dim + 1 : Nat) : K) = 0 then none else some (acc + (ox - X e) * (min (W e) os / (W e * ((m.dim + 1 : Nat) : K)))))))) acc
      = some (acc + (l.map (fun o => (X o - X e) * pull m W e o)).sum) := by
    intro l
    induction l with
    | nil => intro lo acc _ _; simp
    | cons o l ih =>
      intro lo acc h1 h2
      have ho := h2 o (List.mem_cons_self ..)
      have e0 := h1 0 (by simp)
      rw [Nat.add_zero, List.getElem?_cons_zero] at e0
      rw [List.length_cons, List.range'_succ, List.foldlM_cons, e0]
      simp only [Option.bind_some, range_get _ _ ho, if_neg h0, bind]
      have ih2 := ih (lo + 1) (acc + (X o - X e) * (min (W e) (W o) / (W e * ((m.dim + 1 : Nat) : K)))) (by
        intro j hj
        have := h1 (j + 1) (by simpa using hj)
        rw [List.getElem?_cons_succ] at this
        rw [← this]; congr 1; omega) (fun o ho => h2 o (List.mem_cons_of_mem _ ho))
      simp only [if_neg h0] at ih2
      rw [ih2]
      rw [List.map_cons, List.sum_cons, ← add_assoc]
      rfl
  exact key (m.neighbours e) _ (X e) (fun j hj => graphOn_edge m.nelems m.neighbours he hj) (fun o ho => neighbours_lt hm he ho)

theorem diffuseOnce_spec (s : Sched) (hm : m.Sound) [IsStrictOrderedRing K] {W : Nat → K} (hW : ∀ e, e < m.nelems → 0 < W e) (X : Nat → K) :
    diffuseOnce s m.dim (graphOn (List.range m.nelems) m.neighbours) ((List.range m.nelems).map X) ((List.range m.nelems).map W)
      = some ((List.range m.nelems).map (fluxStep m W X)) := by
  unfold diffuseOnce
  have := parConcat_onto s m.nelems (fun e => [fluxStep m W X e]) ((List.range m.nelems).map X)
    (fun e => (diffuseElem (graphOn (List.range m.nelems) m.neighbours) (m.dim + 1) ((List.range m.nelems).map X) ((List.range m.nelems).map W) e).map
      (fun v => [(e, v)])) (by simp [blockOff]) (by
      intro e he
      rw [diffuseElem_spec hm hW X he]
      simp [blockOff, blockWrites])
  rw [List.length_map, List.length_range, this]
  congr 1
  induction List.range m.nelems with
  | nil => rfl
  | cons a l ih => rw [List.flatMap_cons, ih]; rfl

variable (m) in
/-- All values are small. -/
def Small (tol : K) (X : Nat → K) : Prop := ∀ e, e < m.nelems → |X e| ≤ tol

theorem allBounded_spec (tol : K) (X : Nat → K) : allBounded ((List.range m.nelems).map X) tol = true ↔ Small m tol X := by
  unfold allBounded Small
  simp

/-- The loop ends at the first round after which all values are small. -/
theorem diffuseDensities_spec (s : Nat → Sched) (hm : m.Sound) [IsStrictOrderedRing K] {W : Nat → K} (hW : ∀ e, e < m.nelems → 0 < W e)
    (tol : K) (fuel : Nat) (X : Nat → K) :
    (∃ k, k ≤ fuel ∧ Small m tol ((fluxStep m W)^[k] X) ∧ (∀ j, j < k → ¬ Small m tol ((fluxStep m W)^[j] X)) ∧
      diffuseDensities s m.dim (graphOn (List.range m.nelems) m.neighbours) ((List.range m.nelems).map W) tol fuel ((List.range m.nelems).map X)
        = some ((List.range m.nelems).map ((fluxStep m W)^[k] X))) ∨
    ((∀ k, k ≤ fuel → ¬ Small m tol ((fluxStep m W)^[k] X)) ∧
      diffuseDensities s m.dim (graphOn (List.range m.nelems) m.neighbours) ((List.range m.nelems).map W) tol fuel ((List.range m.nelems).map X) = none) := by
  induction fuel generalizing X with
  | zero =>
    unfold diffuseDensities
    by_cases h : Small m tol X
    · left
      exact ⟨0, le_refl _, h, by omega, by rw [if_pos ((allBounded_spec tol X).2 h)]; rfl⟩
    · right
      refine ⟨?_, by rw [if_neg (fun hc => h ((allBounded_spec tol X).1 hc))]⟩
      intro k hk
      obtain rfl : k = 0 := by omega
      exact h
  | succ fuel ih =>
    unfold diffuseDensities
    by_cases h : Small m tol X
    · left
      exact ⟨0, Nat.zero_le _, h, by omega, by rw [if_pos ((allBounded_spec tol X).2 h)]; rfl⟩
    · rw [if_neg (fun hc => h ((allBounded_spec tol X).1 hc)), diffuseOnce_spec _ hm hW, Option.bind_some]
      rcases ih (fluxStep m W X) with ⟨k, h1, h2, h3, h4⟩ | ⟨h1, h2⟩
      · left
        refine ⟨k + 1, by omega, h2, ?_, h4⟩
        intro j hj
        cases j with
        | zero => exact h
        | succ j => exact h3 j (by omega)
      · right
        refine ⟨?_, h2⟩
        intro j hj
        cases j with
        | zero => exact h
        | succ j => exact h1 j (by omega)

variable [IsStrictOrderedRing K]

theorem iterate_total (hm : m.Sound) {W : Nat → K} (hW : ∀ e, e < m.nelems → 0 < W e) {C : Nat → Bool} (hC : m.Closed C) (X : Nat → K) (k : Nat) :
    m.total C (fun e => (fluxStep m W)^[k] X e * W e) = m.total C (fun e => X e * W e) := by
  induction k generalizing X with
  | zero => rfl
  | succ k ih => rw [Function.iterate_succ_apply, ih, fluxStep_total hm hW hC]

end
end OmegaH
