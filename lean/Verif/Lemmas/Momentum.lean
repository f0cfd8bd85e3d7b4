import Verif.Lemmas.Even
/-!
# Taking momentum from the velocities of vertices
-/
namespace OmegaH
open Spec

variable {K : Type} [Field K] [LinearOrder K] [IsStrictOrderedRing K] {m : FluxMesh K}

theorem row_table {α : Type} (n w : Nat) (F : Nat → Nat → α) {e : Nat} (he : e < n) : row (tableOf (List.range n) w F) w e = (List.range w).map (F e) := by
  apply List.ext_getElem?
  intro j
  by_cases hj : j < w
  · rw [row_get _ e hj, range_get _ _ hj]
    exact table_get n w F he hj
  · have h1 : (row (tableOf (List.range n) w F) w e).length = w := row_length (by rw [tableOf_length, List.length_range]) he
    rw [List.getElem?_eq_none (by omega), List.getElem?_eq_none (by simp; omega)]

theorem mem_table {α : Type} {n w : Nat} {F : Nat → Nat → α} {x : α} (h : x ∈ tableOf (List.range n) w F) : ∃ e i, e < n ∧ i < w ∧ x = F e i := by
  unfold tableOf at h
  obtain ⟨e, he, h⟩ := List.mem_flatMap.1 h
  obtain ⟨i, hi, rfl⟩ := List.mem_map.1 h
  exact ⟨e, i, List.mem_range.1 he, List.mem_range.1 hi, rfl⟩

omit [IsStrictOrderedRing K] in
theorem average_table (s : Sched) (hm : m.Sound) {w : Nat} (hw : 0 < w) (V : Nat → Nat → K) :
    averageField s w (m.dim + 1) m.vertArray (tableOf (List.range m.nverts) w V) m.nelems
      = some (tableOf (List.range m.nelems) w (fun e c => m.mean (fun v => V v c) e)) := by
  obtain ⟨out, o1, o2, o3⟩ := average_spec s hw (coords := tableOf (List.range m.nverts) w V) (nv := m.nverts) (ne := m.nelems)
    (degree := m.dim + 1) (ev2v := m.vertArray) (by rw [tableOf_length, List.length_range]) (by
      unfold FluxMesh.vertArray; rw [tableOf_length, List.length_range]) (by
      intro v hv
      obtain ⟨e, i, he, hi, rfl⟩ := mem_table hv
      exact hm.verts.below e i he hi) V (fun v c hv hc => table_get _ _ _ hv hc)
  rw [o1]
  congr 1
  refine eq_tableOf (by rw [o2, List.length_range]) ?_
  intro e c b hb hc
  have he : e < m.nelems := by have := (List.getElem?_eq_some_iff.1 hb).1; simpa using this
  rw [List.getElem?_range he] at hb
  obtain rfl := Option.some.inj hb
  show out[e * w + c]? = _
  rw [o3 e c he hc]
  unfold FluxMesh.vertArray FluxMesh.mean
  rw [row_table _ _ _ he, List.map_map]
  rfl

omit [LinearOrder K] [IsStrictOrderedRing K] in
theorem vertSum_table (s s' : Sched) (hm : ∀ v, v < m.nverts → ∀ e ∈ m.vertElems v, e < m.nelems) (M : Nat → K) :
    (unmap s m.vertGraph.ab2b ((List.range m.nelems).map M) 1).bind (fun x => fanReduce s' sumFunctorK m.vertGraph.a2ab x 1)
      = some ((List.range m.nverts).map (fun v => ((m.vertElems v).map M).sum)) := by
  unfold FluxMesh.vertGraph
  rw [unmap_ones s _ m.nelems M (by
    intro e he
    obtain ⟨v, hv, he⟩ := List.mem_flatMap.1 he
    exact hm v (List.mem_range.1 hv) e he), Option.bind_some]
  have h := sum_table s' (List.range m.nverts) m.vertElems 1 (fun p _ => M p.2)
  rw [tableOf_one, tableOf_one] at h
  rw [← h]
  congr 1
  show List.map M ((List.range m.nverts).flatMap m.vertElems) = _
  rw [← edgesOn_snd, List.map_map]
  rfl

omit [IsStrictOrderedRing K] in
theorem freeVerts_spec (hm : m.Sound) (flags : Nat → BitVec 8) {e c : Nat} (he : e < m.nelems) (hc : c < 3) :
    freeVerts m.dim m.vertArray ((List.range m.nverts).map flags) e c = some (m.freeCount flags e c) := by
  unfold freeVerts
  rw [if_neg (by omega), mapM_range_some (m.dim + 1) _ (fun i => if fixedAt flags (m.verts e i) c then 0 else 1)]
  · rw [Option.map_some]
    congr 1
    unfold FluxMesh.freeCount
    induction List.range (m.dim + 1) with
    | nil => rfl
    | cons i l ih =>
      rw [List.map_cons, List.sum_cons, ih]
      cases h : fixedAt flags (m.verts e i) c
      · rw [List.filter_cons_of_pos (by simp [h])]; simp; omega
      · rw [List.filter_cons_of_neg (by simp [h])]; simp
  · intro i hi
    unfold FluxMesh.vertArray
    rw [table_get _ _ _ he hi, Option.bind_some, range_get _ _ (hm.verts.below e i he hi)]
    rfl

omit [Field K] [LinearOrder K] [IsStrictOrderedRing K] in
theorem freeCount_pos {flags : Nat → BitVec 8} {e i c : Nat} (hi : i < m.dim + 1) (h : fixedAt flags (m.verts e i) c = false) :
    0 < m.freeCount flags e c := by
  unfold FluxMesh.freeCount
  apply List.length_pos_of_mem (a := i)
  rw [List.mem_filter]
  exact ⟨List.mem_range.2 hi, by simp [h]⟩

variable (m) in
/-- The velocity that the correction gives. -/
def corrected (flags : Nat → BitVec 8) (VM : Nat → K) (E V : Nat → Nat → K) (v c : Nat) : K :=
  V v c - ((m.vertElems v).map (fun e => if fixedAt flags v c then 0 else E e c / ((m.freeCount flags e c : K) * VM v))).sum

theorem correctVelocity_spec (hm : m.Sound) (flags : Nat → BitVec 8) {VM : Nat → K} (hVM : ∀ v, v < m.nverts → m.vertElems v ≠ [] → VM v ≠ 0) (E V : Nat → Nat → K)
    {w v c : Nat} (hv : v < m.nverts) (hcw : c < w) (hc : c < 3) :
    correctVelocity m.dim w m.vertArray m.vertGraph ((List.range m.nverts).map flags) ((List.range m.nverts).map VM)
      (tableOf (List.range m.nelems) w E) (tableOf (List.range m.nverts) w V) v c = some (corrected m flags VM E V v c) := by
  unfold correctVelocity
  rw [range_get _ _ hv, range_get _ _ hv]
  unfold FluxMesh.vertGraph
  rw [graphOn_offset _ _ v (by simp; omega), graphOn_offset_succ _ _ v v (List.getElem?_range hv), table_get _ _ _ hv hcw]
  simp only [Option.bind_some, Nat.add_sub_cancel_left]
  have key : ∀ (l : List Nat) (lo : Nat) (acc : K), (∀ j, j < l.length → (graphOn (List.range m.nverts) m.vertElems).ab2b[lo + j]? = l[j]?) →
      (∀ e ∈ l, e ∈ m.vertElems v) →
      (List.range' lo l.length).foldlM (fun acc ve => ((graphOn (List.range m.nverts) m.vertElems).ab2b[ve]?).bind (fun e =>
        (freeVerts m.dim m.vertArray ((List.range m.nverts).map flags) e c).bind (fun nfree => if (flags v).getLsbD c then some acc
        else ((tableOf (List.range m.nelems) w E)[e * w + c]?).bind (fun err =>
          if (nfree : K) * VM v = 0 then none else some (acc - err / ((nfree : K) * VM v)))))) acc
      = some (acc - (l.map (fun e => if fixedAt flags v c then 0 else E e c / ((m.freeCount flags e c : K) * VM v))).sum) := by
    intro l
    induction l with
    | nil => intro lo acc _ _; simp
    | cons e l ih =>
      intro lo acc h1 h2
      have hmem := h2 e (List.mem_cons_self ..)
      obtain ⟨he, i, hi, hie⟩ := (hm.verts.mem hv).1 hmem
      have e0 := h1 0 (by simp)
      rw [Nat.add_zero, List.getElem?_cons_zero] at e0
      have hstep : (((graphOn (List.range m.nverts) m.vertElems).ab2b[lo]?).bind (fun e =>
        (freeVerts m.dim m.vertArray ((List.range m.nverts).map flags) e c).bind (fun nfree => if (flags v).getLsbD c then some acc
        else ((tableOf (List.range m.nelems) w E)[e * w + c]?).bind (fun err =>
          if (nfree : K) * VM v = 0 then none else some (acc - err / ((nfree : K) * VM v))))))
          = some (acc - if fixedAt flags v c then 0 else E e c / ((m.freeCount flags e c : K) * VM v)) := by
        rw [e0, Option.bind_some, freeVerts_spec hm flags he hc, Option.bind_some, table_get _ _ _ he hcw]
        cases hf : fixedAt flags v c
        · have hf' : (flags v).getLsbD c = false := hf
          have hn : ((m.freeCount flags e c : Nat) : K) ≠ 0 := by
            have := freeCount_pos (m := m) (flags := flags) (e := e) (c := c) hi (by rw [hie]; exact hf)
            exact_mod_cast this.ne'
          rw [if_neg (by rw [hf']; simp), Option.bind_some, if_neg (mul_ne_zero hn (hVM v hv (List.ne_nil_of_mem hmem)))]
          simp
        · have hf' : (flags v).getLsbD c = true := hf
          rw [if_pos hf']; simp
      rw [List.length_cons, List.range'_succ, List.foldlM_cons, hstep]
      show List.foldlM _ _ _ = _
      rw [ih (lo + 1) _ (by
        intro j hj
        have := h1 (j + 1) (by simpa using hj)
        rw [List.getElem?_cons_succ] at this
        rw [← this]; congr 1; omega) (fun o ho => h2 o (List.mem_cons_of_mem _ ho))]
      rw [List.map_cons, List.sum_cons, sub_sub]
  exact key (m.vertElems v) _ (V v c) (fun j hj => graphOn_edge m.nverts m.vertElems hv hj) (fun e he => he)

omit [IsStrictOrderedRing K] in
theorem divideEach_table (s : Sched) (l : List Nat) (hl : l ≠ []) (w : Nat) (F : Nat → Nat → K) (Z : Nat → K) (h0 : ∀ b ∈ l, Z b ≠ 0) :
    divideEachK s (tableOf l w F) (l.map Z) = some (tableOf l w (fun b j => F b j / Z b)) := by
  unfold divideEachK
  have hn : (l.map Z).length ≠ 0 := by simpa using hl
  rw [divide_width hn (by rw [tableOf_length, List.length_map])]
  refine rowEach_table s _ (fun x y => x / y) l w F Z ?_
  intro b hb j _
  rw [if_pos (h0 b hb)]

omit [LinearOrder K] [IsStrictOrderedRing K] in
theorem add_table (s : Sched) (l : List Nat) (w : Nat) (F G : Nat → Nat → K) :
    zipEach s (fun x y => some (x + y)) (tableOf l w F) (tableOf l w G) = some (tableOf l w (fun b j => F b j + G b j)) := by
  have h := zipEach_eq s (fun x y : K => some (x + y)) (fun x y => x + y) (tableOf l w F) (tableOf l w G) (by rw [tableOf_length, tableOf_length]) (fun _ _ _ _ _ => rfl)
  rw [h]
  congr 1
  refine eq_tableOf (by rw [List.length_zipWith, tableOf_length, tableOf_length, Nat.min_self]) ?_
  intro i j b hb hj
  have e1 := tableOf_entry l w F i j hj
  have e2 := tableOf_entry l w G i j hj
  unfold entry at e1 e2 ⊢
  rw [List.getElem?_zipWith, e1, e2, hb]
  rfl

omit [LinearOrder K] [IsStrictOrderedRing K] in
theorem map_sum_mul_right (l : List Nat) (f : Nat → K) (c : K) : (l.map f).sum * c = (l.map (fun e => f e * c)).sum := by
  induction l with
  | nil => simp
  | cons a l ih => simp only [List.map_cons, List.sum_cons, add_mul, ih]

omit [LinearOrder K] [IsStrictOrderedRing K] in
/-- The momentum of the elements is that of the vertices. -/
theorem momentum_by_verts (hv : Incident m.nelems (m.dim + 1) m.nverts m.verts m.vertElems) (M x : Nat → K) :
    m.total (fun _ => true) (fun e => M e * m.mean x e)
      = ((List.range m.nverts).map (fun v => ((m.vertElems v).map M).sum / ((m.dim + 1 : Nat) : K) * x v)).sum := by
  have h := double_count hv (fun e v => M e / ((m.dim + 1 : Nat) : K) * x v)
  have h1 : m.total (fun _ => true) (fun e => M e * m.mean x e)
      = ((List.range m.nelems).map (fun e => ((List.range (m.dim + 1)).map (fun i => M e / ((m.dim + 1 : Nat) : K) * x (m.verts e i))).sum)).sum := by
    unfold FluxMesh.total
    rw [List.filter_true]
    congr 1
    apply List.map_congr_left
    intro e _
    unfold FluxMesh.mean
    rw [← mul_div_assoc, mul_comm, ← div_mul_eq_mul_div, mul_comm] 
    have h2 : ∀ l : List Nat, M e * ((l.map (fun i => x (m.verts e i))).sum / ((m.dim + 1 : Nat) : K))
        = (l.map (fun i => M e / ((m.dim + 1 : Nat) : K) * x (m.verts e i))).sum := by
      intro l
      induction l with
      | nil => simp
      | cons i l ih => simp only [List.map_cons, List.sum_cons, ← ih]; ring
    exact h2 _
  rw [h1, ← h]
  congr 1
  apply List.map_congr_left
  intro v _
  rw [← map_sum_mul_right]
  congr 1
  have h3 : ∀ l : List Nat, (l.map (fun e => M e / ((m.dim + 1 : Nat) : K))).sum = (l.map M).sum / ((m.dim + 1 : Nat) : K) := by
    intro l
    simp only [div_eq_mul_inv]
    rw [map_sum_mul_right]
  exact h3 _

/-- What the correction takes away in all. -/
theorem corrected_total (hm : m.Sound) (flags : Nat → BitVec 8) (M : Nat → K) (hM : ∀ e, e < m.nelems → 0 < M e) (E V : Nat → Nat → K) (c : Nat) :
    m.total (fun _ => true) (fun e => M e * m.mean (fun v => corrected m flags (fun v => ((m.vertElems v).map M).sum / ((m.dim + 1 : Nat) : K)) E V v c) e)
      = m.total (fun _ => true) (fun e => M e * m.mean (fun v => V v c) e)
        - m.total (fun e => decide (m.freeCount flags e c ≠ 0)) (fun e => E e c) := by
  rw [momentum_by_verts hm.verts, momentum_by_verts hm.verts]
  have hd := (sidesPer_pos (m := m)).ne'
  have h1 : ((List.range m.nverts).map (fun v => ((m.vertElems v).map M).sum / ((m.dim + 1 : Nat) : K) *
        corrected m flags (fun v => ((m.vertElems v).map M).sum / ((m.dim + 1 : Nat) : K)) E V v c)).sum
      = ((List.range m.nverts).map (fun v => ((m.vertElems v).map M).sum / ((m.dim + 1 : Nat) : K) * V v c)).sum
        - ((List.range m.nverts).map (fun v => ((m.vertElems v).map (fun e => if fixedAt flags v c then 0 else E e c / (m.freeCount flags e c : K))).sum)).sum := by
    have : ∀ l : List Nat, (∀ v ∈ l, v < m.nverts) → (l.map (fun v => ((m.vertElems v).map M).sum / ((m.dim + 1 : Nat) : K) *
        corrected m flags (fun v => ((m.vertElems v).map M).sum / ((m.dim + 1 : Nat) : K)) E V v c)).sum
      = (l.map (fun v => ((m.vertElems v).map M).sum / ((m.dim + 1 : Nat) : K) * V v c)).sum
        - (l.map (fun v => ((m.vertElems v).map (fun e => if fixedAt flags v c then 0 else E e c / (m.freeCount flags e c : K))).sum)).sum := by
      intro l
      induction l with
      | nil => intro _; simp
      | cons v l ih =>
        intro h
        have hv := h v (List.mem_cons_self ..)
        simp only [List.map_cons, List.sum_cons]
        rw [ih (fun v hv => h v (List.mem_cons_of_mem _ hv))]
        have h2 : ((m.vertElems v).map M).sum / ((m.dim + 1 : Nat) : K) *
            corrected m flags (fun v => ((m.vertElems v).map M).sum / ((m.dim + 1 : Nat) : K)) E V v c
            = ((m.vertElems v).map M).sum / ((m.dim + 1 : Nat) : K) * V v c
              - ((m.vertElems v).map (fun e => if fixedAt flags v c then 0 else E e c / (m.freeCount flags e c : K))).sum := by
          unfold corrected
          by_cases hne : m.vertElems v = []
          · simp [hne]
          · have hpos : ((m.vertElems v).map M).sum ≠ 0 := (sum_pos_of hne (fun e he => hM e ((hm.verts.mem hv).1 he).1)).ne'
            rw [mul_sub]
            congr 1
            rw [mul_comm, map_sum_mul_right]
            congr 1
            apply List.map_congr_left
            intro e _
            cases fixedAt flags v c
            · simp only [Bool.false_eq_true, if_false]
              have hne2 : ((m.vertElems v).map M).sum / ((m.dim + 1 : Nat) : K) ≠ 0 := div_ne_zero hpos hd
              rw [div_mul_eq_div_div, div_mul_cancel₀ _ hne2]
            · simp
        rw [h2]; ring
    exact this _ (fun v hv => List.mem_range.1 hv)
  rw [h1]
  congr 1
  rw [double_count hm.verts (fun e v => if fixedAt flags v c then 0 else E e c / (m.freeCount flags e c : K))]
  have h2 : ∀ l : List Nat, (l.map (fun e => ((List.range (m.dim + 1)).map (fun i => if fixedAt flags (m.verts e i) c then 0 else E e c / (m.freeCount flags e c : K))).sum)).sum
      = sumOver (fun e => decide (m.freeCount flags e c ≠ 0)) (fun e => E e c) l := by
    intro l
    induction l with
    | nil => rfl
    | cons e l ih =>
      rw [List.map_cons, List.sum_cons, ih, sumOver_cons]
      congr 1
      have h3 : ((List.range (m.dim + 1)).map (fun i => if fixedAt flags (m.verts e i) c then 0 else E e c / (m.freeCount flags e c : K))).sum
          = (m.freeCount flags e c : K) * (E e c / (m.freeCount flags e c : K)) := by
        generalize E e c / (m.freeCount flags e c : K) = x
        unfold FluxMesh.freeCount
        induction List.range (m.dim + 1) with
        | nil => simp
        | cons i l ih =>
          rw [List.map_cons, List.sum_cons, ih]
          cases h : fixedAt flags (m.verts e i) c
          · rw [List.filter_cons_of_pos (by simp [h]), List.length_cons]; push_cast; ring_nf
          · rw [List.filter_cons_of_neg (by simp [h])]; simp
      rw [h3]
      by_cases h0 : m.freeCount flags e c = 0
      · simp [h0]
      · have : (m.freeCount flags e c : K) ≠ 0 := by exact_mod_cast h0
        rw [mul_div_cancel₀ _ this]
        simp [h0]
  exact h2 _

end OmegaH
