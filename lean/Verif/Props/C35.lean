import Verif.Model.Swap3d
import Verif.Spec.Loop
import Verif.Lemmas.Fan
import Verif.Lemmas.Rows
import Mathlib.Data.List.Rotate
import Mathlib.Data.List.Permutation
import Mathlib.Data.List.Forall2
/-!
# C35 — the loop around an edge
-/
namespace OmegaH
open Spec

theorem cycleEdges_eq (l : List Nat) : cycleEdges l = List.zipWith Prod.mk l (l.rotate 1) := by
  cases l with
  | nil => rfl
  | cons a r => simp [cycleEdges, List.zip, List.rotate_cons_succ]

theorem cycleEdges_length (l : List Nat) : (cycleEdges l).length = l.length := by
  rw [cycleEdges_eq]; simp

theorem cycleEdges_fst (l : List Nat) : (cycleEdges l).map Prod.fst = l := by
  rw [cycleEdges_eq]
  apply List.ext_getElem?
  intro i
  rw [List.getElem?_map, List.getElem?_zipWith]
  by_cases h : i < l.length
  · rw [List.getElem?_eq_getElem h, List.getElem?_eq_getElem (by simpa using h)]; rfl
  · rw [List.getElem?_eq_none (by omega)]; rfl

theorem cycleEdges_rotate (l : List Nat) (k : Nat) : cycleEdges (l.rotate k) = (cycleEdges l).rotate k := by
  rw [cycleEdges_eq, cycleEdges_eq, List.zipWith_rotate_distrib _ _ _ _ (by simp), List.rotate_rotate,
    List.rotate_rotate, Nat.add_comm]

/-- Consecutive edges of a cycle are joined end to start. -/
theorem cycleEdges_join (l : List Nat) (i : Nat) (e e' : Nat × Nat) (h : (cycleEdges l)[i]? = some e)
    (h' : (cycleEdges l)[i + 1]? = some e') : e.2 = e'.1 := by
  have hi := (List.getElem?_eq_some_iff.1 h').1
  rw [cycleEdges_length] at hi
  rw [cycleEdges_eq, List.getElem?_zipWith, List.getElem?_eq_getElem (by omega),
    List.getElem?_eq_getElem (by simp; omega)] at h h'
  simp only [Option.some.injEq] at h h'
  rw [← h, ← h']
  simp only [List.getElem_rotate]
  congr 1
  exact Nat.mod_eq_of_lt hi

theorem findNext_spec (es : List (Nat × Nat)) (v n : Nat) (hn : n = es.length) :
    ∀ fuel j, n ≤ j + fuel → ∀ j0 e, j ≤ j0 → es[j0]? = some e → e.1 = v →
      ∃ j' e', findNext es v n fuel j = some j' ∧ j ≤ j' ∧ es[j']? = some e' ∧ e'.1 = v := by
  intro fuel
  induction fuel with
  | zero =>
    intro j hj j0 e hj0 he _
    have := (List.getElem?_eq_some_iff.1 he).1
    omega
  | succ fuel ih =>
    intro j hj j0 e hj0 he hv
    have hlt := (List.getElem?_eq_some_iff.1 he).1
    unfold findNext
    rw [if_pos (by omega)]
    have hj' : j < es.length := by omega
    have ej := List.getElem?_eq_getElem hj'
    rw [ej]
    simp only
    split
    · rename_i h
      exact ⟨j, _, rfl, Nat.le_refl _, ej, h⟩
    · rename_i h
      have hne : j ≠ j0 := by
        intro h0; subst h0
        rw [ej] at he
        obtain rfl := Option.some.inj he
        exact h hv
      obtain ⟨j', e', h1, h2, h3, h4⟩ := ih (j + 1) (by omega) j0 e (by omega) he hv
      exact ⟨j', e', h1, by omega, h3, h4⟩

theorem findNext_range (es : List (Nat × Nat)) (v n : Nat) :
    ∀ fuel j j', findNext es v n fuel j = some j' → j ≤ j' ∧ j' < n ∧ ∃ e, es[j']? = some e ∧ e.1 = v := by
  intro fuel
  induction fuel with
  | zero => intro j j' h; exact absurd h (by simp [findNext])
  | succ fuel ih =>
    intro j j' h
    unfold findNext at h
    split at h
    · rename_i hj
      cases ej : es[j]? with
      | none => rw [ej] at h; exact absurd h (by simp)
      | some e =>
        rw [ej] at h
        simp only at h
        split at h
        · rename_i hv
          obtain rfl := Option.some.inj h
          exact ⟨Nat.le_refl _, hj, e, ej, hv⟩
        · obtain ⟨h1, h2, h3⟩ := ih _ _ h
          exact ⟨by omega, h2, h3⟩
    · exact absurd h (by simp)

theorem swapAt_perm {α : Type} {a b : List α} {i j : Nat} (h : swapAt a i j = some b) :
    b.Perm a ∧ (∀ k, k ≠ i → k ≠ j → b[k]? = a[k]?) ∧ b[i]? = a[j]? := by
  unfold swapAt at h
  cases hi : a[i]? with
  | none => simp [hi] at h
  | some x =>
    cases hj : a[j]? with
    | none => simp [hi, hj] at h
    | some y =>
      simp only [hi, hj, Option.some.injEq] at h
      obtain ⟨li, ei⟩ := List.getElem?_eq_some_iff.1 hi
      obtain ⟨lj, ej⟩ := List.getElem?_eq_some_iff.1 hj
      subst h
      refine ⟨?_, ?_, ?_⟩
      · rw [← ei, ← ej]; exact List.set_set_perm li lj
      · intro k h1 h2
        rw [List.getElem?_set_ne (Ne.symm h2), List.getElem?_set_ne (Ne.symm h1)]
      · by_cases h : j = i
        · subst h
          rw [List.getElem?_set_self (by simpa using lj)]
          rw [← hi, hj]
        · rw [List.getElem?_set_ne h, List.getElem?_set_self li]

theorem foldl_res_succ {σ : Type} (f : σ → Nat → Res σ) (n : Nat) (x : σ) :
    (List.range (n + 1)).foldl (fun (r : Res σ) (i : Nat) => r.bind (fun s => f s i)) (Res.ok x) =
    ((List.range n).foldl (fun (r : Res σ) (i : Nat) => r.bind (fun s => f s i)) (Res.ok x)).bind (fun s => f s n) := by
  rw [List.range_succ, List.foldl_append]; rfl

/-- If the edges, in whatever order, are those of a closed loop of distinct vertices, ordering them
gives the loop starting from the first edge. -/
theorem orderLoop_spec (es : List (Nat × Nat)) (l : List Nat) (hl : l.Nodup) (hne : l ≠ [])
    (hp : es.Perm (cycleEdges l)) : ∃ k, orderLoop es = .ok (cycleEdges (l.rotate k)) := by
  have hlen : es.length = l.length := by rw [hp.length_eq, cycleEdges_length]
  have hpos : 0 < l.length := List.length_pos_iff.2 hne
  have h0 : 0 < es.length := by omega
  obtain ⟨k, hk⟩ := List.mem_iff_getElem?.1 (hp.mem_iff.1 (List.getElem_mem h0))
  have hkl := (List.getElem?_eq_some_iff.1 hk).1
  refine ⟨k, ?_⟩
  generalize hm : l.rotate k = m
  have hmn : m.Nodup := by rw [← hm]; exact List.nodup_rotate.2 hl
  have hml : m.length = es.length := by rw [← hm, List.length_rotate, hlen]
  have hcm : cycleEdges m = (cycleEdges l).rotate k := by rw [← hm, cycleEdges_rotate]
  have hpm : es.Perm (cycleEdges m) := by rw [hcm]; exact hp.trans (List.rotate_perm _ _).symm
  have hfirst : es[0]? = (cycleEdges m)[0]? := by
    rw [hcm, List.getElem?_rotate (by omega), Nat.zero_add, Nat.mod_eq_of_lt hkl, hk]
    exact List.getElem?_eq_getElem h0
  have hinv : ∀ i, i < es.length → ∃ es', (List.range i).foldl
      (fun (r : Res (List (Nat × Nat))) (i : Nat) => r.bind (fun es => orderStep es.length es i)) (Res.ok es) = Res.ok es' ∧
      es'.Perm (cycleEdges m) ∧ ∀ j, j ≤ i → es'[j]? = (cycleEdges m)[j]? := by
    intro i
    induction i with
    | zero =>
      intro _
      refine ⟨es, rfl, hpm, ?_⟩
      intro j hj
      obtain rfl : j = 0 := by omega
      exact hfirst
    | succ i ih =>
      intro hi
      obtain ⟨es', e1, e2, e3⟩ := ih (by omega)
      have hl' : es'.length = es.length := by rw [e2.length_eq, ← hpm.length_eq]
      have hcl : (cycleEdges m).length = es.length := by rw [cycleEdges_length, hml]
      have hmi : i < (cycleEdges m).length := by omega
      have hmi1 : i + 1 < (cycleEdges m).length := by omega
      have ei := e3 i (by omega)
      rw [List.getElem?_eq_getElem hmi] at ei
      have ei1 := List.getElem?_eq_getElem hmi1
      have hj := cycleEdges_join m i _ _ (List.getElem?_eq_getElem hmi) ei1
      generalize (cycleEdges m)[i] = e at *
      generalize (cycleEdges m)[i + 1] = e' at *
      -- the edge starting where `e` ends
      have hfstn : ((cycleEdges m).map Prod.fst).Nodup := by rw [cycleEdges_fst]; exact hmn
      have huniq : ∀ (d : Nat × Nat) (q : Nat), (cycleEdges m)[q]? = some d → d.1 = e'.1 → q = i + 1 := by
        intro d q hq hd
        have hql := (List.getElem?_eq_some_iff.1 hq).1
        have a1 : ((cycleEdges m).map Prod.fst)[q]? = some d.1 := by rw [List.getElem?_map, hq]; rfl
        have a2 : ((cycleEdges m).map Prod.fst)[i + 1]? = some e'.1 := by rw [List.getElem?_map, ei1]; rfl
        rw [hd, ← a2] at a1
        exact (List.getElem?_inj (by simpa using hql) hfstn).1 a1
      obtain ⟨j0, hj0⟩ := List.mem_iff_getElem?.1 (e2.mem_iff.2 (List.mem_of_getElem? ei1))
      have hj0i : i + 1 ≤ j0 := by
        by_contra hlt
        have := e3 j0 (by omega)
        rw [hj0] at this
        have := huniq e' j0 this.symm rfl
        omega
      obtain ⟨j', d, f1, f2, f3, f4⟩ := findNext_spec es' e.2 es'.length rfl es'.length (i + 1)
        (by omega) j0 e' hj0i hj0 hj.symm
      have hd : d = e' := by
        obtain ⟨q, hq⟩ := List.mem_iff_getElem?.1 (e2.mem_iff.1 (List.mem_of_getElem? f3))
        have := huniq d q hq (f4.trans hj)
        subst this
        rw [ei1] at hq
        exact (Option.some.inj hq).symm
      have hsw : ∃ es'', swapAt es' (i + 1) j' = some es'' := by
        unfold swapAt
        rw [f3, List.getElem?_eq_getElem (show i + 1 < es'.length by omega)]
        exact ⟨_, rfl⟩
      obtain ⟨es'', hsw⟩ := hsw
      obtain ⟨s1, s2, s3⟩ := swapAt_perm hsw
      refine ⟨es'', ?_, s1.trans e2, ?_⟩
      · rw [foldl_res_succ, e1, Res.bind_ok]
        unfold orderStep
        rw [ei]
        simp only
        rw [f1]
        simp only [hsw, Res.ofOption]
      · intro j hji
        rcases Nat.lt_or_ge j (i + 1) with h | h
        · rw [s2 j (by omega) (by omega), e3 j (by omega)]
        · obtain rfl : j = i + 1 := by omega
          rw [s3, f3, hd, ei1]
  obtain ⟨es', e1, e2, e3⟩ := hinv (es.length - 1) (by omega)
  unfold orderLoop
  rw [e1]
  congr 1
  apply List.ext_getElem?
  intro j
  have hcl : (cycleEdges m).length = es.length := by rw [cycleEdges_length, hml]
  by_cases hj : j < es.length
  · exact e3 j (by omega)
  · rw [List.getElem?_eq_none (by rw [e2.length_eq]; omega), List.getElem?_eq_none (by omega)]

/-- Whatever the edges, ordering either stops with an error or returns the same edges arranged in a
chain; it never accesses an entry out of bounds. -/
theorem orderLoop_any (es : List (Nat × Nat)) :
    orderLoop es = .fail ∨ ∃ es', orderLoop es = .ok es' ∧ es'.Perm es ∧
      ∀ (i : Nat) e e', es'[i]? = some e → es'[i + 1]? = some e' → e.2 = e'.1 := by
  have hinv : ∀ i, i ≤ es.length - 1 → (List.range i).foldl
      (fun (r : Res (List (Nat × Nat))) (i : Nat) => r.bind (fun es => orderStep es.length es i)) (Res.ok es) = Res.fail ∨
      ∃ es', (List.range i).foldl
      (fun (r : Res (List (Nat × Nat))) (i : Nat) => r.bind (fun es => orderStep es.length es i)) (Res.ok es) = Res.ok es' ∧ es'.Perm es ∧
      ∀ (j : Nat) e e', j < i → es'[j]? = some e → es'[j + 1]? = some e' → e.2 = e'.1 := by
    intro i
    induction i with
    | zero => intro _; right; exact ⟨es, rfl, List.Perm.refl _, by intro j e e' h; omega⟩
    | succ i ih =>
      intro hi
      rcases ih (by omega) with h | ⟨es', e1, e2, e3⟩
      · left; rw [foldl_res_succ, h]; rfl
      · rw [foldl_res_succ, e1, Res.bind_ok]
        unfold orderStep
        have hl' := e2.length_eq
        have hii : i < es'.length := by omega
        have ei := List.getElem?_eq_getElem hii
        rw [ei]
        simp only
        cases hf : findNext es' es'[i].2 es'.length es'.length (i + 1) with
        | none => left; rfl
        | some j =>
          right
          obtain ⟨f1, f2, d, f3, f4⟩ := findNext_range _ _ _ _ _ _ hf
          have hsw : ∃ es'', swapAt es' (i + 1) j = some es'' := by
            unfold swapAt
            rw [f3, List.getElem?_eq_getElem (show i + 1 < es'.length by omega)]
            exact ⟨_, rfl⟩
          obtain ⟨es'', hsw⟩ := hsw
          obtain ⟨s1, s2, s3⟩ := swapAt_perm hsw
          refine ⟨es'', by simp only [hsw, Res.ofOption], s1.trans e2, ?_⟩
          intro q e e' hq h1 h2
          rcases Nat.lt_or_ge q i with h | h
          · rw [s2 q (by omega) (by omega)] at h1
            rw [s2 (q + 1) (by omega) (by omega)] at h2
            exact e3 q e e' h h1 h2
          · obtain rfl : q = i := by omega
            rw [s2 q (by omega) (by omega), ei] at h1
            rw [s3, f3] at h2
            rw [← Option.some.inj h1, ← Option.some.inj h2, f4]
  rcases hinv (es.length - 1) (by omega) with h | ⟨es', e1, e2, e3⟩
  · exact Or.inl h
  · refine Or.inr ⟨es', e1, e2, ?_⟩
    intro i e e' h1 h2
    have := (List.getElem?_eq_some_iff.1 h2).1
    rw [e2.length_eq] at this
    exact e3 i e e' (by omega) h1 h2

/-- The code stored with a tet around an edge: `w` is the local position of the edge in the tet, and
`r` tells whether the tet's own numbering runs along the edge or against it
(what `Adj` codes mean for edges, see C09 and C12). -/
def Spec.EdgeCode (c : Int) (row : List Nat) (p q : Nat) : Prop :=
  ∃ w r : Nat, w < 6 ∧ r < 2 ∧ c = 8 * (w : Int) + 2 * (r : Int) ∧
    row[(simplexDownTemplate 3 1 w (r : Int)).toNat]? = some p ∧
    row[(simplexDownTemplate 3 1 w ((1 - r : Nat) : Int)).toNat]? = some q

private theorem order_table : ∀ o ∈ [0, 1, 2, 3].permutations', Spec.inversions o % 2 = 0 →
    ∀ w, w < 6 → ∀ r, r < 2 →
    o[(simplexDownTemplate 3 1 (w : Nat) ((r : Nat) : Int)).toNat]? = some 0 →
    o[(simplexDownTemplate 3 1 (w : Nat) ((1 - r : Nat) : Int)).toNat]? = some 1 →
    (0 ≤ simplexDownTemplate 3 1 (simplexOppositeTemplate 3 1 w) ((r ^^^ 0 : Nat) : Int) ∧
     0 ≤ simplexDownTemplate 3 1 (simplexOppositeTemplate 3 1 w) ((r ^^^ 1 : Nat) : Int)) ∧
    o[(simplexDownTemplate 3 1 (simplexOppositeTemplate 3 1 w) ((r ^^^ 0 : Nat) : Int)).toNat]? = some 2 ∧
    o[(simplexDownTemplate 3 1 (simplexOppositeTemplate 3 1 w) ((r ^^^ 1 : Nat) : Int)).toNat]? = some 3 := by
  have h : ∀ o ∈ [0, 1, 2, 3].permutations', Spec.inversions o % 2 = 0 →
    ∀ w ∈ List.range 6, ∀ r ∈ List.range 2,
    decide (o[(simplexDownTemplate 3 1 (w : Nat) ((r : Nat) : Int)).toNat]? = some 0 →
    o[(simplexDownTemplate 3 1 (w : Nat) ((1 - r : Nat) : Int)).toNat]? = some 1 →
    (0 ≤ simplexDownTemplate 3 1 (simplexOppositeTemplate 3 1 w) ((r ^^^ 0 : Nat) : Int) ∧
     0 ≤ simplexDownTemplate 3 1 (simplexOppositeTemplate 3 1 w) ((r ^^^ 1 : Nat) : Int)) ∧
    o[(simplexDownTemplate 3 1 (simplexOppositeTemplate 3 1 w) ((r ^^^ 0 : Nat) : Int)).toNat]? = some 2 ∧
    o[(simplexDownTemplate 3 1 (simplexOppositeTemplate 3 1 w) ((r ^^^ 1 : Nat) : Int)).toNat]? = some 3) = true := by
    decide +kernel
  intro o ho hi w hw r hr
  exact of_decide_eq_true (h o ho hi w (List.mem_range.2 hw) r (List.mem_range.2 hr))

private theorem template_lt : ∀ w ∈ List.range 6, ∀ r ∈ List.range 2, ∀ i ∈ List.range 2,
    0 ≤ simplexDownTemplate 3 1 (simplexOppositeTemplate 3 1 (w : Nat)) ((r ^^^ i : Nat) : Int) ∧
    (simplexDownTemplate 3 1 (simplexOppositeTemplate 3 1 (w : Nat)) ((r ^^^ i : Nat) : Int)).toNat < 4 := by
  decide +kernel

theorem edgeCode_fields (w r : Nat) (hr : r < 2) :
    codeWhichDown (8 * (w : Int) + 2 * (r : Int)) = w ∧ codeRotation (8 * (w : Int) + 2 * (r : Int)) = r := by
  unfold codeWhichDown codeRotation
  omega

/-- The pair read from a tet of the fan is the tet's outer edge in the direction of the curl. -/
theorem loopEdge_spec (tv2v : List Nat) (t : Nat) (c : Int) (p q x y : Nat)
    (hd : [p, q, x, y].Nodup) (ht : SameTet (row tv2v 4 t) [p, q, x, y])
    (hc : Spec.EdgeCode c (row tv2v 4 t) p q) : loopEdge tv2v t c = some (x, y) := by
  obtain ⟨o, ho, hinv, _, hrl, hget⟩ := ht
  obtain ⟨w, r, hw, hr, rfl, hp, hq⟩ := hc
  obtain ⟨f1, f2⟩ := edgeCode_fields w r hr
  have hol : o.length = 4 := by rw [ho.length_eq]; rfl
  have hlt : ∀ i, i < 4 → ∃ j, o[i]? = some j ∧ j < 4 := by
    intro i hi
    have e := List.getElem?_eq_getElem (show i < o.length by omega)
    refine ⟨_, e, ?_⟩
    have := ho.mem_iff.1 (List.mem_of_getElem? e)
    simp at this
    omega
  have back : ∀ (i j v : Nat), (row tv2v 4 t)[i]? = some v → [p, q, x, y][j]? = some v → o[i]? = some j := by
    intro i j v h1 h2
    have hi := (List.getElem?_eq_some_iff.1 h1).1
    rw [hrl] at hi
    obtain ⟨j', e, hj'⟩ := hlt i hi
    rw [hget i j' e, ← h2] at h1
    rw [e]
    congr 1
    exact (List.getElem?_inj (by simpa using hj') hd).1 h1
  obtain ⟨⟨g1, g2⟩, k1, k2⟩ := order_table o (List.mem_permutations'.2 ho) hinv w hw r hr
    (back _ 0 p hp rfl) (back _ 1 q hq rfl)
  unfold loopEdge
  simp only [f1, f2, Int.toNat_natCast]
  have e1 := hget _ _ k1
  have e2 := hget _ _ k2
  have l1 := (List.getElem?_eq_some_iff.1 k1).1
  have l2 := (List.getElem?_eq_some_iff.1 k2).1
  rw [row_get _ _ (by omega)] at e1 e2
  unfold entry at e1 e2
  rw [if_pos g1, if_pos g2, e1, e2]
  rfl

/-- **C35.** For an edge with 3 to 7 tets around it that close up, stored in any order and each with
any positively oriented local numbering, `find_loop` returns the outer vertices in cyclic order along
the curl. -/
theorem C35_find_loop (e2et et2t : List Nat) (codes : List Int) (ev2v tv2v : List Nat)
    (edge lo p q : Nat) (l : List Nat) (rows : List (List Nat))
    (hlo : e2et[edge]? = some lo) (hhi : e2et[edge + 1]? = some (lo + l.length))
    (hev : rowAt ev2v 2 edge = some [p, q])
    (htets : ∀ (k : Nat) r, rows[k]? = some r → ∃ t c, et2t[lo + k]? = some t ∧ codes[lo + k]? = some c ∧
      row tv2v 4 t = r ∧ Spec.EdgeCode c r p q)
    (hsur : Surrounds p q l rows) (h7 : l.length ≤ 7) :
    ∃ k, findLoop e2et et2t codes ev2v tv2v edge = .ok ⟨l.length, [p, q], some (l.rotate k)⟩ := by
  obtain ⟨hnd, h3, es, hperm, hall⟩ := hsur
  have hln : l.Nodup := (List.nodup_cons.1 (List.nodup_cons.1 hnd).2).2
  have hel : es.length = l.length := by rw [hperm.length_eq, cycleEdges_length]
  have hrl : rows.length = l.length := by rw [hall.length_eq, hel]
  obtain ⟨k, hk⟩ := orderLoop_spec es l hln (by intro h; subst h; simp at h3) hperm
  refine ⟨k, ?_⟩
  unfold findLoop
  rw [hlo, hhi]
  simp only
  rw [if_neg (by omega), Nat.add_sub_cancel_left, if_neg (by omega), if_neg (by omega), hev]
  simp only [Res.ofOption, Res.bind_ok]
  have hm : (List.range' lo l.length).mapM (tmpEdge et2t codes tv2v) = some es := by
    have hW : ∀ j e, es[j]? = some e → tmpEdge et2t codes tv2v (lo + j) = some e := by
      intro j e he
      have hj := (List.getElem?_eq_some_iff.1 he).1
      have er := List.getElem?_eq_getElem (show j < rows.length by omega)
      obtain ⟨t, c, e1, e2, e3, e4⟩ := htets j _ er
      have hst := (List.forall₂_iff_get.1 hall).2 j (by omega) hj
      simp only [List.get_eq_getElem] at hst
      have hej : es[j] = e := by rw [List.getElem?_eq_getElem hj] at he; exact Option.some.inj he
      rw [hej] at hst
      unfold tmpEdge
      rw [e1, e2]
      simp only
      apply loopEdge_spec tv2v t c p q e.1 e.2
      · -- the four vertices are distinct
        have hmem := hperm.mem_iff.1 (List.mem_of_getElem? he)
        obtain ⟨i, hi⟩ := List.mem_iff_getElem?.1 hmem
        have hil := (List.getElem?_eq_some_iff.1 hi).1
        rw [cycleEdges_length] at hil
        rw [cycleEdges_eq, List.getElem?_zipWith, List.getElem?_eq_getElem hil,
          List.getElem?_eq_getElem (by simpa using hil)] at hi
        simp only [Option.some.injEq] at hi
        rw [List.getElem_rotate] at hi
        have hil2 : (i + 1) % l.length < l.length := Nat.mod_lt _ (by omega)
        have hne : l[i] ≠ l[(i + 1) % l.length] := by
          intro h
          have := (List.Nodup.getElem_inj_iff hln).1 h
          rcases Nat.lt_or_ge (i + 1) l.length with h' | h'
          · rw [Nat.mod_eq_of_lt h'] at this; omega
          · have h'' : i + 1 = l.length := by omega
            rw [h'', Nat.mod_self] at this
            omega
        have m1 : e.1 ∈ l := by rw [← hi]; exact List.getElem_mem _
        have m2 : e.2 ∈ l := by rw [← hi]; exact List.getElem_mem _
        have hxy : e.1 ≠ e.2 := by rw [← hi]; exact hne
        rw [List.nodup_cons, List.nodup_cons] at hnd
        obtain ⟨n1, n2, _⟩ := hnd
        simp only [List.mem_cons, not_or] at n1
        have d1 : p ≠ e.1 := by rintro rfl; exact n1.2 m1
        have d2 : p ≠ e.2 := by rintro rfl; exact n1.2 m2
        have d3 : q ≠ e.1 := by rintro rfl; exact n2 m1
        have d4 : q ≠ e.2 := by rintro rfl; exact n2 m2
        simp [n1.1, d1, d2, d3, d4, hxy]
      · rw [e3]; exact hst
      · rw [e3]; exact e4
    obtain ⟨out, o1, o2, _, o4⟩ := mapM_list_spec (List.range' lo l.length) (tmpEdge et2t codes tv2v) (by
        intro x hx
        rw [List.mem_range'_1] at hx
        have hxl : x - lo < es.length := by omega
        have := hW (x - lo) _ (List.getElem?_eq_getElem hxl)
        rw [Nat.add_sub_cancel' hx.1] at this
        rw [this]; rfl)
    rw [o1]
    congr 1
    apply List.ext_getElem?
    intro j
    rw [List.length_range'] at o2
    by_cases hj : j < es.length
    · rw [o4 j (lo + j) (by rw [List.getElem?_range' (by omega), Nat.one_mul]),
        hW j _ (List.getElem?_eq_getElem hj), List.getElem?_eq_getElem hj]
    · rw [List.getElem?_eq_none (by omega), List.getElem?_eq_none (by omega)]
  simp only [hm, Res.bind_ok, hk, cycleEdges_fst]

/-- Arrays as `find_loop` receives them: offsets that fit, tets and codes in range. -/
def Spec.LoopInput (e2et et2t : List Nat) (codes : List Int) (ev2v tv2v : List Nat) (edge : Nat) : Prop :=
  ∃ lo hi, e2et[edge]? = some lo ∧ e2et[edge + 1]? = some hi ∧ lo ≤ hi ∧ edge * 2 + 2 ≤ ev2v.length ∧
    ∀ et, lo ≤ et → et < hi → ∃ t w r : Nat, et2t[et]? = some t ∧ t * 4 + 4 ≤ tv2v.length ∧
      codes[et]? = some (8 * (w : Int) + 2 * (r : Int)) ∧ w < 6 ∧ r < 2

theorem loopEdge_some (tv2v : List Nat) (t w r : Nat) (ht : t * 4 + 4 ≤ tv2v.length) (hw : w < 6)
    (hr : r < 2) : (loopEdge tv2v t (8 * (w : Int) + 2 * (r : Int))).isSome := by
  obtain ⟨f1, f2⟩ := edgeCode_fields w r hr
  unfold loopEdge
  simp only [f1, f2, Int.toNat_natCast]
  obtain ⟨a1, a2⟩ := template_lt w (List.mem_range.2 hw) r (List.mem_range.2 hr) 0 (by decide)
  obtain ⟨b1, b2⟩ := template_lt w (List.mem_range.2 hw) r (List.mem_range.2 hr) 1 (by decide)
  rw [if_pos a1, if_pos b1, List.getElem?_eq_getElem (by omega), List.getElem?_eq_getElem (by omega)]
  rfl

/-- What any call does: an error for fewer than 3 tets; for more than 7 only the size; otherwise
either an error or all first endpoints of the outer edges, arranged so that each edge but the last
ends where the next one starts. No access out of bounds. Missing from the full claim: an error when
the tets do not close up (refuted below). -/
theorem C35_any_input_partial (e2et et2t : List Nat) (codes : List Int) (ev2v tv2v : List Nat) (edge : Nat)
    (hin : LoopInput e2et et2t codes ev2v tv2v edge) :
    ∃ lo hi, e2et[edge]? = some lo ∧ e2et[edge + 1]? = some hi ∧
    ((hi - lo < 3 ∧ findLoop e2et et2t codes ev2v tv2v edge = .fail) ∨
     (7 < hi - lo ∧ findLoop e2et et2t codes ev2v tv2v edge = .ok ⟨hi - lo, [], none⟩) ∨
     (3 ≤ hi - lo ∧ hi - lo ≤ 7 ∧ (findLoop e2et et2t codes ev2v tv2v edge = .fail ∨
      ∃ es es' : List (Nat × Nat), (List.range' lo (hi - lo)).mapM (tmpEdge et2t codes tv2v) = some es ∧
        es'.Perm es ∧ (∀ (i : Nat) e e', es'[i]? = some e → es'[i + 1]? = some e' → e.2 = e'.1) ∧
        findLoop e2et et2t codes ev2v tv2v edge =
          .ok ⟨hi - lo, row ev2v 2 edge, some (es'.map Prod.fst)⟩))) := by
  obtain ⟨lo, hi, h1, h2, h3, h4, h5⟩ := hin
  refine ⟨lo, hi, h1, h2, ?_⟩
  unfold findLoop
  rw [h1, h2]
  simp only
  rw [if_neg (by omega)]
  by_cases c1 : 7 < hi - lo
  · right; left
    exact ⟨c1, by rw [if_pos c1]⟩
  rw [if_neg c1]
  by_cases c2 : hi - lo < 3
  · left
    exact ⟨c2, by rw [if_pos c2]⟩
  rw [if_neg c2]
  right; right
  refine ⟨by omega, by omega, ?_⟩
  obtain ⟨es, o1, _, _, _⟩ := mapM_list_spec (List.range' lo (hi - lo)) (tmpEdge et2t codes tv2v) (by
    intro x hx
    rw [List.mem_range'_1] at hx
    obtain ⟨t, w, r, g1, g2, g3, g4, g5⟩ := h5 x hx.1 (by omega)
    unfold tmpEdge
    rw [g1, g3]
    exact loopEdge_some tv2v t w r g2 g4 g5)
  have hrow : rowAt ev2v 2 edge = some (row ev2v 2 edge) := by
    unfold rowAt row
    rw [if_pos (by omega)]
  simp only [hrow, Res.ofOption, Res.bind_ok, o1]
  rcases orderLoop_any es with h | ⟨es', e1, e2, e3⟩
  · left; rw [h]; rfl
  · right
    exact ⟨es, es', rfl, e2, e3, by rw [e1]; rfl⟩

/-- No call on well-formed arrays reads out of bounds. -/
theorem C35_in_bounds (e2et et2t : List Nat) (codes : List Int) (ev2v tv2v : List Nat) (edge : Nat)
    (hin : LoopInput e2et et2t codes ev2v tv2v edge) :
    findLoop e2et et2t codes ev2v tv2v edge ≠ .ub := by
  obtain ⟨lo, hi, _, _, h⟩ := C35_any_input_partial e2et et2t codes ev2v tv2v edge hin
  rcases h with ⟨_, h⟩ | ⟨_, h⟩ | ⟨_, _, h | ⟨_, _, _, _, _, h⟩⟩ <;> rw [h] <;> simp

/-- If the tets do not close up although their outer edges form one chain, no error need be reported:
three tets on the outer vertices 2, 3, 4, 5 around the edge 0-1, stored in chain order, give the
"loop" 2, 3, 4 although no tet joins 4 to 2. -/
theorem C35_open_fan_refuted :
    ∃ e2et et2t codes ev2v tv2v, LoopInput e2et et2t codes ev2v tv2v 0 ∧
      findLoop e2et et2t codes ev2v tv2v 0 = .ok ⟨3, [0, 1], some [2, 3, 4]⟩ ∧
      ∀ t, t < 3 → ¬ (4 ∈ row tv2v 4 t ∧ 2 ∈ row tv2v 4 t) := by
  refine ⟨[0, 3], [0, 1, 2], [0, 0, 0], [0, 1], [0, 1, 2, 3, 0, 1, 3, 4, 0, 1, 4, 5], ?_, ?_, ?_⟩
  · refine ⟨0, 3, rfl, rfl, by omega, by decide, ?_⟩
    intro et _ h
    refine ⟨et, 0, 0, ?_, ?_, ?_, by omega, by omega⟩
    · rcases et with _ | _ | _ | et <;> first | rfl | omega
    · simp; omega
    · rcases et with _ | _ | _ | et <;> first | rfl | omega
  · decide +kernel
  · decide

/-- A closed fan of four tets, stored out of order with various local numberings, meets the
hypotheses of `C35_find_loop`. -/
example : Surrounds 10 11 [4, 5, 6, 7] [[6, 7, 10, 11], [11, 4, 10, 5], [11, 10, 4, 7], [10, 11, 5, 6]] ∧
    Spec.EdgeCode 40 [6, 7, 10, 11] 10 11 ∧ Spec.EdgeCode 16 [11, 4, 10, 5] 10 11 ∧
    Spec.EdgeCode 2 [11, 10, 4, 7] 10 11 ∧ Spec.EdgeCode 0 [10, 11, 5, 6] 10 11 := by
  have st : ∀ (o r t : List Nat), o.Perm [0, 1, 2, 3] → inversions o % 2 = 0 → t.length = 4 →
      r.length = 4 → (∀ i, i < 4 → r[i]? = (o[i]?).bind (fun j => t[j]?)) → SameTet r t := by
    intro o r t h1 h2 h3 h4 h5
    refine ⟨o, h1, h2, h3, h4, ?_⟩
    intro i j hij
    have := (List.getElem?_eq_some_iff.1 hij).1
    rw [h1.length_eq] at this
    rw [h5 i this, hij]; rfl
  refine ⟨⟨by decide, by decide, [(6, 7), (4, 5), (7, 4), (5, 6)], by decide, ?_⟩,
    ⟨5, 0, by decide, by decide, rfl, rfl, rfl⟩, ⟨2, 0, by decide, by decide, rfl, rfl, rfl⟩,
    ⟨0, 1, by decide, by decide, rfl, rfl, rfl⟩, ⟨0, 0, by decide, by decide, rfl, rfl, rfl⟩⟩
  refine .cons (st [2, 3, 0, 1] _ _ (by decide) rfl rfl rfl (by decide))
    (.cons (st [1, 2, 0, 3] _ _ (by decide) rfl rfl rfl (by decide))
    (.cons (st [1, 0, 3, 2] _ _ (by decide) rfl rfl rfl (by decide))
    (.cons (st [0, 1, 2, 3] _ _ (by decide) rfl rfl rfl (by decide)) .nil)))

example : findLoop [0, 4] [0, 1, 2, 3] [40, 16, 2, 0] [10, 11]
    [6, 7, 10, 11, 11, 4, 10, 5, 11, 10, 4, 7, 10, 11, 5, 6] 0 =
    .ok ⟨4, [10, 11], some [6, 7, 4, 5]⟩ := by decide +kernel

end OmegaH
