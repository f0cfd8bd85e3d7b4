import Verif.Lemmas.Determinise

/-! # C27: determinisation and simplification preserve recognised tokens -/

namespace OmegaH

open Spec

/-- The invariant of the construction of sets: the rows before `k` are done, and in row `k` the symbols before `j`. -/
structure DetInv (nfa : FA) (k j : Nat) (ssv : List (List Nat)) (out : FA) : Prop where
  table : FATable out
  nsym : out.nsym = nfa.nsym
  det : out.det = true
  n : out.nstates = ssv.length
  nodup : ssv.Nodup
  sets : ∀ X ∈ ssv, StateSet nfa.nstates X
  closed : ∀ X ∈ ssv, ∀ s ∈ X, ∀ t, Edge nfa s none t → t ∈ X
  start : ∃ X, ssv[0]? = some X ∧ ∀ t, t ∈ X ↔ Walk (Edge nfa) 0 [] t
  done : ∀ (i a : Nat) X, (i < k ∨ (i = k ∧ a < j)) → a < nfa.nsym → ssv[i]? = some X →
    (out.cell i a = some (-1) ∧ ∀ t, ¬ NextSet nfa X a t) ∨
      ∃ (p : Nat) (Y : List Nat), out.cell i a = some (p : Int) ∧ ssv[p]? = some Y ∧ ∀ t, t ∈ Y ↔ NextSet nfa X a t
  todo : ∀ i a, i < ssv.length → ¬ (i < k ∨ (i = k ∧ a < j)) → a < nfa.nsym → out.cell i a = some (-1)
  accDone : ∀ (i : Nat) X, i < k → ssv[i]? = some X → ∃ m, minAccepted nfa X = some m ∧ out.accepted[i]? = some m
  accTodo : ∀ (i : Nat), k ≤ i → i < ssv.length → out.accepted[i]? = some (-1)

theorem nextSet_closed {nfa : FA} {X : List Nat} {a s t : Nat} (h : NextSet nfa X a s) (he : Edge nfa s none t) : NextSet nfa X a t := by
  obtain ⟨r, hr, s', h1, h2⟩ := h
  exact ⟨r, hr, s', h1, walk_snoc_eps h2 he⟩

theorem detSymbol_spec {nfa : FA} (hn : FATable nfa) (hd : nfa.det = false) {k j : Nat} {ssv : List (List Nat)} {out : FA}
    (h : DetInv nfa k j ssv out) (hj : j < nfa.nsym) {X : List Nat} (hX : ssv[k]? = some X) :
    ∃ ssv' out', detSymbol nfa k X (ssv, out) j = some (ssv', out') ∧ DetInv nfa k (j + 1) ssv' out' ∧
      ∀ (i : Nat) Y, ssv[i]? = some Y → ssv'[i]? = some Y := by
  have hk : k < ssv.length := (List.getElem?_eq_some_iff.1 hX).1
  obtain ⟨nx, n1, n2, n3⟩ := stepSet_spec hn (h.sets X (List.mem_of_getElem? hX)) hj
  have hfree : out.cell k j = some (-1) := h.todo k j hk (by omega) hj
  unfold detSymbol
  rw [n1, Option.bind_some]
  by_cases hnil : nx = []
  · rw [if_pos hnil]
    refine ⟨ssv, out, rfl, ⟨h.table, h.nsym, h.det, h.n, h.nodup, h.sets, h.closed, h.start, ?_, ?_, h.accDone, h.accTodo⟩, fun _ _ h => h⟩
    · intro i a Y hi ha hY
      by_cases hia : i = k ∧ a = j
      · obtain ⟨rfl, rfl⟩ := hia
        refine Or.inl ⟨hfree, ?_⟩
        rintro t ⟨s, hs, s', he, _⟩
        rw [hX] at hY; cases hY
        have := (n3 s').2 ⟨s, hs, he⟩
        rw [hnil] at this
        cases this
      · exact h.done i a Y (by omega) ha hY
    · intro i a hi hno ha
      exact h.todo i a hi (by omega) ha
  · rw [if_neg hnil]
    obtain ⟨Y, y1, y2, y3⟩ := epsClosure_spec hn hd n2
    have hY : ∀ t, t ∈ Y ↔ NextSet nfa X j t := by
      intro t
      rw [y3]
      constructor
      · rintro ⟨s', hs', hw⟩
        obtain ⟨s, hs, he⟩ := (n3 s').1 hs'
        exact ⟨s, hs, s', he, hw⟩
      · rintro ⟨s, hs, s', he, hw⟩
        exact ⟨s', (n3 s').2 ⟨s, hs, he⟩, hw⟩
    rw [y1, Option.bind_some]
    dsimp only
    cases hp : ssv.idxOf? Y with
    | some p =>
      obtain ⟨p1, p2, _⟩ := List.idxOf?_eq_some_iff.1 hp
      have hpY : ssv[p]? = some Y := by rw [List.getElem?_eq_getElem p1, p2]
      obtain ⟨o, o1, o2, o3, o4, o5, o6, o7⟩ := faAddTransition_spec h.table (t := p) (by rw [h.n]; exact p1) hfree
      refine ⟨ssv, o, by dsimp only; rw [o1]; rfl, ⟨o2, by rw [o3, h.nsym], by rw [o4, h.det], by rw [o5, h.n], h.nodup, h.sets, h.closed, h.start, ?_, ?_,
        by rw [o6]; exact h.accDone, by rw [o6]; exact h.accTodo⟩, fun _ _ h => h⟩
      · intro i a Z hi ha hZ
        rw [o7]
        by_cases hia : i = k ∧ a = j
        · rw [if_pos hia]
          obtain ⟨rfl, rfl⟩ := hia
          rw [hX] at hZ; cases hZ
          exact Or.inr ⟨p, Y, rfl, hpY, hY⟩
        · rw [if_neg hia]
          exact h.done i a Z (by omega) ha hZ
      · intro i a hi hno ha
        rw [o7, if_neg (by omega)]
        exact h.todo i a hi (by omega) ha
    | none =>
      have hnot := List.idxOf?_eq_none_iff.1 hp
      obtain ⟨p, p1, p2, p3, p4, p5, p6, p7⟩ := faAddState_spec h.table
      have hne : k ≠ out.nstates := by rw [h.n]; omega
      obtain ⟨o, o1, o2, o3, o4, o5, o6, o7⟩ := faAddTransition_spec p2 (f := k) (c := j) (t := out.nstates) (by rw [p5]; omega)
        (by rw [p7, if_neg hne]; exact hfree)
      have hgrow : ∀ (i : Nat) Z, ssv[i]? = some Z → (ssv ++ [Y])[i]? = some Z := by
        intro i Z hZ
        rw [List.getElem?_append_left (List.getElem?_eq_some_iff.1 hZ).1]; exact hZ
      have hlast : (ssv ++ [Y])[out.nstates]? = some Y := by
        rw [h.n, List.getElem?_append_right (Nat.le_refl _), Nat.sub_self]; rfl
      have hcols : out.ncols = nfa.nsym := by unfold FA.ncols; rw [h.det, h.nsym]; rfl
      refine ⟨ssv ++ [Y], o, by dsimp only; rw [p1, Option.bind_some, o1]; rfl, ⟨o2, by rw [o3, p3, h.nsym], by rw [o4, p4, h.det], by rw [o5, p5, h.n]; simp, ?_, ?_, ?_, ?_, ?_, ?_,
        ?_, ?_⟩, hgrow⟩
      · exact List.nodup_append.2 ⟨h.nodup, List.nodup_singleton _, by
          intro a ha b hb e
          rw [List.mem_singleton.1 hb] at e
          exact hnot (e ▸ ha)⟩
      · intro Z hZ
        rcases List.mem_append.1 hZ with hZ | hZ
        · exact h.sets Z hZ
        · rw [List.mem_singleton.1 hZ]; exact y2
      · intro Z hZ
        rcases List.mem_append.1 hZ with hZ | hZ
        · exact h.closed Z hZ
        · rw [List.mem_singleton.1 hZ]
          intro s hs t he
          exact (hY t).2 (nextSet_closed ((hY s).1 hs) he)
      · obtain ⟨X0, x1, x2⟩ := h.start
        exact ⟨X0, hgrow 0 X0 x1, x2⟩
      · intro i a Z hi ha hZ
        rw [o7]
        by_cases hia : i = k ∧ a = j
        · rw [if_pos hia]
          obtain ⟨rfl, rfl⟩ := hia
          rw [hgrow _ _ hX] at hZ; cases hZ
          exact Or.inr ⟨out.nstates, Y, rfl, hlast, hY⟩
        · rw [if_neg hia, p7]
          have hi' : i < ssv.length := by omega
          rw [if_neg (show i ≠ out.nstates by rw [h.n]; omega)]
          rw [List.getElem?_append_left hi'] at hZ
          rcases h.done i a Z (by omega) ha hZ with e | ⟨q, W, e1, e2, e3⟩
          · exact Or.inl e
          · exact Or.inr ⟨q, W, e1, hgrow q W e2, e3⟩
      · intro i a hi hno ha
        rw [o7, if_neg (by omega), p7]
        split
        · rw [if_pos (by omega)]
        · rename_i hne'
          rw [List.length_append] at hi
          have h1 : [Y].length = 1 := rfl
          exact h.todo i a (by rw [h.n] at hne'; omega) (by omega) ha
      · intro i Z hi hZ
        have hi' : i < ssv.length := by omega
        rw [List.getElem?_append_left hi'] at hZ
        obtain ⟨m, m1, m2⟩ := h.accDone i Z hi hZ
        refine ⟨m, m1, ?_⟩
        rw [o6, p6, List.getElem?_append_left (by rw [h.table.acc, h.n]; exact hi')]
        exact m2
      · intro i hi hl
        rw [o6, p6]
        rw [List.length_append] at hl
        have h1 : [Y].length = 1 := rfl
        by_cases hi' : i < ssv.length
        · rw [List.getElem?_append_left (by rw [h.table.acc, h.n]; exact hi')]
          exact h.accTodo i hi hi'
        · obtain rfl : i = ssv.length := by omega
          rw [List.getElem?_append_right (by rw [h.table.acc, h.n]), h.table.acc, h.n, Nat.sub_self]; rfl

theorem detRow_spec {nfa : FA} (hn : FATable nfa) (hd : nfa.det = false) {k : Nat} {ssv : List (List Nat)} {out : FA}
    (h : DetInv nfa k 0 ssv out) {X : List Nat} (hX : ssv[k]? = some X) :
    ∃ ssv' out', (List.range nfa.nsym).foldlM (detSymbol nfa k X) (ssv, out) = some (ssv', out') ∧ DetInv nfa k nfa.nsym ssv' out' ∧
      ssv'[k]? = some X := by
  obtain ⟨⟨s, o⟩, h1, h2, h3⟩ := foldlM_range (detSymbol nfa k X)
    (fun j (st : List (List Nat) × FA) => DetInv nfa k j st.1 st.2 ∧ st.1[k]? = some X) nfa.nsym (ssv, out) ⟨h, hX⟩ (by
      rintro j hj ⟨s, o⟩ ⟨x1, x2⟩
      obtain ⟨s', o', y1, y2, y3⟩ := detSymbol_spec hn hd x1 hj x2
      exact ⟨(s', o'), y1, y2, y3 k X x2⟩)
  exact ⟨s, o, h1, h2, h3⟩

theorem sets_length_le {n : Nat} {ssv : List (List Nat)} (hnd : ssv.Nodup) (hs : ∀ X ∈ ssv, StateSet n X) : ssv.length ≤ 2 ^ n := by
  have h1 : (ssv.map List.toFinset).Nodup := by
    refine List.Nodup.map_on ?_ hnd
    intro X hX Y hY e
    refine mem_eq_of_sorted (hs X hX).1 (hs Y hY).1 (fun x => ?_)
    rw [← List.mem_toFinset, ← List.mem_toFinset (l := Y), e]
  have h2 : (ssv.map List.toFinset).toFinset ⊆ (Finset.range n).powerset := by
    intro S hS
    rw [List.mem_toFinset, List.mem_map] at hS
    obtain ⟨X, hX, rfl⟩ := hS
    rw [Finset.mem_powerset]
    intro x hx
    exact Finset.mem_range.2 ((hs X hX).2 x (List.mem_toFinset.1 hx))
  have h3 := Finset.card_le_card h2
  rw [List.toFinset_card_of_nodup h1, List.length_map, Finset.card_powerset, Finset.card_range] at h3
  exact h3

theorem detLoop_spec {nfa : FA} (hn : FATable nfa) (hd : nfa.det = false) (fuel : Nat) : ∀ (k : Nat) (ssv : List (List Nat)) (out : FA),
    DetInv nfa k 0 ssv out → 2 ^ nfa.nstates - k ≤ fuel → k ≤ ssv.length →
      ∃ ssv' out', detLoop nfa fuel k ssv out = some out' ∧ DetInv nfa ssv'.length 0 ssv' out' := by
  induction fuel with
  | zero =>
    intro k ssv out h hf hk
    have := sets_length_le h.nodup h.sets
    obtain rfl : k = ssv.length := by omega
    refine ⟨ssv, out, ?_, h⟩
    unfold detLoop
    rw [List.getElem?_eq_none (Nat.le_refl _)]
  | succ fuel ih =>
    intro k ssv out h hf hk
    by_cases hlt : k < ssv.length
    · obtain ⟨X, hX⟩ : ∃ X, ssv[k]? = some X := ⟨_, List.getElem?_eq_getElem hlt⟩
      obtain ⟨s1, o1, r1, r2, r3⟩ := detRow_spec hn hd h hX
      have hk1 : k < s1.length := (List.getElem?_eq_some_iff.1 r3).1
      obtain ⟨m, m1, m2, m3, m4⟩ := minAccepted_spec hn (r2.sets X (List.mem_of_getElem? r3))
      obtain ⟨o2, a1, a2, a3, a4, a5, a6, a7⟩ : ∃ o2, (if m ≠ -1 then faAddAccept o1 k m else some o1) = some o2 ∧ FATable o2 ∧ o2.nsym = o1.nsym ∧
          o2.det = o1.det ∧ o2.nstates = o1.nstates ∧ (∀ i : Nat, o2.accepted[i]? = if i = k then some m else o1.accepted[i]?) ∧
          ∀ s d, o2.cell s d = o1.cell s d := by
        by_cases hm : m = -1
        · rw [if_neg (by rw [hm]; simp)]
          refine ⟨o1, rfl, r2.table, rfl, rfl, rfl, ?_, fun _ _ => rfl⟩
          intro i
          split
          · rename_i e; rw [e, r2.accTodo k (Nat.le_refl _) hk1, hm]
          · rfl
        · rw [if_pos hm]
          obtain ⟨o2, b1, b2, b3, b4, b5, b6, b7⟩ := faAddAccept_spec r2.table (s := k) (token := m) (by omega) (by rw [r2.n]; exact hk1)
          refine ⟨o2, b1, b2, b3, b4, b5, ?_, b7⟩
          intro i
          rw [b6, List.getElem?_set]
          by_cases e : k = i
          · rw [if_pos e, if_pos e.symm, if_pos (by rw [r2.table.acc, r2.n]; omega)]
          · rw [if_neg e, if_neg (Ne.symm e)]
      have h2 : DetInv nfa (k + 1) 0 s1 o2 := by
        refine ⟨a2, by rw [a3, r2.nsym], by rw [a4, r2.det], by rw [a5, r2.n], r2.nodup, r2.sets, r2.closed, r2.start, ?_, ?_, ?_, ?_⟩
        · intro i a Z hi ha hZ
          rw [a7]
          exact r2.done i a Z (by omega) ha hZ
        · intro i a hi hno ha
          rw [a7]
          exact r2.todo i a hi (by omega) ha
        · intro i Z hi hZ
          rw [a6]
          by_cases e : i = k
          · subst e
            rw [r3] at hZ; cases hZ
            exact ⟨m, m1, by rw [if_pos rfl]⟩
          · rw [if_neg e]
            exact r2.accDone i Z (by omega) hZ
        · intro i hi hl
          rw [a6, if_neg (by omega)]
          exact r2.accTodo i (by omega) hl
      obtain ⟨s3, o3, c1, c2⟩ := ih (k + 1) s1 o2 h2 (by omega) (by omega)
      refine ⟨s3, o3, ?_, c2⟩
      unfold detLoop
      rw [hX]
      dsimp only
      rw [r1, Option.bind_some]
      dsimp only
      rw [m1, Option.bind_some, a1, Option.bind_some]
      exact c1
    · obtain rfl : k = ssv.length := by omega
      refine ⟨ssv, out, ?_, h⟩
      unfold detLoop
      rw [List.getElem?_eq_none (Nat.le_refl _)]

/-- Runs on a nonempty word take empty symbols, a symbol, and a run on the rest. -/
theorem walk_cons {E : Nat → Option Nat → Nat → Prop} {s u a : Nat} {w : List Nat} (h : Walk E s (a :: w) u) :
    ∃ p q, Walk E s [] p ∧ E p (some a) q ∧ Walk E q w u := by
  generalize hv : a :: w = v at h
  induction h with
  | nil => cases hv
  | sym e hw _ => cases hv; exact ⟨_, _, Walk.nil _, e, hw⟩
  | eps e _ ih =>
    obtain ⟨p, q, h1, h2, h3⟩ := ih hv
    exact ⟨p, q, Walk.eps e h1, h2, h3⟩

theorem walk_det_nil {fa : FA} (hd : fa.det = true) {s u : Nat} (h : Walk (Edge fa) s [] u) : u = s := by
  cases h with
  | nil => rfl
  | eps e _ => have := e.1; rw [hd] at this; cases this

/-- Runs of a deterministic automaton end in one state. -/
theorem walk_det {fa : FA} (hd : fa.det = true) {s u v : Nat} {w : List Nat} (h : Walk (Edge fa) s w u) (h' : Walk (Edge fa) s w v) : u = v := by
  induction w generalizing s with
  | nil => rw [walk_det_nil hd h, walk_det_nil hd h']
  | cons a w ih =>
    obtain ⟨p, q, h1, h2, h3⟩ := walk_cons h
    obtain ⟨p', q', h1', h2', h3'⟩ := walk_cons h'
    rw [walk_det_nil hd h1] at h2
    rw [walk_det_nil hd h1'] at h2'
    have := h2.2.symm.trans h2'.2
    have := Option.some.inj this
    obtain rfl : q = q' := by omega
    exact ih h3 h3'

theorem eps_mem {nfa : FA} {X : List Nat} (hc : ∀ s ∈ X, ∀ t, Edge nfa s none t → t ∈ X) {s t : Nat} (hs : s ∈ X) (hw : Walk (Edge nfa) s [] t) : t ∈ X := by
  generalize hv : ([] : List Nat) = v at hw
  induction hw with
  | nil => exact hs
  | sym _ _ _ => cases hv
  | eps e _ ih => exact ih (hc _ hs _ e) hv

/-- A run of the new automaton ends in the set of all ends of runs of the old one. -/
theorem det_walk {nfa out : FA} {ssv : List (List Nat)} (h : DetInv nfa ssv.length 0 ssv out) (w : List Nat) : ∀ (i : Nat) X, ssv[i]? = some X →
    (∀ p, Walk (Edge out) i w p → ∃ Y, ssv[p]? = some Y ∧ ∀ t, t ∈ Y ↔ ∃ s ∈ X, Walk (Edge nfa) s w t) ∧
    (∀ s ∈ X, ∀ t, Walk (Edge nfa) s w t → ∃ p, Walk (Edge out) i w p) := by
  induction w with
  | nil =>
    intro i X hX
    refine ⟨?_, fun s _ t _ => ⟨i, Walk.nil i⟩⟩
    intro p hp
    rw [walk_det_nil h.det hp]
    refine ⟨X, hX, ?_⟩
    intro t
    constructor
    · intro ht; exact ⟨t, ht, Walk.nil t⟩
    · rintro ⟨s, hs, hw⟩; exact eps_mem (h.closed X (List.mem_of_getElem? hX)) hs hw
  | cons a w ih =>
    intro i X hX
    have hi : i < ssv.length := (List.getElem?_eq_some_iff.1 hX).1
    have hcl := h.closed X (List.mem_of_getElem? hX)
    constructor
    · intro p hp
      obtain ⟨i', q, h1, h2, h3⟩ := walk_cons hp
      rw [walk_det_nil h.det h1] at h2
      have ha : a < nfa.nsym := by rw [← h.nsym]; exact h2.1
      rcases h.done i a X (Or.inl hi) ha hX with ⟨e, _⟩ | ⟨q', Y, e1, e2, e3⟩
      · have := h2.2
        rw [e] at this
        have := Option.some.inj this
        omega
      · have := h2.2
        rw [e1] at this
        have := Option.some.inj this
        obtain rfl : q' = q := by omega
        obtain ⟨Z, z1, z2⟩ := (ih q' Y e2).1 p h3
        refine ⟨Z, z1, ?_⟩
        intro t
        rw [z2]
        constructor
        · rintro ⟨s, hs, hw⟩
          obtain ⟨r, hr, s', he, hw'⟩ := (e3 s).1 hs
          exact ⟨r, hr, Walk.sym he (by have := walk_append hw' hw; exact this)⟩
        · rintro ⟨s, hs, hw⟩
          obtain ⟨r, s', k1, k2, k3⟩ := walk_cons hw
          exact ⟨s', (e3 s').2 ⟨r, eps_mem hcl hs k1, s', k2, Walk.nil s'⟩, k3⟩
    · intro s hs t hw
      obtain ⟨r, s', k1, k2, k3⟩ := walk_cons hw
      have hns : NextSet nfa X a s' := ⟨r, eps_mem hcl hs k1, s', k2, Walk.nil s'⟩
      rcases h.done i a X (Or.inl hi) k2.1 hX with ⟨_, e⟩ | ⟨q', Y, e1, e2, e3⟩
      · exact absurd hns (e s')
      · obtain ⟨p, hp⟩ := (ih q' Y e2).2 s' ((e3 s').2 hns) t k3
        exact ⟨p, Walk.sym ⟨by rw [h.nsym]; exact k2.1, e1⟩ hp⟩

/-- `make_deterministic` ends with a deterministic automaton that reports, for every word, the lowest token that a run of the given automaton
reports, and reports nothing for the words on which there is none. -/
theorem C27_deterministic {nfa : FA} (hn : FAOk nfa) (h0 : 0 < nfa.nsym) (fuel : Nat) (hf : 2 ^ nfa.nstates ≤ fuel) :
    ∃ out, faDeterministic fuel nfa = some out ∧ FAOk out ∧ out.det = true ∧ out.nsym = nfa.nsym ∧
      out.nstates ≤ 2 ^ nfa.nstates ∧ ∀ w tok, Accepts out w tok ↔ LowestToken nfa w tok := by
  unfold faDeterministic
  cases hd : nfa.det with
  | true =>
    refine ⟨nfa, by rw [if_pos rfl], hn, hd, rfl, Nat.le_of_lt Nat.lt_two_pow_self, ?_⟩
    intro w tok
    constructor
    · intro h
      refine ⟨h, ?_⟩
      rintro t ⟨u, hu, ht, _⟩
      obtain ⟨v, hv, ht', _⟩ := h
      rw [walk_det hd hu hv, ht'] at ht
      exact Int.le_of_eq (Option.some.inj ht)
    · intro h; exact h.1
  | false =>
    rw [if_neg (by simp)]
    obtain ⟨S, s1, s2, s3⟩ := epsClosure_spec hn.1 hd (ss := [0]) ⟨List.pairwise_singleton _ _, by simpa using hn.2⟩
    have hcols : 0 < (faEmpty nfa.nsym true).ncols := by show 0 < nfa.nsym + 0; omega
    obtain ⟨o, o1, o2, o3, o4, o5, o6, o7⟩ := faAddState_spec (faEmpty_table nfa.nsym true hcols)
    have hS : ∀ t, t ∈ S ↔ Walk (Edge nfa) 0 [] t := by
      intro t
      rw [s3]
      constructor
      · rintro ⟨s, hs, hw⟩; rw [List.mem_singleton.1 hs] at hw; exact hw
      · intro hw; exact ⟨0, by simp, hw⟩
    have hinit : DetInv nfa 0 0 [S] o := by
      refine ⟨o2, o3, o4, by rw [o5]; rfl, List.nodup_singleton _, ?_, ?_, ⟨S, rfl, hS⟩, ?_, ?_, ?_, ?_⟩
      · intro X hX; rw [List.mem_singleton.1 hX]; exact s2
      · intro X hX; rw [List.mem_singleton.1 hX]
        intro s hs t he
        exact (hS t).2 (walk_snoc_eps ((hS s).1 hs) he)
      · intro i a X hi; omega
      · intro i a hi _ ha
        obtain rfl : i = 0 := by simpa using hi
        rw [o7, if_pos (show 0 = (faEmpty nfa.nsym true).nstates from rfl), if_pos (show a < (faEmpty nfa.nsym true).ncols from ha)]
      · intro i X hi; omega
      · intro i _ hi
        obtain rfl : i = 0 := by simpa using hi
        rw [o6]; rfl
    obtain ⟨ssv, out, d1, d2⟩ := detLoop_spec hn.1 hd fuel 0 [S] o hinit (by omega) (by simp)
    rw [s1, Option.bind_some, o1, Option.bind_some]
    obtain ⟨X, x1, x2⟩ := d2.start
    have hpos : 0 < ssv.length := (List.getElem?_eq_some_iff.1 x1).1
    refine ⟨out, d1, ⟨d2.table, by rw [d2.n]; exact hpos⟩, d2.det, d2.nsym, by rw [d2.n]; exact sets_length_le d2.nodup d2.sets, ?_⟩
    have hends : ∀ w t, (∃ s ∈ X, Walk (Edge nfa) s w t) ↔ Walk (Edge nfa) 0 w t := by
      intro w t
      constructor
      · rintro ⟨s, hs, hw⟩
        exact walk_append ((x2 s).1 hs) hw
      · intro hw
        exact ⟨0, (x2 0).2 (Walk.nil 0), hw⟩
    intro w tok
    obtain ⟨e1, e2⟩ := det_walk d2 w 0 X x1
    constructor
    · rintro ⟨p, hp, ht, htn⟩
      obtain ⟨Y, y1, y2⟩ := e1 p hp
      obtain ⟨m, m1, m2⟩ := d2.accDone p Y (List.getElem?_eq_some_iff.1 y1).1 y1
      rw [ht] at m2
      cases m2
      obtain ⟨m', k1, _, k3, k4⟩ := minAccepted_spec hn.1 (d2.sets Y (List.mem_of_getElem? y1))
      rw [m1] at k1; cases k1
      obtain ⟨⟨s, hs, hacc⟩, hmin⟩ := k4 htn
      refine ⟨⟨s, (hends w s).1 ((y2 s).1 hs), hacc, htn⟩, ?_⟩
      rintro t ⟨u, hu, hut, hun⟩
      exact hmin u ((y2 u).2 ((hends w u).2 hu)) t hut hun
    · rintro ⟨⟨u, hu, hut, hun⟩, hmin⟩
      obtain ⟨s, hs, hw⟩ := (hends w u).2 hu
      obtain ⟨p, hp⟩ := e2 s hs u hw
      obtain ⟨Y, y1, y2⟩ := e1 p hp
      obtain ⟨m, m1, m2⟩ := d2.accDone p Y (List.getElem?_eq_some_iff.1 y1).1 y1
      obtain ⟨m', k1, _, k3, k4⟩ := minAccepted_spec hn.1 (d2.sets Y (List.mem_of_getElem? y1))
      rw [m1] at k1; cases k1
      have huY : u ∈ Y := (y2 u).2 ⟨s, hs, hw⟩
      have hm : m ≠ -1 := by
        intro e
        have := k3 e u huY
        rw [hut] at this
        exact hun (Option.some.inj this)
      obtain ⟨⟨s', hs', hacc⟩, hmin'⟩ := k4 hm
      have h1 := hmin m ⟨s', (hends w s').1 ((y2 s').1 hs'), hacc, hm⟩
      have h2 := hmin' u huY tok hut hun
      obtain rfl : m = tok := by omega
      exact ⟨p, hp, m2, hm⟩

/-! ## Simplification -/

theorem rowKey_some {fa : FA} (h : FATable fa) {s : Nat} (hs : s < fa.nstates) :
    ∃ t row, rowKey fa s = some (t, row) ∧ fa.accepted[s]? = some t ∧ fa.table[s]? = some row := by
  obtain ⟨t, ht⟩ : ∃ t, fa.accepted[s]? = some t := ⟨_, List.getElem?_eq_getElem (by rw [h.acc]; exact hs)⟩
  obtain ⟨row, hr⟩ : ∃ row, fa.table[s]? = some row := ⟨_, List.getElem?_eq_getElem hs⟩
  exact ⟨t, row, by unfold rowKey; rw [ht, hr]; rfl, ht, hr⟩

theorem rowKey_eq {fa : FA} (h : FATable fa) {s s' : Nat} (hs : s < fa.nstates) (hs' : s' < fa.nstates) (he : rowKey fa s = rowKey fa s') :
    fa.accepted[s]? = fa.accepted[s']? ∧ ∀ c, fa.cell s c = fa.cell s' c := by
  obtain ⟨t, row, k1, k2, k3⟩ := rowKey_some h hs
  obtain ⟨t', row', k1', k2', k3'⟩ := rowKey_some h hs'
  rw [k1, k1'] at he
  cases he
  exact ⟨by rw [k2, k2'], fun c => by unfold FA.cell; rw [k3, k3']⟩

theorem rowKey_of {fa : FA} (h : FATable fa) {s s' : Nat} (hs : s < fa.nstates) (hs' : s' < fa.nstates)
    (ha : fa.accepted[s]? = fa.accepted[s']?) (hc : ∀ c, fa.cell s c = fa.cell s' c) : rowKey fa s = rowKey fa s' := by
  obtain ⟨t, row, k1, k2, k3⟩ := rowKey_some h hs
  obtain ⟨t', row', k1', k2', k3'⟩ := rowKey_some h hs'
  rw [k1, k1']
  have e1 : t = t' := by rw [k2, k2'] at ha; exact Option.some.inj ha
  have e2 : row = row' := by
    refine List.ext_getElem? (fun c => ?_)
    have := hc c
    unfold FA.cell at this
    rwa [k3, k3'] at this
  rw [e1, e2]

theorem simpleKeys_spec {fa : FA} (h : FATable fa) : ∃ ks, simpleKeys fa = some ks ∧ (∀ s, s < fa.nstates → ∃ k, rowKey fa s = some k ∧ k ∈ ks) ∧
    (0 < fa.nstates → ks[0]? = rowKey fa 0) ∧ ks.length ≤ fa.nstates ∧ ks.Nodup ∧
    (∀ k ∈ ks, ∃ s, s < fa.nstates ∧ rowKey fa s = some k) ∧
    (ks.length = fa.nstates → ∀ s s', s < fa.nstates → s' < fa.nstates → rowKey fa s = rowKey fa s' → s = s') := by
  obtain ⟨ks, h1, h2, h3, h4, h5, h6, h7⟩ := foldlM_range
    (fun (ks : List (Int × List Int)) s => (rowKey fa s).map (fun k => if k ∈ ks then ks else ks ++ [k]))
    (fun j ks => (∀ s, s < j → ∃ k, rowKey fa s = some k ∧ k ∈ ks) ∧ (0 < j → ks[0]? = rowKey fa 0) ∧ ks.length ≤ j ∧ ks.Nodup ∧
      (∀ k ∈ ks, ∃ s, s < j ∧ rowKey fa s = some k) ∧ (ks.length = j → ∀ s s', s < j → s' < j → rowKey fa s = rowKey fa s' → s = s'))
    fa.nstates [] ⟨by omega, by omega, by simp, List.nodup_nil, by simp, by omega⟩ (by
      rintro j hj ks ⟨x1, x2, x3, x4, x6, x5⟩
      obtain ⟨t, row, k1, _, _⟩ := rowKey_some h hj
      refine ⟨_, by rw [k1]; rfl, ?_⟩
      dsimp only
      by_cases hm : (t, row) ∈ ks
      · rw [if_pos hm]
        refine ⟨?_, ?_, by omega, x4, fun k hk => let ⟨s, q1, q2⟩ := x6 k hk; ⟨s, by omega, q2⟩, by omega⟩
        · intro s hs
          by_cases e : s = j
          · subst e; exact ⟨_, k1, hm⟩
          · exact x1 s (by omega)
        · intro _
          have : 0 < j := by
            rcases Nat.eq_zero_or_pos j with e | e
            · subst e
              have : ks = [] := List.length_eq_zero_iff.1 (by omega)
              rw [this] at hm; cases hm
            · exact e
          exact x2 this
      · rw [if_neg hm]
        refine ⟨?_, ?_, by simp; omega, ?_, ?_, ?_⟩
        · intro s hs
          by_cases e : s = j
          · subst e; exact ⟨_, k1, by simp⟩
          · obtain ⟨k, q1, q2⟩ := x1 s (by omega)
            exact ⟨k, q1, List.mem_append_left _ q2⟩
        · intro _
          rcases Nat.eq_zero_or_pos j with e | e
          · subst e
            have : ks = [] := List.length_eq_zero_iff.1 (by omega)
            rw [this, k1]; rfl
          · have h0 := x2 e
            obtain ⟨t0, r0, q1, _, _⟩ := rowKey_some h (s := 0) (by omega)
            rw [q1] at h0
            rw [List.getElem?_append_left (List.getElem?_eq_some_iff.1 h0).1, h0, q1]
        · exact List.nodup_append.2 ⟨x4, List.nodup_singleton _, by
            intro a ha b hb e
            rw [List.mem_singleton.1 hb] at e
            exact hm (e ▸ ha)⟩
        · intro k hk
          rcases List.mem_append.1 hk with hk | hk
          · obtain ⟨s, q1, q2⟩ := x6 k hk
            exact ⟨s, by omega, q2⟩
          · exact ⟨j, by omega, by rw [k1, List.mem_singleton.1 hk]⟩
        · intro hl s s' hs hs' he
          have hl' : ks.length = j := by simpa using hl
          by_cases e : s = j
          · by_cases e' : s' = j
            · omega
            · obtain ⟨k, q1, q2⟩ := x1 s' (by omega)
              rw [e, k1, q1] at he
              cases he
              exact absurd q2 hm
          · by_cases e' : s' = j
            · obtain ⟨k, q1, q2⟩ := x1 s (by omega)
              rw [e', k1, q1] at he
              cases he
              exact absurd q2 hm
            · exact x5 hl' s s' (by omega) (by omega) he)
  exact ⟨ks, h1, h2, h3, h4, h5, h6, h7⟩

theorem addStates_spec {nsym : Nat} {det : Bool} (h : 0 < (faEmpty nsym det).ncols) (m : Nat) :
    ∃ out, (List.range m).foldlM (fun (out : FA) (_ : Nat) => faAddState out) (faEmpty nsym det) = some out ∧ FATable out ∧ out.nsym = nsym ∧
      out.det = det ∧ out.nstates = m ∧ (∀ i : Nat, i < m → out.accepted[i]? = some (-1)) ∧
      ∀ i c, i < m → c < (faEmpty nsym det).ncols → out.cell i c = some (-1) := by
  obtain ⟨out, h1, h2, h3, h4, h5, h6, h7⟩ := foldlM_range (fun (out : FA) (_ : Nat) => faAddState out)
    (fun m out => FATable out ∧ out.nsym = nsym ∧ out.det = det ∧ out.nstates = m ∧ (∀ i : Nat, i < m → out.accepted[i]? = some (-1)) ∧
      ∀ i c, i < m → c < (faEmpty nsym det).ncols → out.cell i c = some (-1)) m (faEmpty nsym det)
    ⟨faEmpty_table _ _ h, rfl, rfl, rfl, by omega, by omega⟩ (by
      rintro j hj out ⟨x1, x2, x3, x4, x5, x6⟩
      obtain ⟨o, o1, o2, o3, o4, o5, o6, o7⟩ := faAddState_spec x1
      refine ⟨o, o1, o2, by rw [o3, x2], by rw [o4, x3], by rw [o5, x4], ?_, ?_⟩
      · intro i hi
        rw [o6]
        by_cases e : i < j
        · rw [List.getElem?_append_left (by rw [x1.acc, x4]; exact e)]; exact x5 i e
        · obtain rfl : i = j := by omega
          rw [List.getElem?_append_right (by rw [x1.acc, x4]), x1.acc, x4, Nat.sub_self]; rfl
      · intro i c hi hc
        have hcols : out.ncols = (faEmpty nsym det).ncols := ncols_congr (by rw [x2]; rfl) (by rw [x3]; rfl)
        rw [o7, x4]
        by_cases e : i = j
        · rw [if_pos e, if_pos (by omega)]
        · rw [if_neg e]; exact x6 i c (by omega) hc)
  exact ⟨out, h1, h2, h3, h4, h5, h6, h7⟩

/-- An entry of the table after states were renamed. -/
def mapCell (f : Nat → Nat) (v : Int) : Int := if v = -1 then -1 else (f v.toNat : Int)

theorem simplifyState_spec {fa : FA} (h : FATable fa) {ks : List (Int × List Int)} {f : Nat → Nat}
    (hf : ∀ s, s < fa.nstates → simpleOf fa ks s = some (f s) ∧ f s < ks.length) {s : Nat} (hs : s < fa.nstates) {out : FA} (ho : FATable out)
    (h1 : out.nsym = fa.nsym) (h2 : out.det = fa.det) (h3 : out.nstates = ks.length)
    (hfree : ∀ c, c < fa.ncols → out.cell (f s) c = some (-1)) (hacc : out.accepted[f s]? = some (-1)) :
    ∃ out', simplifyState fa ks s (f s) out = some out' ∧ FATable out' ∧ out'.nsym = fa.nsym ∧ out'.det = fa.det ∧ out'.nstates = ks.length ∧
      (∀ c, out'.cell (f s) c = (fa.cell s c).map (mapCell f)) ∧ (∀ i c, i ≠ f s → out'.cell i c = out.cell i c) ∧
      out'.accepted[f s]? = fa.accepted[s]? ∧ ∀ i : Nat, i ≠ f s → out'.accepted[i]? = out.accepted[i]? := by
  obtain ⟨o1, l1, l2, l3, l4, l5, l6, l7, l8, l9⟩ := foldlM_range (fun (out : FA) c => (faStep fa s c).bind (fun t =>
      if t = -1 then some out else (simpleOf fa ks t.toNat).bind (fun j => faAddTransition out (f s) c j)))
    (fun j o => FATable o ∧ o.nsym = fa.nsym ∧ o.det = fa.det ∧ o.nstates = ks.length ∧
      (∀ c, c < j → o.cell (f s) c = (fa.cell s c).map (mapCell f)) ∧ (∀ c, j ≤ c → c < fa.ncols → o.cell (f s) c = some (-1)) ∧
      (∀ i c, i ≠ f s → o.cell i c = out.cell i c) ∧ o.accepted = out.accepted) fa.ncols out
    ⟨ho, h1, h2, h3, by omega, fun c _ hc => hfree c hc, fun _ _ _ => rfl, rfl⟩ (by
      rintro j hj o ⟨x1, x2, x3, x4, x5, x6, x7, x8⟩
      obtain ⟨v, hv⟩ := cell_some h hs hj
      unfold faStep
      rw [hv, Option.bind_some]
      by_cases e : v = -1
      · rw [if_pos e]
        refine ⟨o, rfl, x1, x2, x3, x4, ?_, fun c h1 h2 => x6 c (by omega) h2, x7, x8⟩
        intro c hc
        by_cases ec : c = j
        · subst ec
          rw [x6 c (Nat.le_refl _) hj, hv, e]; rfl
        · exact x5 c (by omega)
      · rw [if_neg e]
        obtain ⟨t, rfl⟩ : ∃ t : Nat, v = (t : Int) := by
          rcases h.cells _ _ _ hv with e' | e'
          · exact absurd e' e
          · exact ⟨v.toNat, by omega⟩
        have ht : t < fa.nstates := by rcases h.cells _ _ _ hv with e' | e' <;> omega
        rw [Int.toNat_natCast, (hf t ht).1, Option.bind_some]
        obtain ⟨p, p1, p2, p3, p4, p5, p6, p7⟩ := faAddTransition_spec x1 (f := f s) (c := j) (t := f t) (by rw [x4]; exact (hf t ht).2)
          (x6 j (Nat.le_refl _) hj)
        refine ⟨p, p1, p2, by rw [p3, x2], by rw [p4, x3], by rw [p5, x4], ?_, ?_, ?_, by rw [p6, x8]⟩
        · intro c hc
          rw [p7]
          by_cases ec : c = j
          · subst ec
            rw [if_pos ⟨rfl, rfl⟩, hv, Option.map_some]
            unfold mapCell
            rw [if_neg e, Int.toNat_natCast]
          · rw [if_neg (by omega)]; exact x5 c (by omega)
        · intro c hc1 hc2
          rw [p7, if_neg (by omega)]; exact x6 c (by omega) hc2
        · intro i c hi
          rw [p7, if_neg (fun hh => hi hh.1)]; exact x7 i c hi)
  obtain ⟨tok, htok⟩ : ∃ tok, fa.accepted[s]? = some tok := ⟨_, List.getElem?_eq_getElem (by rw [h.acc]; exact hs)⟩
  have hcell : ∀ (o : FA), FATable o → o.nsym = fa.nsym → o.det = fa.det → (∀ c, c < fa.ncols → o.cell (f s) c = (fa.cell s c).map (mapCell f)) →
      ∀ c, o.cell (f s) c = (fa.cell s c).map (mapCell f) := by
    intro o q1 q2 q3 q4 c
    by_cases hc : c < fa.ncols
    · exact q4 c hc
    · have e1 : fa.cell s c = none := by
        cases hh : fa.cell s c with
        | none => rfl
        | some v => exact absurd (faCell_lt h hh).2 hc
      have e2 : o.cell (f s) c = none := by
        cases hh : o.cell (f s) c with
        | none => rfl
        | some v => exact absurd (by have := (faCell_lt q1 hh).2; rwa [ncols_congr q2 q3] at this) hc
      rw [e1, e2]; rfl
  unfold simplifyState
  rw [l1, Option.bind_some]
  unfold faAccepts
  rw [htok, Option.bind_some]
  by_cases e : tok = -1
  · rw [if_neg (by rw [e]; simp)]
    exact ⟨o1, rfl, l2, l3, l4, l5, hcell o1 l2 l3 l4 l6, l8, by rw [l9, hacc, e], fun i _ => by rw [l9]⟩
  · rw [if_pos e]
    have := h.toks s tok htok
    obtain ⟨p, p1, p2, p3, p4, p5, p6, p7⟩ := faAddAccept_spec l2 (s := f s) (token := tok) (by omega) (by rw [l5]; exact (hf s hs).2)
    refine ⟨p, p1, p2, by rw [p3, l3], by rw [p4, l4], by rw [p5, l5], ?_, ?_, ?_, ?_⟩
    · intro c; rw [p7]; exact hcell o1 l2 l3 l4 l6 c
    · intro i c hi; rw [p7]; exact l8 i c hi
    · rw [p6, List.getElem?_set_self (by rw [l2.acc, l5]; exact (hf s hs).2)]
    · intro i hi
      rw [p6, List.getElem?_set_ne (Ne.symm hi), l9]

theorem faSimplifyOnce_spec {fa : FA} (h : FAOk fa) :
    ∃ (out : FA) (f : Nat → Nat), faSimplifyOnce fa = some out ∧ FATable out ∧ out.nsym = fa.nsym ∧ out.det = fa.det ∧ out.nstates ≤ fa.nstates ∧ f 0 = 0 ∧
      (∀ s, s < fa.nstates → f s < out.nstates) ∧ (∀ i, i < out.nstates → ∃ s, s < fa.nstates ∧ f s = i) ∧
      (∀ s c, s < fa.nstates → out.cell (f s) c = (fa.cell s c).map (mapCell f)) ∧
      (∀ s : Nat, s < fa.nstates → out.accepted[f s]? = fa.accepted[s]?) ∧
      (∀ s s', s < fa.nstates → s' < fa.nstates → rowKey fa s = rowKey fa s' → f s = f s') ∧
      (out.nstates = fa.nstates → ∀ s s', s < fa.nstates → s' < fa.nstates → f s = f s' → s = s') := by
  obtain ⟨hT, hpos⟩ := h
  obtain ⟨ks, k1, k2, k3, k4, k5, k7, k6⟩ := simpleKeys_spec hT
  have hex : ∀ s, ∃ j, s < fa.nstates → simpleOf fa ks s = some j ∧ j < ks.length ∧ ks[j]? = rowKey fa s := by
    intro s
    by_cases hs : s < fa.nstates
    · obtain ⟨k, q1, q2⟩ := k2 s hs
      cases hj : ks.idxOf? k with
      | none => exact absurd q2 (List.idxOf?_eq_none_iff.1 hj)
      | some j =>
        obtain ⟨p1, p2, _⟩ := List.idxOf?_eq_some_iff.1 hj
        exact ⟨j, fun _ => ⟨by unfold simpleOf; rw [q1, Option.bind_some, hj], p1, by rw [List.getElem?_eq_getElem p1, p2, q1]⟩⟩
    · exact ⟨0, fun h => absurd h hs⟩
  choose f hf using hex
  have hf' : ∀ s, s < fa.nstates → simpleOf fa ks s = some (f s) ∧ f s < ks.length := fun s hs => ⟨(hf s hs).1, (hf s hs).2.1⟩
  have hfk : ∀ s s', s < fa.nstates → s' < fa.nstates → f s = f s' → rowKey fa s = rowKey fa s' := by
    intro s s' hs hs' e
    rw [← (hf s hs).2.2, ← (hf s' hs').2.2, e]
  have hcols : (faEmpty fa.nsym fa.det).ncols = fa.ncols := rfl
  obtain ⟨o0, a1, a2, a3, a4, a5, a6, a7⟩ := addStates_spec (nsym := fa.nsym) (det := fa.det) (by rw [hcols]; exact hT.cols) ks.length
  obtain ⟨⟨out, did⟩, l1, l2, l3, l4, l5, l6, l7, l8, l9⟩ := foldlM_range (fun (st : FA × List Bool) s => (simpleOf fa ks s).bind (fun simple =>
        (st.2[simple]?).bind (fun did =>
          if did then some st else (simplifyState fa ks s simple st.1).map (fun out => (out, st.2.set simple true)))))
    (fun j (st : FA × List Bool) => FATable st.1 ∧ st.1.nsym = fa.nsym ∧ st.1.det = fa.det ∧ st.1.nstates = ks.length ∧ st.2.length = ks.length ∧
      (∀ s : Nat, s < j → st.2[f s]? = some true) ∧
      (∀ i : Nat, st.2[i]? = some false → (∀ c, c < fa.ncols → st.1.cell i c = some (-1)) ∧ st.1.accepted[i]? = some (-1)) ∧
      (∀ i : Nat, st.2[i]? = some true → ∃ s, s < fa.nstates ∧ f s = i ∧ (∀ c, st.1.cell i c = (fa.cell s c).map (mapCell f)) ∧
        st.1.accepted[i]? = fa.accepted[s]?))
    fa.nstates (o0, List.replicate ks.length false) (by
      refine ⟨a2, a3, a4, a5, by simp, by omega, ?_, ?_⟩
      · intro i hi
        have : i < ks.length := by
          have := (List.getElem?_eq_some_iff.1 hi).1
          simpa using this
        exact ⟨fun c hc => a7 i c this hc, a6 i this⟩
      · intro i hi
        rw [List.getElem?_replicate] at hi
        split at hi <;> cases hi) (by
      rintro s hs ⟨o, did⟩ ⟨x1, x2, x3, x4, x5, x6, x7, x8⟩
      obtain ⟨f1, f2, f3⟩ := hf s hs
      dsimp only at x5 x6 x7 x8 ⊢
      obtain ⟨d, hd⟩ : ∃ d, did[f s]? = some d := ⟨_, List.getElem?_eq_getElem (by rw [x5]; exact f2)⟩
      rw [f1, Option.bind_some, hd, Option.bind_some]
      cases d with
      | true =>
        rw [if_pos rfl]
        refine ⟨(o, did), rfl, x1, x2, x3, x4, x5, ?_, x7, x8⟩
        intro s' hs'
        by_cases e : s' = s
        · rw [e]; exact hd
        · exact x6 s' (by omega)
      | false =>
        rw [if_neg (by simp)]
        obtain ⟨y1, y2⟩ := x7 (f s) hd
        obtain ⟨p, p1, p2, p3, p4, p5, p6, p7, p8, p9⟩ := simplifyState_spec hT hf' hs x1 x2 x3 x4 y1 y2
        refine ⟨(p, did.set (f s) true), by rw [p1]; rfl, p2, p3, p4, p5, by simp [x5], ?_, ?_, ?_⟩
        · intro s' hs'
          dsimp only
          by_cases e : f s = f s'
          · rw [← e, List.getElem?_set_self (by rw [x5]; exact f2)]
          · rw [List.getElem?_set_ne e]
            refine x6 s' ?_
            rcases Nat.lt_or_ge s' s with e' | e'
            · exact e'
            · exact absurd (by rw [show s' = s by omega]) e
        · intro i hi
          dsimp only at hi ⊢
          by_cases e : f s = i
          · rw [← e, List.getElem?_set_self (by rw [x5]; exact f2)] at hi; cases hi
          · rw [List.getElem?_set_ne e] at hi
            obtain ⟨z1, z2⟩ := x7 i hi
            exact ⟨fun c hc => by rw [p7 i c (Ne.symm e)]; exact z1 c hc, by rw [p9 i (Ne.symm e)]; exact z2⟩
        · intro i hi
          dsimp only at hi ⊢
          by_cases e : f s = i
          · subst e
            exact ⟨s, hs, rfl, p6, p8⟩
          · rw [List.getElem?_set_ne e] at hi
            obtain ⟨s', z1, z2, z3, z4⟩ := x8 i hi
            exact ⟨s', z1, z2, fun c => by rw [p7 i c (Ne.symm e)]; exact z3 c, by rw [p9 i (Ne.symm e)]; exact z4⟩)
  dsimp only at l2 l3 l4 l5 l6 l7 l8 l9
  refine ⟨out, f, ?_, l2, l3, l4, by omega, ?_, ?_, ?_, ?_, ?_, ?_, ?_⟩
  · unfold faSimplifyOnce
    rw [k1, Option.bind_some, a1, Option.bind_some, l1]; rfl
  · obtain ⟨f1, f2, f3⟩ := hf 0 hpos
    rw [← k3 hpos] at f3
    exact (List.getElem?_inj f2 k5).1 f3
  · intro s hs; rw [l5]; exact (hf s hs).2.1
  · intro i hi
    rw [l5] at hi
    obtain ⟨s, q1, q2⟩ := k7 ks[i] (List.getElem_mem hi)
    refine ⟨s, q1, ?_⟩
    obtain ⟨f1, f2, f3⟩ := hf s q1
    rw [q2, ← List.getElem?_eq_getElem hi] at f3
    exact (List.getElem?_inj f2 k5).1 f3
  · intro s c hs
    obtain ⟨s', z1, z2, z3, z4⟩ := l9 (f s) (l7 s hs)
    rw [z3, (rowKey_eq hT hs z1 (hfk s s' hs z1 z2.symm)).2 c]
  · intro s hs
    obtain ⟨s', z1, z2, z3, z4⟩ := l9 (f s) (l7 s hs)
    rw [z4, (rowKey_eq hT hs z1 (hfk s s' hs z1 z2.symm)).1]
  · intro s s' hs hs' e
    have e' := (hf s hs).2.2
    rw [e, ← (hf s' hs').2.2] at e'
    exact (List.getElem?_inj (hf s hs).2.1 k5).1 e'
  · intro hl s s' hs hs' e
    exact k6 (by rw [← l5, hl]) s s' hs hs' (hfk s s' hs hs' e)

/-- `simplify_once` does not change the token reported for any word. -/
theorem simplifyOnce_lang {fa : FA} (h : FAOk fa) :
    ∃ out, faSimplifyOnce fa = some out ∧ FAOk out ∧ out.nsym = fa.nsym ∧ out.det = fa.det ∧ out.nstates ≤ fa.nstates ∧
      (out.nstates = fa.nstates → NoTwins out) ∧ ∀ w tok, Accepts out w tok ↔ Accepts fa w tok := by
  obtain ⟨out, f, h1, h2, h3, h4, h5, h6, h7, h8, h9, h10, h12, h11⟩ := faSimplifyOnce_spec h
  have hedge : ∀ s x t', s < fa.nstates → (Edge out (f s) x t' ↔ ∃ t, t' = f t ∧ Edge fa s x t) := by
    have hcell : ∀ (s c t' : Nat), s < fa.nstates → (out.cell (f s) c = some (t' : Int) ↔ ∃ t, t' = f t ∧ fa.cell s c = some (t : Int)) := by
      intro s c t' hs
      rw [h9 s c hs]
      constructor
      · intro e
        obtain ⟨v, e1, e2⟩ := Option.map_eq_some_iff.1 e
        unfold mapCell at e2
        split at e2
        · omega
        · rename_i hv
          refine ⟨v.toNat, by omega, ?_⟩
          rw [e1]
          rcases h.1.cells _ _ _ e1 with q | q
          · exact absurd q hv
          · congr 1; omega
      · rintro ⟨t, rfl, e⟩
        rw [e, Option.map_some]
        unfold mapCell
        rw [if_neg (by omega), Int.toNat_natCast]
    intro s x t' hs
    cases x with
    | some a =>
      unfold Edge
      dsimp only
      rw [h3, hcell s a t' hs]
      constructor
      · rintro ⟨ha, t, e1, e2⟩; exact ⟨t, e1, ha, e2⟩
      · rintro ⟨t, e1, ha, e2⟩; exact ⟨ha, t, e1, e2⟩
    | none =>
      unfold Edge
      dsimp only
      rw [h3, h4, hcell s _ t' hs, hcell s _ t' hs]
      constructor
      · rintro ⟨ha, ⟨t, e1, e2⟩ | ⟨t, e1, e2⟩⟩
        · exact ⟨t, e1, ha, Or.inl e2⟩
        · exact ⟨t, e1, ha, Or.inr e2⟩
      · rintro ⟨t, e1, ha, e2 | e2⟩
        · exact ⟨ha, Or.inl ⟨t, e1, e2⟩⟩
        · exact ⟨ha, Or.inr ⟨t, e1, e2⟩⟩
  refine ⟨out, h1, ⟨h2, by have := h7 0 h.2; omega⟩, h3, h4, h5, ?_, ?_⟩
  · intro hl i i' hi hi' ha hc
    obtain ⟨s, s1, rfl⟩ := h8 i hi
    obtain ⟨s', s1', rfl⟩ := h8 i' hi'
    have hinj := h11 hl
    rw [h10 s s1, h10 s' s1'] at ha
    refine h12 s s' s1 s1' ?_
    have hkey : rowKey fa s = rowKey fa s' := by
      refine rowKey_of h.1 s1 s1' ha (fun c => ?_)
      have := hc c
      rw [h9 s c s1, h9 s' c s1'] at this
      cases e : fa.cell s c with
      | none =>
        rw [e] at this
        cases e' : fa.cell s' c with
        | none => rfl
        | some v => rw [e'] at this; cases this
      | some v =>
        rw [e] at this
        cases e' : fa.cell s' c with
        | none => rw [e'] at this; cases this
        | some v' =>
          rw [e'] at this
          have := Option.some.inj this
          unfold mapCell at this
          have hv := h.1.cells _ _ _ e
          have hv' := h.1.cells _ _ _ e'
          congr 1
          split at this <;> split at this
          · omega
          · omega
          · omega
          · have := hinj v.toNat v'.toNat (by omega) (by omega) (by omega)
            omega
    exact hkey
  · intro w tok
    constructor
    · rintro ⟨u, hw, ht, htn⟩
      have key : ∀ p v u, Walk (Edge out) p v u → ∀ s, s < fa.nstates → p = f s → ∃ u', u' < fa.nstates ∧ u = f u' ∧ Walk (Edge fa) s v u' := by
        intro p v u hw
        induction hw with
        | nil => intro s hs e; exact ⟨s, hs, e, Walk.nil s⟩
        | sym e _ ih =>
          rintro s hs rfl
          obtain ⟨t, rfl, he⟩ := (hedge s _ _ hs).1 e
          obtain ⟨u', u1, u2, u3⟩ := ih t (edge_lt h.1 he).2 rfl
          exact ⟨u', u1, u2, Walk.sym he u3⟩
        | eps e _ ih =>
          rintro s hs rfl
          obtain ⟨t, rfl, he⟩ := (hedge s _ _ hs).1 e
          obtain ⟨u', u1, u2, u3⟩ := ih t (edge_lt h.1 he).2 rfl
          exact ⟨u', u1, u2, Walk.eps he u3⟩
      obtain ⟨u', u1, rfl, u3⟩ := key 0 w u hw 0 h.2 h6.symm
      rw [h10 u' u1] at ht
      exact ⟨u', u3, ht, htn⟩
    · rintro ⟨u, hw, ht, htn⟩
      have hw' := walk_embed (E' := Edge out) f (fun s x t he => (hedge s x (f t) (edge_lt h.1 he).1).2 ⟨t, rfl, he⟩) hw
      rw [h6] at hw'
      exact ⟨f u, hw', by rw [h10 u (walk_lt h.1 hw h.2)]; exact ht, htn⟩

/-- `simplify` ends; it does not change the token reported for any word, does not add states, and leaves no two states with the same token and the same
transitions. -/
theorem C27_simplify {fa : FA} (h : FAOk fa) (fuel : Nat) (hf : fa.nstates ≤ fuel) :
    ∃ out, faSimplify fuel fa = some out ∧ FAOk out ∧ out.nsym = fa.nsym ∧ out.det = fa.det ∧ out.nstates ≤ fa.nstates ∧ NoTwins out ∧
      ∀ w tok, Accepts out w tok ↔ Accepts fa w tok := by
  induction fuel generalizing fa with
  | zero => have := h.2; omega
  | succ fuel ih =>
    obtain ⟨o, h1, h2, h3, h4, h5, h6, h7⟩ := simplifyOnce_lang h
    unfold faSimplify
    rw [h1, Option.bind_some]
    by_cases hl : o.nstates < fa.nstates
    · rw [if_pos hl]
      obtain ⟨out, k1, k2, k3, k4, k5, k6, k7⟩ := ih h2 (by omega)
      exact ⟨out, k1, k2, by rw [k3, h3], by rw [k4, h4], by omega, k6, fun w tok => (k7 w tok).trans (h7 w tok)⟩
    · rw [if_neg hl]
      exact ⟨o, rfl, h2, h3, h4, h5, h6 (by omega), h7⟩

theorem buildDfa_spec {token : Int} (ht : 0 ≤ token) (r : Regex) (hr : RegexOk r) : ∃ N, ∀ fuel, 2 ^ N ≤ fuel →
    ∃ out, r.buildDfa fuel token = some out ∧ FAOk out ∧ out.nsym = nchars ∧ out.det = true ∧ out.nstates ≤ 2 ^ N ∧
      ∀ v tok, Accepts out v tok ↔ tok = token ∧ Encoded (Lang r) v := by
  obtain ⟨nfa, k1, k2, k3, _, k5⟩ := compile_spec ht r hr
  have hn : 0 < nfa.nsym := by rw [k3]; decide
  refine ⟨nfa.nstates, ?_⟩
  intro fuel hfuel
  obtain ⟨dfa, d1, d2, d3, d4, d5, d6⟩ := C27_deterministic k2 hn fuel hfuel
  obtain ⟨out, s1, s2, s3, s4, s5, _, s7⟩ := C27_simplify d2 fuel (by omega)
  refine ⟨out, by unfold Regex.buildDfa; rw [k1, Option.bind_some, d1, Option.bind_some, s1], s2, by rw [s3, d4, k3], by rw [s4, d3], by omega, ?_⟩
  intro v tok
  rw [s7, d6]
  unfold LowestToken
  simp only [k5]
  constructor
  · exact fun h => h.1
  · exact fun h => ⟨h, fun t ht => by rw [h.1, ht.1]⟩

theorem encoded_iff {L : List Nat → Prop} {w v : List Nat} (h : w.mapM getSymbol = some v) : Encoded L v ↔ L w := by
  constructor
  · rintro ⟨w', h1, h2⟩
    rw [encode_inj h h1]; exact h2
  · intro hl; exact ⟨w, h, hl⟩

/-- The deterministic automaton of a regular expression reports the token for the texts of its language and nothing for other texts. -/
theorem C27_regex {token : Int} (ht : 0 ≤ token) (r : Regex) (hr : RegexOk r) : ∃ fuel0, ∀ fuel, fuel0 ≤ fuel →
    ∃ out, r.buildDfa fuel token = some out ∧ FAOk out ∧ out.det = true ∧
      ∀ w v, w.mapM getSymbol = some v → ∀ tok, Accepts out v tok ↔ tok = token ∧ Lang r w := by
  obtain ⟨N, hN⟩ := buildDfa_spec ht r hr
  refine ⟨2 ^ N, ?_⟩
  intro fuel hf
  obtain ⟨out, h1, h2, _, h4, _, h6⟩ := hN fuel hf
  refine ⟨out, h1, h2, h4, ?_⟩
  intro w v hw tok
  rw [h6, encoded_iff hw]

/-- The automaton of the tokens of a language reports, for every text, the first token whose expression matches it, and nothing for the texts that no
expression matches. -/
theorem C27_lexer (tokens : List Regex) (hne : tokens ≠ []) (hr : ∀ r ∈ tokens, RegexOk r) : ∃ fuel0, ∀ fuel, fuel0 ≤ fuel →
    ∃ out, buildLexer fuel tokens = some out ∧ FAOk out ∧ out.det = true ∧ out.nsym = nchars ∧ NoTwins out ∧
      ∀ w v, w.mapM getSymbol = some v → ∀ tok, Accepts out v tok ↔
        ∃ (i : Nat) (r : Regex), tok = (i : Int) ∧ tokens[i]? = some r ∧ Lang r w ∧ ∀ (j : Nat) r', j < i → tokens[j]? = some r' → ¬ Lang r' w := by
  have hN : ∃ N, ∀ (i : Nat) r, tokens[i]? = some r → ∀ fuel, 2 ^ N ≤ fuel →
      ∃ out, r.buildDfa fuel (i : Int) = some out ∧ FAOk out ∧ out.nsym = nchars ∧ out.det = true ∧ out.nstates ≤ 2 ^ N ∧
        ∀ v tok, Accepts out v tok ↔ tok = (i : Int) ∧ Encoded (Lang r) v := by
    have key : ∀ m, ∃ N, ∀ (i : Nat) r, i < m → tokens[i]? = some r → ∀ fuel, 2 ^ N ≤ fuel →
        ∃ out, r.buildDfa fuel (i : Int) = some out ∧ FAOk out ∧ out.nsym = nchars ∧ out.det = true ∧ out.nstates ≤ 2 ^ N ∧
          ∀ v tok, Accepts out v tok ↔ tok = (i : Int) ∧ Encoded (Lang r) v := by
      intro m
      induction m with
      | zero => exact ⟨0, by omega⟩
      | succ m ih =>
        obtain ⟨N, hN⟩ := ih
        have lift : ∀ (M : Nat) (i : Nat) (r : Regex), M ≤ max N M → (∀ fuel, 2 ^ M ≤ fuel →
            ∃ out, r.buildDfa fuel (i : Int) = some out ∧ FAOk out ∧ out.nsym = nchars ∧ out.det = true ∧ out.nstates ≤ 2 ^ M ∧
              ∀ v tok, Accepts out v tok ↔ tok = (i : Int) ∧ Encoded (Lang r) v) → ∀ M', M ≤ M' → ∀ fuel, 2 ^ M' ≤ fuel →
            ∃ out, r.buildDfa fuel (i : Int) = some out ∧ FAOk out ∧ out.nsym = nchars ∧ out.det = true ∧ out.nstates ≤ 2 ^ M' ∧
              ∀ v tok, Accepts out v tok ↔ tok = (i : Int) ∧ Encoded (Lang r) v := by
          intro M i r _ h M' hM fuel hf
          have hp : 2 ^ M ≤ 2 ^ M' := Nat.pow_le_pow_right (by omega) hM
          obtain ⟨out, h1, h2, h3, h4, h5, h6⟩ := h fuel (by omega)
          exact ⟨out, h1, h2, h3, h4, by omega, h6⟩
        cases hm : tokens[m]? with
        | none =>
          refine ⟨N, ?_⟩
          intro i r hi hir
          by_cases e : i = m
          · subst e; rw [hm] at hir; cases hir
          · exact hN i r (by omega) hir
        | some r0 =>
          obtain ⟨M, hM⟩ := buildDfa_spec (token := (m : Int)) (by omega) r0 (hr r0 (List.mem_of_getElem? hm))
          refine ⟨max N M, ?_⟩
          intro i r hi hir
          by_cases e : i = m
          · subst e
            rw [hm] at hir; cases hir
            exact lift M i r0 (Nat.le_max_right _ _) hM _ (Nat.le_max_right _ _)
          · exact lift N i r (by omega) (hN i r (by omega) hir) _ (Nat.le_max_left _ _)
    obtain ⟨N, hN⟩ := key tokens.length
    exact ⟨N, fun i r hir => hN i r (List.getElem?_eq_some_iff.1 hir).1 hir⟩
  obtain ⟨N, hN⟩ := hN
  refine ⟨2 ^ N + 2 ^ (tokens.length * (1 + 2 ^ N)), ?_⟩
  intro fuel hfuel
  have hlen : 0 < tokens.length := List.length_pos_iff_ne_nil.2 hne
  obtain ⟨lx, l1, l2⟩ := foldlM_range (fun (lexer : Option FA) i => (tokens[i]?).bind (fun r => (r.buildDfa fuel (i : Int)).bind (addToLexer lexer)))
    (fun m lx => (m = 0 → lx = none) ∧ (0 < m → ∃ lexer, lx = some lexer ∧ FAOk lexer ∧ lexer.nsym = nchars ∧ lexer.nstates ≤ m * (1 + 2 ^ N) ∧
      ∀ v tok, Accepts lexer v tok ↔ ∃ (i : Nat) (r : Regex), i < m ∧ tok = (i : Int) ∧ tokens[i]? = some r ∧ Encoded (Lang r) v))
    tokens.length none ⟨fun _ => rfl, by omega⟩ (by
      rintro m hm lx ⟨x1, x2⟩
      obtain ⟨r, hrm⟩ : ∃ r, tokens[m]? = some r := ⟨_, List.getElem?_eq_getElem hm⟩
      obtain ⟨dfa, d1, d2, d3, d4, d5, d6⟩ := hN m r hrm fuel (Nat.le_trans (Nat.le_add_right _ _) hfuel)
      rw [hrm, Option.bind_some, d1, Option.bind_some]
      by_cases e : m = 0
      · rw [x1 e]
        refine ⟨some dfa, rfl, by omega, fun _ => ⟨dfa, rfl, d2, d3, ?_, ?_⟩⟩
        · rw [e]; omega
        · intro v tok
          rw [d6]
          constructor
          · rintro ⟨h1, h2⟩; exact ⟨m, r, by omega, h1, hrm, h2⟩
          · rintro ⟨i, r', h1, h2, h3, h4⟩
            obtain rfl : i = m := by omega
            rw [hrm] at h3; cases h3
            exact ⟨h2, h4⟩
      · obtain ⟨lexer, rfl, y1, y2, y3, y4⟩ := x2 (by omega)
        obtain ⟨out, u1, u2, u3, _, u5⟩ := C26_unite y1 d2 (by rw [d3, y2])
        obtain ⟨out', v1, v2⟩ := faUnite_spec y1 d2 (by rw [d3, y2])
        rw [u1] at v1; cases v1
        refine ⟨some out, by unfold addToLexer; dsimp only; rw [u1]; rfl, by omega, fun _ => ⟨out, rfl, u2, by rw [u3, y2], ?_, ?_⟩⟩
        · rw [v2.n, Nat.succ_mul]; omega
        · intro v tok
          rw [u5, y4, d6]
          constructor
          · rintro (⟨i, r', h1, h2, h3, h4⟩ | ⟨h1, h2⟩)
            · exact ⟨i, r', by omega, h2, h3, h4⟩
            · exact ⟨m, r, by omega, h1, hrm, h2⟩
          · rintro ⟨i, r', h1, h2, h3, h4⟩
            by_cases ei : i = m
            · subst ei
              rw [hrm] at h3; cases h3
              exact Or.inr ⟨h2, h4⟩
            · exact Or.inl ⟨i, r', by omega, h2, h3, h4⟩)
  obtain ⟨lexer, rfl, y1, y2, y3, y4⟩ := l2.2 hlen
  have hpow : 2 ^ lexer.nstates ≤ 2 ^ (tokens.length * (1 + 2 ^ N)) := Nat.pow_le_pow_right (by omega) y3
  have hfuel2 : 2 ^ lexer.nstates ≤ fuel := Nat.le_trans hpow (Nat.le_trans (Nat.le_add_left _ _) hfuel)
  obtain ⟨dfa, d1, d2, d3, d4, d5, d6⟩ := C27_deterministic y1 (by rw [y2]; decide) fuel hfuel2
  obtain ⟨out, s1, s2, s3, s4, s5, s6, s7⟩ := C27_simplify d2 fuel (Nat.le_trans d5 hfuel2)
  refine ⟨out, ?_, s2, by rw [s4, d3], by rw [s3, d4, y2], s6, ?_⟩
  · unfold buildLexer
    rw [l1, Option.bind_some, Option.bind_some, d1, Option.bind_some, s1]
  · intro w v hw tok
    rw [s7, d6]
    unfold LowestToken
    simp only [y4, encoded_iff hw]
    constructor
    · rintro ⟨⟨i, r, h1, h2, h3, h4⟩, hmin⟩
      refine ⟨i, r, h2, h3, h4, ?_⟩
      intro j r' hj hr' hl
      have := hmin (j : Int) ⟨j, r', by omega, rfl, hr', hl⟩
      omega
    · rintro ⟨i, r, h2, h3, h4, h5⟩
      refine ⟨⟨i, r, (List.getElem?_eq_some_iff.1 h3).1, h2, h3, h4⟩, ?_⟩
      rintro t ⟨j, r', h1, rfl, q3, q4⟩
      have : ¬ j < i := fun hj => h5 j r' hj q3 q4
      omega

/-- Keywords and identifiers: `if`, `[a-z]+`. The first token wins on the text `if`. -/
def exampleTokens : List Regex := [.concat (.char 105) (.char 102), .plus (.set false [.range 97 122])]

example : exampleTokens ≠ [] ∧ ∀ r ∈ exampleTokens, RegexOk r := by
  refine ⟨by decide, ?_⟩
  intro r hr
  rcases List.mem_cons.1 hr with rfl | hr
  · exact ⟨Or.inr (Or.inr (Or.inr (by omega))), Or.inr (Or.inr (Or.inr (by omega)))⟩
  · rw [List.mem_singleton.1 hr]
    intro i hi c hc
    rw [List.mem_singleton.1 hi] at hc
    exact Or.inr (Or.inr (Or.inr (by unfold ItemHas at hc; omega)))

/-- The union of two automata on three symbols that accept `a` with tokens 1 and 0; the new automaton reports 0. -/
def twoTokens : FA := ⟨3, false, [[-1, -1, -1, 1, 3], [2, -1, -1, -1, -1], [-1, -1, -1, -1, -1], [4, -1, -1, -1, -1], [-1, -1, -1, -1, -1]], [-1, -1, 1, -1, 0]⟩

example : (faDeterministic 32 twoTokens).bind (faSimplify 32) = some ⟨3, true, [[1, -1, -1], [-1, -1, -1]], [-1, 0]⟩ := by decide +kernel

end OmegaH
