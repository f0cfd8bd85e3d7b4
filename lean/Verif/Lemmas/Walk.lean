import Verif.Lemmas.Automaton

/-! # Walks in automata -/

namespace OmegaH
open Spec

theorem walk_append {E : Nat → Option Nat → Nat → Prop} {s t r : Nat} {u v : List Nat} (h1 : Walk E s u t) (h2 : Walk E t v r) :
    Walk E s (u ++ v) r := by
  induction h1 with
  | nil => exact h2
  | sym e _ ih => exact Walk.sym e (ih h2)
  | eps e _ ih => exact Walk.eps e (ih h2)

theorem walk_embed {E E' : Nat → Option Nat → Nat → Prop} (f : Nat → Nat) (h : ∀ s x t, E s x t → E' (f s) x (f t)) {s u : Nat} {w : List Nat}
    (hw : Walk E s w u) : Walk E' (f s) w (f u) := by
  induction hw with
  | nil => exact Walk.nil _
  | sym e _ ih => exact Walk.sym (h _ _ _ e) ih
  | eps e _ ih => exact Walk.eps (h _ _ _ e) ih

theorem walk_project {E E' : Nat → Option Nat → Nat → Prop} (f : Nat → Nat) (h : ∀ s x t, E' (f s) x t → ∃ t', t = f t' ∧ E s x t') {p u : Nat}
    {w : List Nat} (hw : Walk E' p w u) : ∀ s, p = f s → ∃ u', u = f u' ∧ Walk E s w u' := by
  induction hw with
  | nil => rintro s rfl; exact ⟨s, rfl, Walk.nil _⟩
  | sym e _ ih =>
    rintro s rfl
    obtain ⟨t', rfl, e'⟩ := h _ _ _ e
    obtain ⟨u', rfl, hu⟩ := ih t' rfl
    exact ⟨u', rfl, Walk.sym e' hu⟩
  | eps e _ ih =>
    rintro s rfl
    obtain ⟨t', rfl, e'⟩ := h _ _ _ e
    obtain ⟨u', rfl, hu⟩ := ih t' rfl
    exact ⟨u', rfl, Walk.eps e' hu⟩

theorem edge_congr {fa out : FA} (hs : out.nsym = fa.nsym) (hd : out.det = fa.det) (hc : ∀ s c, out.cell s c = fa.cell s c) (s : Nat) (x : Option Nat)
    (t : Nat) : Edge out s x t ↔ Edge fa s x t := by
  unfold Edge
  cases x with
  | none => simp only [hs, hd, hc]
  | some a => simp only [hs, hc]

theorem edge_lt {fa : FA} (h : FATable fa) {s t : Nat} {x : Option Nat} (he : Edge fa s x t) : s < fa.nstates ∧ t < fa.nstates := by
  have key : ∀ c, fa.cell s c = some (t : Int) → s < fa.nstates ∧ t < fa.nstates := by
    intro c hc
    refine ⟨(faCell_lt h hc).1, ?_⟩
    rcases h.cells s c _ hc with e | e <;> omega
  cases x with
  | none => exact he.2.elim (key _) (key _)
  | some a => exact key _ he.2

theorem walk_lt {fa : FA} (h : FATable fa) {s t : Nat} {w : List Nat} (hw : Walk (Edge fa) s w t) (hs : s < fa.nstates) : t < fa.nstates := by
  induction hw with
  | nil => exact hs
  | sym e _ ih => exact ih (edge_lt h e).2
  | eps e _ ih => exact ih (edge_lt h e).2

theorem shift_eq {n t : Nat} {v : Int} : shiftCell n v = (t : Int) ↔ ∃ t' : Nat, v = (t' : Int) ∧ t = n + t' := by
  unfold shiftCell
  constructor
  · intro h
    split at h
    · omega
    · exact ⟨v.toNat, by omega, by omega⟩
  · rintro ⟨t', rfl, rfl⟩
    rw [if_neg (by omega)]
    omega

theorem edge_append {fa other out : FA} (h : FATable fa) (hs : other.nsym = fa.nsym) (hd : fa.det = false)
    (h1 : out.nsym = fa.nsym) (h2 : out.det = fa.det)
    (hc : ∀ s c, out.cell s c = if s < fa.nstates then fa.cell s c else
        if c < other.ncols then (other.cell (s - fa.nstates) c).map (shiftCell fa.nstates) else
        if s < fa.nstates + other.nstates ∧ c < fa.ncols then some (-1) else none) (s : Nat) (x : Option Nat) (t : Nat) :
    Edge out s x t ↔ Edge fa s x t ∨ ∃ s' t', s = fa.nstates + s' ∧ t = fa.nstates + t' ∧ Edge other s' x t' := by
  by_cases hl : s < fa.nstates
  · have hc' : ∀ c, out.cell s c = fa.cell s c := fun c => by rw [hc, if_pos hl]
    have e1 : Edge out s x t ↔ Edge fa s x t := by
      unfold Edge
      cases x with
      | none => simp only [h1, h2, hc']
      | some a => simp only [h1, hc']
    rw [e1]
    constructor
    · exact Or.inl
    · rintro (e | ⟨s', t', rfl, _⟩)
      · exact e
      · omega
  · have hno : ¬ Edge fa s x t := fun e => hl (edge_lt h e).1
    have key : ∀ c, c < other.ncols → (out.cell s c = some (t : Int) ↔ ∃ t', t = fa.nstates + t' ∧ other.cell (s - fa.nstates) c = some (t' : Int)) := by
      intro c hcc
      rw [hc, if_neg hl, if_pos hcc, Option.map_eq_some_iff]
      constructor
      · rintro ⟨v, e1, e2⟩
        obtain ⟨t', rfl, rfl⟩ := shift_eq.1 e2
        exact ⟨t', rfl, e1⟩
      · rintro ⟨t', rfl, e1⟩
        exact ⟨_, e1, shift_eq.2 ⟨t', rfl, rfl⟩⟩
    have goal : Edge out s x t ↔ ∃ t', t = fa.nstates + t' ∧ Edge other (s - fa.nstates) x t' := by
      cases x with
      | some a =>
        show a < out.nsym ∧ _ ↔ _
        constructor
        · rintro ⟨ha, e⟩
          obtain ⟨t', rfl, e'⟩ := (key a (by unfold FA.ncols; omega)).1 e
          exact ⟨t', rfl, by rw [h1] at ha; rw [hs]; exact ha, e'⟩
        · rintro ⟨t', rfl, ha, e'⟩
          exact ⟨by rw [h1, ← hs]; exact ha, (key a (by unfold FA.ncols; omega)).2 ⟨t', rfl, e'⟩⟩
      | none =>
        show out.det = false ∧ (out.cell s out.nsym = some (t : Int) ∨ out.cell s (out.nsym + 1) = some (t : Int)) ↔ _
        rw [h1, h2, hd]
        cases hod : other.det with
        | true =>
          have hnc : other.ncols = fa.nsym := by unfold FA.ncols; rw [hod, hs]; rfl
          constructor
          · rintro ⟨_, e | e⟩
            · rw [hc, if_neg hl, if_neg (by omega)] at e
              split at e
              · have := Option.some.inj e; omega
              · cases e
            · rw [hc, if_neg hl, if_neg (by omega)] at e
              split at e
              · have := Option.some.inj e; omega
              · cases e
          · rintro ⟨t', _, e, _⟩
            rw [hod] at e; cases e
        | false =>
          have hnc : other.ncols = fa.nsym + 2 := by unfold FA.ncols; rw [hod, hs]; rfl
          rw [key _ (by omega), key _ (by omega)]
          constructor
          · rintro ⟨_, ⟨t', rfl, e⟩ | ⟨t', rfl, e⟩⟩
            · exact ⟨t', rfl, hod, Or.inl (by rw [hs]; exact e)⟩
            · exact ⟨t', rfl, hod, Or.inr (by rw [hs]; exact e)⟩
          · rintro ⟨t', rfl, _, e | e⟩
            · exact ⟨rfl, Or.inl ⟨t', rfl, by rw [← hs]; exact e⟩⟩
            · exact ⟨rfl, Or.inr ⟨t', rfl, by rw [← hs]; exact e⟩⟩
    rw [goal]
    constructor
    · rintro ⟨t', rfl, e⟩
      exact Or.inr ⟨s - fa.nstates, t', by omega, rfl, e⟩
    · rintro (e | ⟨s', t', rfl, rfl, e⟩)
      · exact absurd e hno
      · exact ⟨t', rfl, by rw [Nat.add_sub_cancel_left]; exact e⟩

/-- Adding a transition on an empty symbol adds exactly that edge. -/
theorem edge_addEps {fa out : FA} {f c t : Nat} (hd : fa.det = false) (h1 : out.nsym = fa.nsym) (h2 : out.det = fa.det)
    (hcol : c = fa.nsym ∨ c = fa.nsym + 1) (hfree : fa.cell f c = some (-1))
    (hc : ∀ s d, out.cell s d = if s = f ∧ d = c then some (t : Int) else fa.cell s d) (s : Nat) (x : Option Nat) (u : Nat) :
    Edge out s x u ↔ Edge fa s x u ∨ (s = f ∧ x = none ∧ u = t) := by
  cases x with
  | some a =>
    show a < out.nsym ∧ _ ↔ (a < fa.nsym ∧ _) ∨ _
    rw [hc, h1]
    constructor
    · rintro ⟨ha, e⟩
      rw [if_neg (by omega)] at e
      exact Or.inl ⟨ha, e⟩
    · rintro (⟨ha, e⟩ | ⟨_, e, _⟩)
      · exact ⟨ha, by rw [if_neg (by omega)]; exact e⟩
      · cases e
  | none =>
    show out.det = false ∧ _ ↔ (fa.det = false ∧ _) ∨ _
    rw [hc, hc, h1, h2]
    constructor
    · rintro ⟨_, e | e⟩
      · split at e
        · rename_i hh; exact Or.inr ⟨hh.1, rfl, by have := Option.some.inj e; omega⟩
        · exact Or.inl ⟨hd, Or.inl e⟩
      · split at e
        · rename_i hh; exact Or.inr ⟨hh.1, rfl, by have := Option.some.inj e; omega⟩
        · exact Or.inl ⟨hd, Or.inr e⟩
    · rintro (⟨_, e | e⟩ | ⟨rfl, _, rfl⟩)
      · refine ⟨hd, Or.inl ?_⟩
        rw [if_neg]
        · exact e
        · rintro ⟨rfl, rfl⟩
          rw [hfree] at e; have := Option.some.inj e; omega
      · refine ⟨hd, Or.inr ?_⟩
        rw [if_neg]
        · exact e
        · rintro ⟨rfl, rfl⟩
          rw [hfree] at e; have := Option.some.inj e; omega
      · refine ⟨hd, ?_⟩
        rcases hcol with rfl | rfl
        · exact Or.inl (if_pos ⟨rfl, rfl⟩)
        · exact Or.inr (if_pos ⟨rfl, rfl⟩)

/-- What is known of a nondeterministic automaton: its edges and its tokens. -/
structure IsNfa (fa : FA) (m n : Nat) (E : Nat → Option Nat → Nat → Prop) (acc : List Int) : Prop where
  table : FATable fa
  nsym : fa.nsym = m
  det : fa.det = false
  n : fa.nstates = n
  edges : ∀ s x t, Edge fa s x t ↔ E s x t
  acc : fa.accepted = acc

theorem IsNfa.ncols {fa : FA} {m n : Nat} {E : Nat → Option Nat → Nat → Prop} {acc : List Int} (h : IsNfa fa m n E acc) : fa.ncols = m + 2 := by
  unfold FA.ncols; rw [h.det, h.nsym]; rfl

theorem IsNfa.congr {fa : FA} {m n : Nat} {E E' : Nat → Option Nat → Nat → Prop} {acc : List Int} (h : IsNfa fa m n E acc)
    (he : ∀ s x t, E s x t ↔ E' s x t) : IsNfa fa m n E' acc :=
  ⟨h.table, h.nsym, h.det, h.n, fun s x t => (h.edges s x t).trans (he s x t), h.acc⟩

theorem isNfa_empty (m : Nat) : IsNfa (faEmpty m false) m 0 (fun _ _ _ => False) [] := by
  refine ⟨faEmpty_table m false (by show 0 < m + 2; omega), rfl, rfl, rfl, ?_, rfl⟩
  intro s x t
  refine ⟨fun e => ?_, False.elim⟩
  have := (edge_lt (faEmpty_table m false (by show 0 < m + 2; omega)) e).1
  exact absurd this (Nat.not_lt_zero _)

section
variable {fa other : FA} {m n : Nat} {E : Nat → Option Nat → Nat → Prop} {acc : List Int}

theorem IsNfa.addState (h : IsNfa fa m n E acc) : ∃ out, faAddState fa = some out ∧ IsNfa out m (n + 1) E (acc ++ [-1]) := by
  obtain ⟨out, e1, e2, e3, e4, e5, e6, e7⟩ := faAddState_spec h.table
  refine ⟨out, e1, e2, by rw [e3, h.nsym], by rw [e4, h.det], by rw [e5, h.n], ?_, by rw [e6, h.acc]⟩
  intro s x t
  rw [← h.edges]
  by_cases hs : s = fa.nstates
  · have h1 : ¬ Edge fa s x t := fun e => by have := (edge_lt h.table e).1; omega
    have h2 : ¬ Edge out s x t := by
      have key : ∀ c, out.cell s c ≠ some (t : Int) := by
        intro c hc
        rw [e7, if_pos hs] at hc
        split at hc
        · have := Option.some.inj hc; omega
        · cases hc
      cases x with
      | none => exact fun e => e.2.elim (key _) (key _)
      | some a => exact fun e => key _ e.2
    exact iff_of_false h2 h1
  · have hc : ∀ c, out.cell s c = fa.cell s c := fun c => by rw [e7, if_neg hs]
    unfold Edge
    cases x with
    | none => simp only [e3, e4, hc]
    | some a => simp only [e3, hc]

theorem IsNfa.append (h : IsNfa fa m n E acc) (ho : FATable other) (hs : other.nsym = m) :
    ∃ out, faAppend fa other = some out ∧ IsNfa out m (n + other.nstates)
      (fun s x t => E s x t ∨ ∃ s' t', s = n + s' ∧ t = n + t' ∧ Edge other s' x t') (acc ++ other.accepted) := by
  obtain ⟨out, e1, e2, e3, e4, e5, e6, e7⟩ := faAppend_spec h.table ho (by rw [hs, h.nsym]) (by rw [h.det]; simp)
  refine ⟨out, e1, e2, by rw [e3, h.nsym], by rw [e4, h.det], by rw [e5, h.n], ?_, by rw [e6, h.acc]⟩
  intro s x t
  rw [edge_append h.table (by rw [hs, h.nsym]) h.det e3 e4 e7, h.edges, h.n]

/-- A state without edges on the empty symbols has both of its entries free. -/
theorem IsNfa.free (h : IsNfa fa m n E acc) {s : Nat} (hs : s < n) (hno : ∀ t, ¬ E s none t) :
    fa.cell s m = some (-1) ∧ fa.cell s (m + 1) = some (-1) := by
  have key : ∀ c, (c = m ∨ c = m + 1) → fa.cell s c = some (-1) := by
    intro c hc
    obtain ⟨v, hv⟩ := cell_some h.table (s := s) (c := c) (by rw [h.n]; exact hs) (by rw [h.ncols]; omega)
    rw [hv]
    rcases h.table.cells s c v hv with e | ⟨e1, e2⟩
    · rw [e]
    · exfalso
      apply hno v.toNat
      rw [← h.edges]
      refine ⟨h.det, ?_⟩
      rw [h.nsym, show ((v.toNat : Nat) : Int) = v by omega]
      rcases hc with rfl | rfl
      · exact Or.inl hv
      · exact Or.inr hv
  exact ⟨key m (Or.inl rfl), key (m + 1) (Or.inr rfl)⟩

theorem IsNfa.addEps (h : IsNfa fa m n E acc) {f c t : Nat} (ht : t < n) (hc : c = m ∨ c = m + 1) (hfree : fa.cell f c = some (-1)) :
    ∃ out, faAddTransition fa f c t = some out ∧ IsNfa out m n (fun s x u => E s x u ∨ (s = f ∧ x = none ∧ u = t)) acc ∧
      ∀ s d, ¬ (s = f ∧ d = c) → out.cell s d = fa.cell s d := by
  obtain ⟨out, e1, e2, e3, e4, e5, e6, e7⟩ := faAddTransition_spec h.table (by rw [h.n]; exact ht) hfree
  refine ⟨out, e1, ⟨e2, by rw [e3, h.nsym], by rw [e4, h.det], by rw [e5, h.n], ?_, by rw [e6, h.acc]⟩, ?_⟩
  · intro s x u
    rw [edge_addEps h.det e3 e4 (by rw [h.nsym]; exact hc) hfree e7, h.edges]
  · intro s d hn
    rw [e7, if_neg hn]

theorem IsNfa.addAccept (h : IsNfa fa m n E acc) {s : Nat} {token : Int} (ht : 0 ≤ token) (hs : s < n) :
    ∃ out, faAddAccept fa s token = some out ∧ IsNfa out m n E (acc.set s token) ∧ ∀ s d, out.cell s d = fa.cell s d := by
  obtain ⟨out, e1, e2, e3, e4, e5, e6, e7⟩ := faAddAccept_spec h.table ht (by rw [h.n]; exact hs)
  refine ⟨out, e1, ⟨e2, by rw [e3, h.nsym], by rw [e4, h.det], by rw [e5, h.n], ?_, by rw [e6, h.acc]⟩, e7⟩
  intro s x t
  rw [edge_congr e3 e4 e7, h.edges]

theorem IsNfa.removeAccept (h : IsNfa fa m n E acc) {s : Nat} (hs : s < n) :
    ∃ out, faRemoveAccept fa s = some out ∧ IsNfa out m n E (acc.set s (-1)) ∧ ∀ s d, out.cell s d = fa.cell s d := by
  obtain ⟨out, e1, e2, e3, e4, e5, e6, e7⟩ := faRemoveAccept_spec h.table (by rw [h.n]; exact hs)
  refine ⟨out, e1, ⟨e2, by rw [e3, h.nsym], by rw [e4, h.det], by rw [e5, h.n], ?_, by rw [e6, h.acc]⟩, e7⟩
  intro s x t
  rw [edge_congr e3 e4 e7, h.edges]

end

end OmegaH
