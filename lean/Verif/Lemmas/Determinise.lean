import Verif.Props.C26
import Verif.Spec.Determinise
import Mathlib.Data.Finset.Powerset
import Mathlib.Data.Finset.Sort

/-! # Closures under empty symbols and the construction of sets of states -/

namespace OmegaH

open Spec

theorem sorted_length_le {n : Nat} {l : List Nat} (h : l.Pairwise (· < ·)) (hb : ∀ x ∈ l, x < n) : l.length ≤ n := by
  have h1 : l.Nodup := h.imp (fun h => Nat.ne_of_lt h)
  have h2 : l ⊆ List.range n := fun x hx => List.mem_range.2 (hb x hx)
  have := (List.subperm_of_subset h1 h2).length_le
  rwa [List.length_range] at this

theorem setInsert_length {x : Nat} {l : List Nat} (h : x ∉ l) : (setInsert x l).length = l.length + 1 := by
  induction l with
  | nil => rfl
  | cons a l ih =>
    unfold setInsert
    split
    · rfl
    · split
      · rename_i h1 h2; subst h2; exact absurd List.mem_cons_self h
      · simp only [List.length_cons]
        rw [ih (fun h' => h (List.mem_cons_of_mem _ h'))]

theorem mem_eq_of_sorted {l l' : List Nat} (h : l.Pairwise (· < ·)) (h' : l'.Pairwise (· < ·)) (hm : ∀ x, x ∈ l ↔ x ∈ l') : l = l' := by
  refine List.Perm.eq_of_pairwise (le := (· < ·)) (fun a b _ _ h1 h2 => absurd h1 (Nat.not_lt.2 (Nat.le_of_lt h2))) h h' ?_
  exact (List.perm_ext_iff_of_nodup (h.imp (fun h => Nat.ne_of_lt h)) (h'.imp (fun h => Nat.ne_of_lt h))).2 hm

/-- Sets of states: ascending lists below the number of states. -/
def StateSet (n : Nat) (l : List Nat) : Prop := l.Pairwise (· < ·) ∧ ∀ x ∈ l, x < n

theorem StateSet.insert {n x : Nat} {l : List Nat} (h : StateSet n l) (hx : x < n) : StateSet n (setInsert x l) := by
  refine ⟨setInsert_sorted h.1, ?_⟩
  intro y hy
  rcases mem_setInsert.1 hy with rfl | hy
  · exact hx
  · exact h.2 y hy

theorem stepSet_spec {fa : FA} (h : FATable fa) {ss : List Nat} (hss : StateSet fa.nstates ss) {a : Nat} (ha : a < fa.nsym) :
    ∃ out, stepSet fa ss a = some out ∧ StateSet fa.nstates out ∧ ∀ t, t ∈ out ↔ ∃ s ∈ ss, Edge fa s (some a) t := by
  obtain ⟨out, h1, h2, h3⟩ := foldlM_list (fun (out : List Nat) s => (faStep fa s a).map (fun t => if t ≠ -1 then setInsert t.toNat out else out))
    (fun pre out => StateSet fa.nstates out ∧ ∀ t, t ∈ out ↔ ∃ s ∈ pre, Edge fa s (some a) t) ss [] ⟨⟨List.Pairwise.nil, by simp⟩, by simp⟩ (by
      rintro pre b post hl x ⟨x1, x2⟩
      have hcols : a < fa.ncols := by unfold FA.ncols; omega
      obtain ⟨v, hv⟩ := cell_some h (s := b) (c := a) (hss.2 b (by rw [hl]; simp)) hcols
      refine ⟨_, by unfold faStep; rw [hv]; rfl, ?_⟩
      dsimp only
      by_cases hv1 : v = -1
      · subst hv1
        simp only [ne_eq, not_true_eq_false, if_false]
        refine ⟨x1, ?_⟩
        intro t
        rw [x2]
        constructor
        · rintro ⟨s, hs, he⟩; exact ⟨s, List.mem_append_left _ hs, he⟩
        · rintro ⟨s, hs, he⟩
          rcases List.mem_append.1 hs with hs | hs
          · exact ⟨s, hs, he⟩
          · have := he.2
            rw [List.mem_singleton.1 hs, hv] at this
            have := Option.some.inj this
            omega
      · rw [if_pos hv1]
        obtain ⟨t0, rfl⟩ : ∃ t0 : Nat, v = (t0 : Int) := by
          rcases h.cells _ _ _ hv with e | e
          · exact absurd e hv1
          · exact ⟨v.toNat, by omega⟩
        have ht0 : t0 < fa.nstates := by rcases h.cells _ _ _ hv with e | e <;> omega
        rw [Int.toNat_natCast]
        refine ⟨x1.insert ht0, ?_⟩
        intro t
        rw [mem_setInsert, x2]
        constructor
        · rintro (rfl | ⟨s, hs, he⟩)
          · exact ⟨b, by simp, ha, hv⟩
          · exact ⟨s, List.mem_append_left _ hs, he⟩
        · rintro ⟨s, hs, he⟩
          rcases List.mem_append.1 hs with hs | hs
          · exact Or.inr ⟨s, hs, he⟩
          · have := he.2
            rw [List.mem_singleton.1 hs, hv] at this
            have := Option.some.inj this
            exact Or.inl (by omega))
  exact ⟨out, h1, h2, h3⟩

/-- The states reached by empty symbols. -/
def EpsReach (fa : FA) (ss : List Nat) (t : Nat) : Prop := ∃ s ∈ ss, Walk (Edge fa) s [] t

theorem walk_snoc_eps {E : Nat → Option Nat → Nat → Prop} {s t u : Nat} {w : List Nat} (h : Walk E s w t) (he : E t none u) : Walk E s w u := by
  have := walk_append h (Walk.eps he (Walk.nil u))
  rwa [List.append_nil] at this

/-- The invariant of the loop of the closure. -/
structure ClosureInv (fa : FA) (ss0 q ss : List Nat) : Prop where
  set : StateSet fa.nstates ss
  queue : ∀ x ∈ q, x ∈ ss
  start : ∀ x ∈ ss0, x ∈ ss
  reach : ∀ x ∈ ss, EpsReach fa ss0 x

theorem closureEdge_spec {fa : FA} (h : FATable fa) (hd : fa.det = false) {s c : Nat} (hc : c = fa.nsym ∨ c = fa.nsym + 1) {ss0 q ss : List Nat}
    (hi : ClosureInv fa ss0 q ss) (hs : s ∈ ss) :
    ∃ q' ss', closureEdge fa s c (q, ss) = some (q', ss') ∧ ClosureInv fa ss0 q' ss' ∧ (∀ x ∈ ss, x ∈ ss') ∧ (∀ x ∈ q, x ∈ q') ∧
      (∀ x ∈ ss', x ∉ ss → x ∈ q') ∧ (∀ t : Nat, fa.cell s c = some (t : Int) → t ∈ ss') ∧ q'.length + ss.length = q.length + ss'.length := by
  have hcols : fa.ncols = fa.nsym + 2 := by unfold FA.ncols; rw [hd]; rfl
  obtain ⟨v, hv⟩ := cell_some h (s := s) (c := c) (hi.set.2 s hs) (by omega)
  have hstep : closureEdge fa s c (q, ss) = some (if v = -1 then (q, ss) else if v.toNat ∈ ss then (q, ss) else (q ++ [v.toNat], setInsert v.toNat ss)) := by
    unfold closureEdge faStep; rw [hv]; rfl
  rw [hstep]
  by_cases h1 : v = -1
  · rw [if_pos h1]
    refine ⟨q, ss, rfl, hi, fun _ h => h, fun _ h => h, fun x h1 h2 => absurd h1 h2, ?_, rfl⟩
    intro t ht
    rw [hv] at ht
    have := Option.some.inj ht
    omega
  · rw [if_neg h1]
    obtain ⟨t0, rfl⟩ : ∃ t0 : Nat, v = (t0 : Int) := by
      rcases h.cells _ _ _ hv with e | e
      · exact absurd e h1
      · exact ⟨v.toNat, by omega⟩
    rw [Int.toNat_natCast]
    have ht0 : t0 < fa.nstates := by rcases h.cells _ _ _ hv with e | e <;> omega
    by_cases h2 : t0 ∈ ss
    · rw [if_pos h2]
      refine ⟨q, ss, rfl, hi, fun _ h => h, fun _ h => h, fun x h1 h2 => absurd h1 h2, ?_, rfl⟩
      intro t ht
      rw [hv] at ht
      have := Option.some.inj ht
      rw [show t = t0 by omega]; exact h2
    · rw [if_neg h2]
      refine ⟨q ++ [t0], setInsert t0 ss, rfl, ⟨hi.set.insert ht0, ?_, ?_, ?_⟩, ?_, ?_, ?_, ?_, ?_⟩
      · intro x hx
        rcases List.mem_append.1 hx with hx | hx
        · exact mem_setInsert.2 (Or.inr (hi.queue x hx))
        · exact mem_setInsert.2 (Or.inl (List.mem_singleton.1 hx))
      · intro x hx; exact mem_setInsert.2 (Or.inr (hi.start x hx))
      · intro x hx
        rcases mem_setInsert.1 hx with rfl | hx
        · obtain ⟨r, hr, hw⟩ := hi.reach s hs
          refine ⟨r, hr, walk_snoc_eps hw ⟨hd, ?_⟩⟩
          rcases hc with rfl | rfl
          · exact Or.inl hv
          · exact Or.inr hv
        · exact hi.reach x hx
      · intro x hx; exact mem_setInsert.2 (Or.inr hx)
      · intro x hx; exact List.mem_append_left _ hx
      · intro x hx hn
        rcases mem_setInsert.1 hx with rfl | hx
        · exact List.mem_append_right _ List.mem_cons_self
        · exact absurd hx hn
      · intro t ht
        rw [hv] at ht
        have := Option.some.inj ht
        exact mem_setInsert.2 (Or.inl (by omega))
      · rw [setInsert_length h2]; simp; omega

theorem closureLoop_spec {fa : FA} (h : FATable fa) (hd : fa.det = false) {ss0 : List Nat} (fuel : Nat) :
    ∀ q ss, ClosureInv fa ss0 q ss → (∀ s ∈ ss, s ∉ q → ∀ t, Edge fa s none t → t ∈ ss) → q.length + (fa.nstates - ss.length) ≤ fuel →
      ∃ out, closureLoop fa fuel q ss = some out ∧ ClosureInv fa ss0 [] out ∧ ∀ s ∈ out, ∀ t, Edge fa s none t → t ∈ out := by
  induction fuel with
  | zero =>
    intro q ss hi hc hf
    cases q with
    | nil => exact ⟨ss, rfl, hi, fun s hs t he => hc s hs (by simp) t he⟩
    | cons a q => simp at hf
  | succ fuel ih =>
    intro q ss hi hc hf
    cases q with
    | nil => exact ⟨ss, rfl, hi, fun s hs t he => hc s hs (by simp) t he⟩
    | cons s q =>
      have hs : s ∈ ss := hi.queue s List.mem_cons_self
      have hi' : ClosureInv fa ss0 q ss := ⟨hi.set, fun x hx => hi.queue x (List.mem_cons_of_mem _ hx), hi.start, hi.reach⟩
      obtain ⟨q1, s1, a1, a2, a3, a4, a5, a6, a7⟩ := closureEdge_spec h hd (c := fa.nsym) (Or.inl rfl) hi' hs
      obtain ⟨q2, s2, b1, b2, b3, b4, b5, b6, b7⟩ := closureEdge_spec h hd (c := fa.nsym + 1) (Or.inr rfl) a2 (a3 s hs)
      have hle := sorted_length_le b2.set.1 b2.set.2
      have hle0 := sorted_length_le hi.set.1 hi.set.2
      obtain ⟨out, o1, o2, o3⟩ := ih q2 s2 b2 (by
        intro x hx hnq t he
        by_cases hx1 : x ∈ s1
        · by_cases hx0 : x ∈ ss
          · by_cases hxs : x = s
            · subst hxs
              rcases he.2 with e | e
              · exact b3 t (a6 t e)
              · exact b6 t e
            · refine b3 t (a3 t (hc x hx0 ?_ t he))
              intro hq
              rcases List.mem_cons.1 hq with hq | hq
              · exact hxs hq
              · exact hnq (b4 x (a4 x hq))
          · exact absurd (b4 x (a5 x hx1 hx0)) hnq
        · exact absurd (b5 x hx hx1) hnq) (by
        simp only [List.length_cons] at hf
        omega)
      refine ⟨out, ?_, o2, o3⟩
      show (closureEdge fa s fa.nsym (q, ss)).bind _ = _
      rw [a1, Option.bind_some, b1, Option.bind_some]
      exact o1

/-- The closure is the set of states reached by empty symbols. -/
theorem epsClosure_spec {fa : FA} (h : FATable fa) (hd : fa.det = false) {ss : List Nat} (hs : StateSet fa.nstates ss) :
    ∃ out, epsClosure fa ss = some out ∧ StateSet fa.nstates out ∧ ∀ t, t ∈ out ↔ EpsReach fa ss t := by
  have hle := sorted_length_le hs.1 hs.2
  obtain ⟨out, o1, o2, o3⟩ := closureLoop_spec h hd (ss0 := ss) fa.nstates ss ss
    ⟨hs, fun _ h => h, fun _ h => h, fun x hx => ⟨x, hx, Walk.nil x⟩⟩ (fun s h1 h2 => absurd h1 h2) (by omega)
  refine ⟨out, o1, o2.set, ?_⟩
  intro t
  refine ⟨o2.reach t, ?_⟩
  rintro ⟨s, hs, hw⟩
  have key : ∀ (s t : Nat) (w : List Nat), Walk (Edge fa) s w t → w = [] → s ∈ out → t ∈ out := by
    intro s t w hw
    induction hw with
    | nil => exact fun _ h => h
    | sym _ _ _ => intro h; cases h
    | eps e _ ih => intro hn hm; exact ih hn (o3 _ hm _ e)
  exact key s t [] hw rfl (o2.start s hs)

/-- The set of states after a symbol. -/
def NextSet (fa : FA) (ss : List Nat) (a t : Nat) : Prop := ∃ s ∈ ss, ∃ s', Edge fa s (some a) s' ∧ Walk (Edge fa) s' [] t

theorem minAccepted_spec {fa : FA} (h : FATable fa) {ss : List Nat} (hs : StateSet fa.nstates ss) :
    ∃ m, minAccepted fa ss = some m ∧ -1 ≤ m ∧ (m = -1 → ∀ s ∈ ss, fa.accepted[s]? = some (-1)) ∧
      (m ≠ -1 → (∃ s ∈ ss, fa.accepted[s]? = some m) ∧ ∀ s ∈ ss, ∀ t, fa.accepted[s]? = some t → t ≠ -1 → m ≤ t) := by
  obtain ⟨m, h1, h2, h3, h4⟩ := foldlM_list
    (fun (m : Int) s => (faAccepts fa s).map (fun token => if token = -1 then m else if m = -1 ∨ token < m then token else m))
    (fun pre m => -1 ≤ m ∧ (m = -1 → ∀ s ∈ pre, fa.accepted[s]? = some (-1)) ∧
      (m ≠ -1 → (∃ s ∈ pre, fa.accepted[s]? = some m) ∧ ∀ s ∈ pre, ∀ t, fa.accepted[s]? = some t → t ≠ -1 → m ≤ t))
    ss (-1) ⟨by omega, by simp, by simp⟩ (by
      rintro pre b post hl m ⟨x1, x2, x3⟩
      have hb : b < fa.accepted.length := by rw [h.acc]; exact hs.2 b (by rw [hl]; simp)
      obtain ⟨tok, htok⟩ : ∃ tok, fa.accepted[b]? = some tok := ⟨_, List.getElem?_eq_getElem hb⟩
      have hge := h.toks b tok htok
      refine ⟨_, by unfold faAccepts; rw [htok]; rfl, ?_⟩
      dsimp only
      by_cases e1 : tok = -1
      · rw [if_pos e1]
        refine ⟨x1, ?_, ?_⟩
        · intro hm s hs
          rcases List.mem_append.1 hs with hs | hs
          · exact x2 hm s hs
          · rw [List.mem_singleton.1 hs, htok, e1]
        · intro hm
          obtain ⟨⟨s, y1, y2⟩, y3⟩ := x3 hm
          refine ⟨⟨s, List.mem_append_left _ y1, y2⟩, ?_⟩
          intro s hs t ht htn
          rcases List.mem_append.1 hs with hs | hs
          · exact y3 s hs t ht htn
          · rw [List.mem_singleton.1 hs, htok] at ht
            exact absurd ((Option.some.inj ht).symm.trans e1) htn
      · rw [if_neg e1]
        by_cases e2 : m = -1 ∨ tok < m
        · rw [if_pos e2]
          refine ⟨hge, fun e => absurd e e1, fun _ => ⟨⟨b, by simp, htok⟩, ?_⟩⟩
          intro s hs t ht htn
          rcases List.mem_append.1 hs with hs | hs
          · by_cases hm : m = -1
            · rw [x2 hm s hs] at ht
              exact absurd (Option.some.inj ht).symm htn
            · have := (x3 hm).2 s hs t ht htn
              omega
          · rw [List.mem_singleton.1 hs, htok] at ht
            exact Int.le_of_eq (Option.some.inj ht)
        · rw [if_neg e2]
          have hm : m ≠ -1 := fun e => e2 (Or.inl e)
          refine ⟨x1, fun e => absurd e hm, fun _ => ?_⟩
          obtain ⟨⟨s, y1, y2⟩, y3⟩ := x3 hm
          refine ⟨⟨s, List.mem_append_left _ y1, y2⟩, ?_⟩
          intro s hs t ht htn
          rcases List.mem_append.1 hs with hs | hs
          · exact y3 s hs t ht htn
          · rw [List.mem_singleton.1 hs, htok] at ht
            have := Option.some.inj ht
            omega)
  exact ⟨m, h1, h2, h3, h4⟩

end OmegaH
