import Verif.Lemmas.LR

/-! # What the tables hold -/

namespace OmegaH

theorem foldlM_reach {α β : Type} {f : β → α → Option β} (R : β → β → Prop) (hr : ∀ b, R b b) (ht : ∀ a b c, R a b → R b c → R a c) (l : List α) :
    (∀ a ∈ l, ∀ b b', f b a = some b' → R b b') → ∀ b b', l.foldlM f b = some b' → R b b' ∧ ∀ a ∈ l, ∃ b1 b2, R b b1 ∧ f b1 a = some b2 ∧ R b2 b' := by
  induction l with
  | nil =>
    intro _ b b' h
    cases h
    exact ⟨hr _, by simp⟩
  | cons a l ih =>
    intro hstep b b' h
    rw [List.foldlM_cons] at h
    obtain ⟨b1, h1, h2⟩ := Option.bind_eq_some_iff.1 h
    have hR := hstep a (by simp) b b1 h1
    obtain ⟨i1, i2⟩ := ih (fun a ha => hstep a (List.mem_cons_of_mem _ ha)) b1 b' h2
    refine ⟨ht _ _ _ hR i1, ?_⟩
    intro a' ha'
    rcases List.mem_cons.1 ha' with rfl | ha'
    · exact ⟨b, b1, hr _, h1, i1⟩
    · obtain ⟨c, d, h3, h4, h5⟩ := i2 a' ha'
      exact ⟨c, d, ht _ _ _ hR h3, h4, h5⟩

/-- The entry of a table. -/
def entry2 {α : Type} (m : List (List α)) (i j : Nat) : Option α := (m[i]?).bind (fun row => row[j]?)

theorem entry2_set {α : Type} {m : List (List α)} {i j : Nat} {a b : α} (h : entry2 m i j = some a) (i' j' : Nat) :
    entry2 (m.modify i (fun row => row.set j b)) i' j' = if i' = i ∧ j' = j then some b else entry2 m i' j' := by
  obtain ⟨row, h1, h2⟩ := Option.bind_eq_some_iff.1 h
  unfold entry2
  rw [List.getElem?_modify]
  by_cases hi : i = i'
  · subst hi
    rw [h1]
    simp only [if_true, Option.map_eq_map, Option.map_some, Option.bind_some, true_and]
    by_cases hj : j' = j
    · subst hj
      rw [if_pos rfl, List.getElem?_set_self (List.getElem?_eq_some_iff.1 h2).1]
    · rw [if_neg hj, List.getElem?_set_ne (fun h => hj h.symm)]
  · rw [if_neg (fun h => hi h.1.symm)]
    cases m[i']? with
    | none => rfl
    | some r => simp [hi]

theorem addTerminal_spec {p p' : LRParser} {s t : Nat} {a : PAction} (h : p.addTerminal s t a = some p') :
    entry2 p.terminals s t = some .none ∧ p'.g = p.g ∧ p'.nonterminals = p.nonterminals ∧
    ∀ s' t', entry2 p'.terminals s' t' = if s' = s ∧ t' = t then some a else entry2 p.terminals s' t' := by
  unfold LRParser.addTerminal at h
  split at h
  · rename_i he
    have key : some { p with terminals := p.terminals.modify s (fun row => row.set t a) } = some p' := by
      cases a with
      | none => simp at h
      | shift q => by_cases hq : q < p.terminals.length <;> simp_all
      | reduce k => by_cases hq : k < p.g.prods.length <;> simp_all
    cases key
    exact ⟨he, rfl, rfl, fun s' t' => entry2_set he s' t'⟩
  · cases h

theorem addNonterminal_spec {p p' : LRParser} {s n q : Nat} (h : p.addNonterminal s n q = some p') :
    entry2 p.nonterminals s n = some (-1) ∧ p'.g = p.g ∧ p'.terminals = p.terminals ∧
    ∀ s' n', entry2 p'.nonterminals s' n' = if s' = s ∧ n' = n then some (q : Int) else entry2 p.nonterminals s' n' := by
  unfold LRParser.addNonterminal at h
  split at h
  · split at h
    · rename_i he
      cases h
      exact ⟨he, rfl, rfl, fun s' t' => entry2_set he s' t'⟩
    · cases h
  · cases h

/-- Every entry comes from a transition or a reduction of the state. -/
structure TableSound (g : Grammar) (ctx : Nat → Nat → List Nat) (states : List LRState) (p : LRParser) : Prop where
  same : p.g = g
  shift : ∀ s t q, entry2 p.terminals s t = some (.shift q) → t < g.nterminals ∧ ∃ st, states[s]? = some st ∧ (t, q) ∈ st.shifts
  reduce : ∀ s t k, entry2 p.terminals s t = some (.reduce k) → t ∈ g.context ctx s k ∧ ∃ st, states[s]? = some st ∧ ∃ c ∈ st.configs, g.afterDot c = some (k, none)
  goto : ∀ s n v, entry2 p.nonterminals s n = some v → v = -1 ∨ ∃ q : Nat, v = q ∧ ∃ st, states[s]? = some st ∧ (n + g.nterminals, q) ∈ st.shifts

/-- Entries stay, and are sound if they were before. -/
structure TableStep (g : Grammar) (ctx : Nat → Nat → List Nat) (states : List LRState) (p p' : LRParser) : Prop where
  terminals : ∀ s t a, entry2 p.terminals s t = some a → a ≠ .none → entry2 p'.terminals s t = some a
  nonterminals : ∀ s n v, entry2 p.nonterminals s n = some v → v ≠ -1 → entry2 p'.nonterminals s n = some v
  sound : TableSound g ctx states p → TableSound g ctx states p'
  same : p'.g = p.g
  keeps : ∀ s t a, entry2 p.terminals s t = some a → ∃ a', entry2 p'.terminals s t = some a'

theorem TableStep.refl {g : Grammar} {ctx : Nat → Nat → List Nat} {states : List LRState} (p : LRParser) : TableStep g ctx states p p :=
  ⟨fun _ _ _ h _ => h, fun _ _ _ h _ => h, fun h => h, rfl, fun _ _ a h => ⟨a, h⟩⟩

theorem TableStep.trans {g : Grammar} {ctx : Nat → Nat → List Nat} {states : List LRState} {a b c : LRParser} (h : TableStep g ctx states a b)
    (h' : TableStep g ctx states b c) : TableStep g ctx states a c :=
  ⟨fun s t x h1 h2 => h'.terminals s t x (h.terminals s t x h1 h2) h2, fun s t x h1 h2 => h'.nonterminals s t x (h.nonterminals s t x h1 h2) h2,
    fun h1 => h'.sound (h.sound h1), h'.same.trans h.same,
    fun s t a ha => (h.keeps s t a ha).elim (fun a' ha' => h'.keeps s t a' ha')⟩

/-- The same for tables of the grammar. -/
def StepFrom (g : Grammar) (ctx : Nat → Nat → List Nat) (states : List LRState) (p p' : LRParser) : Prop := p.g = g → TableStep g ctx states p p'

theorem StepFrom.refl {g : Grammar} {ctx : Nat → Nat → List Nat} {states : List LRState} (p : LRParser) : StepFrom g ctx states p p := fun _ => TableStep.refl p

theorem StepFrom.trans {g : Grammar} {ctx : Nat → Nat → List Nat} {states : List LRState} {a b c : LRParser} (h : StepFrom g ctx states a b)
    (h' : StepFrom g ctx states b c) : StepFrom g ctx states a c := fun hg => (h hg).trans (h' ((h hg).same.trans hg))

theorem addTerminal_step {g : Grammar} {ctx : Nat → Nat → List Nat} {states : List LRState} {p p' : LRParser} {s t : Nat} {a : PAction}
    (h : p.addTerminal s t a = some p')
    (hs : ∀ q, a = .shift q → t < g.nterminals ∧ ∃ st, states[s]? = some st ∧ (t, q) ∈ st.shifts)
    (hr : ∀ k, a = .reduce k → p.g = g → t ∈ g.context ctx s k ∧ ∃ st, states[s]? = some st ∧ ∃ c ∈ st.configs, g.afterDot c = some (k, none)) :
    TableStep g ctx states p p' ∧ entry2 p'.terminals s t = some a := by
  obtain ⟨h1, h2, h3, h4⟩ := addTerminal_spec h
  refine ⟨⟨?_, ?_, ?_, h2, fun s' t' a' he => by
    rw [h4]
    by_cases hc : s' = s ∧ t' = t
    · exact ⟨a, by rw [if_pos hc]⟩
    · exact ⟨a', by rw [if_neg hc]; exact he⟩⟩, by rw [h4]; simp⟩
  · intro s' t' a' he ha
    rw [h4]
    by_cases hc : s' = s ∧ t' = t
    · obtain ⟨rfl, rfl⟩ := hc
      rw [h1] at he; cases he
      exact absurd rfl ha
    · rw [if_neg hc]; exact he
  · intro s' n v he _
    rw [h3]; exact he
  · intro hS
    refine ⟨h2.trans hS.same, ?_, ?_, ?_⟩
    · intro s' t' q he
      rw [h4] at he
      by_cases hc : s' = s ∧ t' = t
      · obtain ⟨rfl, rfl⟩ := hc
        rw [if_pos ⟨rfl, rfl⟩] at he
        exact hs q (by simpa using he)
      · rw [if_neg hc] at he; exact hS.shift s' t' q he
    · intro s' t' k he
      rw [h4] at he
      by_cases hc : s' = s ∧ t' = t
      · obtain ⟨rfl, rfl⟩ := hc
        rw [if_pos ⟨rfl, rfl⟩] at he
        exact hr k (by simpa using he) hS.same
      · rw [if_neg hc] at he; exact hS.reduce s' t' k he
    · intro s' n v he
      rw [h3] at he
      exact hS.goto s' n v he

theorem addShiftAction_step {g : Grammar} {ctx : Nat → Nat → List Nat} {states : List LRState} {p p' : LRParser} {s x q : Nat} {st : LRState}
    (hg : p.g = g) (hst : states[s]? = some st) (hm : (x, q) ∈ st.shifts) (h : p.addShiftAction s (x, q) = some p') : TableStep g ctx states p p' ∧
      (x < g.nterminals → entry2 p'.terminals s x = some (.shift q)) ∧ (g.nterminals ≤ x → entry2 p'.nonterminals s (x - g.nterminals) = some (q : Int)) := by
  unfold LRParser.addShiftAction at h
  dsimp only at h
  unfold Grammar.isTerminal at h
  rw [hg] at h
  by_cases hx : x < g.nterminals
  · rw [decide_eq_true hx, if_pos rfl] at h
    obtain ⟨h1, h2⟩ := addTerminal_step (ctx := ctx) (g := g) (states := states) h (by rintro q' hq; cases hq; exact ⟨hx, st, hst, hm⟩) (by intro k hk; cases hk)
    exact ⟨h1, fun _ => h2, fun h => by omega⟩
  · rw [decide_eq_false hx, if_neg (by simp)] at h
    obtain ⟨h1, h2, h3, h4⟩ := addNonterminal_spec h
    refine ⟨⟨?_, ?_, ?_, h2, fun s' t' a' he => ⟨a', by rw [h3]; exact he⟩⟩, fun h => absurd h hx, fun _ => by rw [h4]; simp⟩
    · intro s' t a he _
      rw [h3]; exact he
    · intro s' n v he hv
      rw [h4]
      by_cases hc : s' = s ∧ n = x - g.nterminals
      · obtain ⟨rfl, rfl⟩ := hc
        rw [h1] at he; cases he
        exact absurd rfl hv
      · rw [if_neg hc]; exact he
    · intro hS
      refine ⟨h2.trans hS.same, ?_, ?_, ?_⟩
      · intro s' t q' he
        rw [h3] at he; exact hS.shift s' t q' he
      · intro s' t k he
        rw [h3] at he; exact hS.reduce s' t k he
      · intro s' n v he
        rw [h4] at he
        by_cases hc : s' = s ∧ n = x - g.nterminals
        · obtain ⟨rfl, rfl⟩ := hc
          rw [if_pos ⟨rfl, rfl⟩] at he
          cases he
          refine Or.inr ⟨q, rfl, st, hst, ?_⟩
          rw [Nat.sub_add_cancel (by omega)]; exact hm
        · rw [if_neg hc] at he; exact hS.goto s' n v he

theorem addReduceAction_step {g : Grammar} {ctx : Nat → Nat → List Nat} {states : List LRState} {p p' : LRParser} {s k : Nat} {st : LRState}
    (hg : p.g = g) (hst : states[s]? = some st) (hm : ∃ c ∈ st.configs, g.afterDot c = some (k, none))
    (h : p.addReduceAction s k (p.g.context ctx s k) = some p') : TableStep g ctx states p p' ∧
      ∀ t ∈ g.context ctx s k, entry2 p'.terminals s t = some (.reduce k) := by
  unfold LRParser.addReduceAction at h
  rw [hg] at h
  have hstep : ∀ t ∈ g.context ctx s k, ∀ b b' : LRParser, (if b.g.isTerminal t then b.addTerminal s t (.reduce k) else none) = some b' →
      TableStep g ctx states b b' ∧ entry2 b'.terminals s t = some (.reduce k) := by
    intro t ht b b' hb
    split at hb
    · exact addTerminal_step hb (by intro q hq; cases hq) (by rintro k' hk _; cases hk; exact ⟨ht, st, hst, hm⟩)
    · cases hb
  obtain ⟨h1, h2⟩ := foldlM_reach (TableStep g ctx states) TableStep.refl (fun a b c => TableStep.trans) _ (fun a ha b b' hb => (hstep a ha b b' hb).1) p p' h
  refine ⟨h1, fun t ht => ?_⟩
  obtain ⟨b1, b2, h3, h4, h5⟩ := h2 t ht
  exact h5.terminals s t _ (hstep t ht b1 b2 h4).2 (by simp)

/-- Every transition and every reduction of a state has its entries. -/
structure TableComplete (g : Grammar) (ctx : Nat → Nat → List Nat) (states : List LRState) (p : LRParser) : Prop where
  shift : ∀ (s : Nat) st x q, states[s]? = some st → (x, q) ∈ st.shifts → x < g.nterminals → entry2 p.terminals s x = some (.shift q)
  goto : ∀ (s : Nat) st x q, states[s]? = some st → (x, q) ∈ st.shifts → g.nterminals ≤ x → entry2 p.nonterminals s (x - g.nterminals) = some (q : Int)
  reduce : ∀ (s : Nat) st c k t, states[s]? = some st → c ∈ st.configs → g.afterDot c = some (k, none) → t ∈ g.context ctx s k →
    entry2 p.terminals s t = some (.reduce k)
  full : ∀ (s : Nat) st t, states[s]? = some st → t < g.nterminals → ∃ a, entry2 p.terminals s t = some a

theorem addState_step {g : Grammar} {ctx : Nat → Nat → List Nat} {states : List LRState} {p p' : LRParser} {s : Nat} {st : LRState}
    (hg : p.g = g) (hst : states[s]? = some st) (hr : ∀ c ∈ st.configs, c < g.configs.length) (h : p.addState ctx s st = some p') :
    TableStep g ctx states p p' ∧
    (∀ x q, (x, q) ∈ st.shifts → x < g.nterminals → entry2 p'.terminals s x = some (.shift q)) ∧
    (∀ x q, (x, q) ∈ st.shifts → g.nterminals ≤ x → entry2 p'.nonterminals s (x - g.nterminals) = some (q : Int)) ∧
    (∀ c k t, c ∈ st.configs → g.afterDot c = some (k, none) → t ∈ g.context ctx s k → entry2 p'.terminals s t = some (.reduce k)) := by
  unfold LRParser.addState at h
  obtain ⟨p1, h1, h2⟩ := Option.bind_eq_some_iff.1 h
  obtain ⟨ks, h3, h4⟩ := Option.bind_eq_some_iff.1 h2
  obtain ⟨a1, a2⟩ := foldlM_reach (StepFrom g ctx states) StepFrom.refl (fun a b c => StepFrom.trans) _
    (fun xq hxq b b' hb hbg => (addShiftAction_step (x := xq.1) (q := xq.2) hbg hst hxq hb).1) p p1 h1
  have a1 := a1 hg
  have hg1 : p1.g = g := a1.same.trans hg
  rw [hg1] at h3
  obtain ⟨ks', k1, k2⟩ := reductions_spec hr
  rw [h3] at k1; cases k1
  obtain ⟨b1, b2⟩ := foldlM_reach (StepFrom g ctx states) StepFrom.refl (fun a b c => StepFrom.trans) _
    (fun k hk b b' hb hbg => (addReduceAction_step hbg hst ((k2 k).1 hk) hb).1) p1 p' h4
  have b1 := b1 hg1
  refine ⟨a1.trans b1, ?_, ?_, ?_⟩
  · intro x q hm hx
    obtain ⟨c1, c2, c3, c4, c5⟩ := a2 (x, q) hm
    have hc1 := (c3 hg).same.trans hg
    obtain ⟨d1, d2, _⟩ := addShiftAction_step (ctx := ctx) hc1 hst hm c4
    exact b1.terminals s x _ ((c5 (d1.same.trans hc1)).terminals s x _ (d2 hx) (by simp)) (by simp)
  · intro x q hm hx
    obtain ⟨c1, c2, c3, c4, c5⟩ := a2 (x, q) hm
    have hc1 := (c3 hg).same.trans hg
    obtain ⟨d1, _, d2⟩ := addShiftAction_step (ctx := ctx) hc1 hst hm c4
    exact b1.nonterminals s _ _ ((c5 (d1.same.trans hc1)).nonterminals s _ _ (d2 hx) (by omega)) (by omega)
  · intro c k t hc ha ht
    have hk := (k2 k).2 ⟨c, hc, ha⟩
    obtain ⟨c1, c2, c3, c4, c5⟩ := b2 k hk
    have hc1 := (c3 hg1).same.trans hg1
    obtain ⟨d1, d2⟩ := addReduceAction_step hc1 hst ((k2 k).1 hk) c4
    exact (c5 (d1.same.trans hc1)).terminals s t _ (d2 t ht) (by simp)

theorem entry2_replicate {α : Type} {m n i j : Nat} {a b : α} (h : entry2 (List.replicate m (List.replicate n a)) i j = some b) : b = a := by
  unfold entry2 at h
  obtain ⟨row, h1, h2⟩ := Option.bind_eq_some_iff.1 h
  rw [List.eq_of_mem_replicate (List.mem_of_getElem? h1)] at h2
  exact List.eq_of_mem_replicate (List.mem_of_getElem? h2)

/-- If no two actions collide, the tables hold the machine. -/
theorem acceptParser_spec {g : Grammar} {ctx : Nat → Nat → List Nat} {states : List LRState} {p : LRParser}
    (hr : ∀ (s : Nat) st, states[s]? = some st → StateSet g.configs.length st.configs) (h : g.acceptParser ctx states = some p) :
    TableSound g ctx states p ∧ TableComplete g ctx states p := by
  unfold Grammar.acceptParser at h
  have hstep : ∀ i, ∀ b b' : LRParser, (states[i]?).bind (fun s => b.addState ctx i s) = some b' → b.g = g → TableStep g ctx states b b' := by
    intro i b b' hb hbg
    obtain ⟨st, s1, s2⟩ := Option.bind_eq_some_iff.1 hb
    exact (addState_step hbg s1 (hr i st s1).2 s2).1
  obtain ⟨a1, a2⟩ := foldlM_reach (StepFrom g ctx states) StepFrom.refl (fun a b c => StepFrom.trans) _ (fun i _ => hstep i) _ _ h
  have a1 := a1 rfl
  refine ⟨a1.sound ⟨rfl, ?_, ?_, ?_⟩, ?_⟩
  · intro s t q he
    cases entry2_replicate he
  · intro s t q he
    cases entry2_replicate he
  · intro s n v he
    exact Or.inl (entry2_replicate he)
  · have key : ∀ (s : Nat) st, states[s]? = some st → ∃ b1 b2 : LRParser, b1.g = g ∧ b1.addState ctx s st = some b2 ∧ TableStep g ctx states b2 p := by
      intro s st hs
      obtain ⟨b1, b2, c1, c2, c3⟩ := a2 s (List.mem_range.2 (List.getElem?_eq_some_iff.1 hs).1)
      rw [hs, Option.bind_some] at c2
      have hb1 := (c1 rfl).same
      exact ⟨b1, b2, hb1, c2, c3 ((addState_step (ctx := ctx) hb1 hs (hr s st hs).2 c2).1.same.trans hb1)⟩
    refine ⟨?_, ?_, ?_, fun s st t hs ht => a1.keeps s t .none (by
      have := (List.getElem?_eq_some_iff.1 hs).1
      unfold entry2
      simp only [List.getElem?_replicate, if_pos this, Option.bind_some, if_pos ht])⟩
    · intro s st x q hs hm hx
      obtain ⟨b1, b2, c1, c2, c3⟩ := key s st hs
      exact c3.terminals s x _ ((addState_step c1 hs (hr s st hs).2 c2).2.1 x q hm hx) (by simp)
    · intro s st x q hs hm hx
      obtain ⟨b1, b2, c1, c2, c3⟩ := key s st hs
      exact c3.nonterminals s _ _ ((addState_step c1 hs (hr s st hs).2 c2).2.2.1 x q hm hx) (by omega)
    · intro s st c k t hs hc ha ht
      obtain ⟨b1, b2, c1, c2, c3⟩ := key s st hs
      exact c3.terminals s t _ ((addState_step c1 hs (hr s st hs).2 c2).2.2.2 c k t hc ha ht) (by simp)

end OmegaH
