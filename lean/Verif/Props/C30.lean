import Verif.Lemmas.LRRun

/-!
# C30: a successful parse is a derivation of the grammar
-/

namespace OmegaH

open Spec

/-- What holds of the stacks when the tokens `w` have been read, with the symbols `ys` on the stack. -/
structure StackInv (g : Grammar) (states : List LRState) (w : List Nat) (s : ParseState) (ss ys : List Nat) : Prop where
  stack : s.stack = ss.map (fun (n : Nat) => (n : Int))
  path : LRPath states ss ys
  open_ : s.accepted = false
  forest : ParseForest g ys.reverse w s.values.reverse
  derives : ∀ rest : List Nat, (∀ t ∈ rest, t < g.nterminals) → RightDerives g (ys.reverse ++ rest) (w ++ rest) s.reductions

theorem action_nat (p : LRParser) (s t : Nat) : p.action (s : Int) t = entry2 p.terminals s t := by
  unfold LRParser.action entry2
  rw [if_neg (by omega), Int.toNat_natCast]

theorem goto_nat (p : LRParser) {s x : Nat} (h : p.g.nterminals ≤ x) : p.goto (s : Int) x = entry2 p.nonterminals s (x - p.g.nterminals) := by
  unfold LRParser.goto entry2
  rw [if_neg (by omega), Int.toNat_natCast]

theorem reduce_spec {g : Grammar} {goal : Nat} (ha : Augmented g goal) {ctx : Nat → Nat → List Nat} {states : List LRState} (hm : Machine g states) {p : LRParser}
    (hs : TableSound g ctx states p) (hc : TableComplete g ctx states p) {w : List Nat} {s : ParseState} {q k t : Nat} {ss ys : List Nat} (hi : StackInv g states w s (q :: ss) ys)
    (he : entry2 p.terminals q t = some (.reduce k)) (hk : k + 1 ≠ g.prods.length) :
    ∃ s' q' ss' lhs rhs, p.reduce s k = .ok s' ∧ g.prods[k]? = some (lhs, rhs) ∧ (ys.take rhs.length).reverse = rhs ∧ s'.reductions = k :: s.reductions ∧
      StackInv g states w s' (q' :: ss') (lhs :: ys.drop rhs.length) := by
  obtain ⟨_, st, hst, c, hcm, had⟩ := hs.reduce q t k he
  obtain ⟨d, ⟨lhs, rhs⟩, c1, c2, c3⟩ := afterDot_some.1 had
  obtain ⟨p', v1, v2⟩ := config_valid c1
  rw [c2] at v1; cases v1
  have hd : d = rhs.length := by
    have := List.getElem?_eq_none_iff.1 c3
    simp only at this v2; omega
  subst hd
  obtain ⟨i1, i2, s0, ss0, st0, c0, j1, j2, j3, j4⟩ := hi.path.item hm _ hst hcm c1 c2
  rw [List.take_of_length_le (Nat.le_refl _)] at i2
  have hlen := hi.path.length
  have hvl : s.values.length = ys.length := by
    have := forest_length hi.forest
    simpa using this.symm
  have hpath0 := hi.path.drop i1
  rw [j1] at hpath0
  have hlhs : lhs ≠ g.nsymbols - 1 := fun h => hk (ha.only k _ c2 h)
  obtain ⟨nx, hnx⟩ : ∃ nx, (lhs, nx) ∈ st0.shifts := by
    rcases hpath0.lhs hm j2 j3 j4 c2 with h | h
    · exact h
    · exact absurd h.2 hlhs
  have hmem := List.mem_of_getElem? c2
  have hge := (ha.ok.lhs _ hmem).1
  have hgo := hc.goto s0 st0 lhs nx j2 hnx hge
  have hdrop : s.stack.drop rhs.length = (s0 : Int) :: ss0.map (fun (n : Nat) => (n : Int)) := by
    rw [hi.stack, ← List.map_drop, j1]; rfl
  refine ⟨⟨(nx : Int) :: (s0 : Int) :: ss0.map (fun (n : Nat) => (n : Int)),
    .node k (s.values.take rhs.length).reverse :: s.values.drop rhs.length, s.accepted, k :: s.reductions⟩, nx, s0 :: ss0, lhs, rhs, ?_, c2, i2, rfl, ?_⟩
  · unfold LRParser.reduce
    rw [hs.same, c2]
    dsimp only
    rw [if_neg (by omega), if_neg (by rw [hi.stack, List.length_map]; omega), hdrop]
    dsimp only
    rw [goto_nat p (by rw [hs.same]; exact hge), hs.same, hgo]
  · have hsplit : ys.reverse = (ys.drop rhs.length).reverse ++ rhs := by
      conv_lhs => rw [← List.take_append_drop rhs.length ys, List.reverse_append, i2]
    refine ⟨rfl, .push hpath0 j2 hnx, hi.open_, ?_, ?_⟩
    · have hf := hi.forest
      rw [hsplit, ← List.take_append_drop rhs.length s.values, List.reverse_append] at hf
      obtain ⟨u, v, rfl, f1, f2⟩ := forest_split hf (by simp; omega)
      have := forest_append f1 (.cons (.node c2 f2) .nil)
      simpa using this
    · intro rest hrest
      have hd := hi.derives rest hrest
      rw [hsplit] at hd
      have := RightDerives.step (x := (ys.drop rhs.length).reverse) (w := rest) c2 hrest hd
      simpa using this

/-- One token: it is shifted, it is the end terminal and the goal is on the stack, or there is no action for it. -/
theorem atToken_spec {g : Grammar} {goal : Nat} (ha : Augmented g goal) {ctx : Nat → Nat → List Nat} {states : List LRState} (hm : Machine g states) {p : LRParser}
    (hs : TableSound g ctx states p) (hc : TableComplete g ctx states p) {w : List Nat} {t : Nat} (ht : t < g.nterminals) (fuel : Nat) :
    ∀ {s : ParseState} {ss ys : List Nat}, StackInv g states w s ss ys →
    p.atToken fuel s t = .running ∨ p.atToken fuel s t = .reject ∨
    (∃ s' ss' ys', p.atToken fuel s t = .done s' ∧ t + 1 ≠ g.nterminals ∧ StackInv g states (w ++ [t]) s' ss' ys') ∨
    (∃ s' ss', p.atToken fuel s t = .done { s' with accepted := true } ∧ t + 1 = g.nterminals ∧ StackInv g states w s' ss' [goal]) := by
  induction fuel with
  | zero => intro s ss ys _; exact Or.inl rfl
  | succ fuel ih =>
    intro s ss ys hi
    obtain ⟨q, ss', rfl⟩ : ∃ q ss', ss = q :: ss' := by
      cases hi.path with
      | base => exact ⟨_, _, rfl⟩
      | push => exact ⟨_, _, rfl⟩
    obtain ⟨stq, hstq, _⟩ := hi.path.origin hm
    obtain ⟨a, hact⟩ := hc.full q stq t hstq ht
    have hstk : s.stack = (q : Int) :: ss'.map (fun (n : Nat) => (n : Int)) := hi.stack
    simp only [LRParser.atToken, hstk, action_nat, hact]
    cases a with
    | none => exact Or.inr (Or.inl rfl)
    | shift nx =>
      refine Or.inr (Or.inr (Or.inl ?_))
      obtain ⟨_, st, h1, h2⟩ := hs.shift q t nx hact
      refine ⟨_, nx :: q :: ss', t :: ys, rfl, ?_, ⟨by simp, .push hi.path h1 h2, hi.open_, ?_, ?_⟩⟩
      · intro hend
        obtain ⟨c, _, i, had⟩ := ((hm.symbols h1).2 t).1 ⟨nx, h2⟩
        obtain ⟨d, p', _, c2, c3⟩ := afterDot_some.1 had
        refine ha.end_.2 p' (List.mem_of_getElem? c2) ?_
        rw [show g.nterminals - 1 = t by omega]
        exact List.mem_of_getElem? c3
      · have := forest_append hi.forest (.cons (.leaf ht) .nil)
        simpa using this
      · intro rest hrest
        have := hi.derives (t :: rest) (by
          intro x hx
          rcases List.mem_cons.1 hx with rfl | hx
          · exact ht
          · exact hrest x hx)
        simpa using this
    | reduce k =>
      dsimp only
      rw [hs.same]
      by_cases hk : k + 1 = g.prods.length
      · rw [if_pos hk]
        refine Or.inr (Or.inr (Or.inr ?_))
        obtain ⟨hctx, st, h1, c, h2, had⟩ := hs.reduce q t k hact
        have hte : t = g.nterminals - 1 := by
          unfold Grammar.context at hctx
          rw [if_pos hk] at hctx
          simpa using hctx
        have hlast : g.prods[k]? = some (g.nsymbols - 1, [goal]) := by
          have := ha.last
          rw [List.getLast?_eq_getElem?] at this
          rw [show k = g.prods.length - 1 by omega]; exact this
        obtain ⟨d, p', c1, c2, c3⟩ := afterDot_some.1 had
        rw [hlast] at c2; cases c2
        obtain ⟨p', v1, v2⟩ := config_valid c1
        rw [hlast] at v1; cases v1
        have hd : d = 1 := by
          have := List.getElem?_eq_none_iff.1 c3
          simp only [List.length_cons, List.length_nil] at this v2; omega
        subst hd
        obtain ⟨i1, i2, s0, ss0, st0, c0, j1, j2, j3, j4⟩ := hi.path.item hm _ h1 h2 c1 hlast
        have hpath0 := hi.path.drop i1
        rw [j1] at hpath0
        have hys : ys = [goal] := by
          obtain ⟨stx, o1, _, o2⟩ := hpath0.origin hm
          rw [j2] at o1; cases o1
          have hnil : ys.drop 1 = [] := by
            rcases hpath0.lhs hm j2 j3 j4 hlast with ⟨x, hx⟩ | h
            · exfalso
              obtain ⟨c', _, i, had'⟩ := ((hm.symbols j2).2 _).1 ⟨x, hx⟩
              obtain ⟨d', p'', _, e2, e3⟩ := afterDot_some.1 had'
              exact ha.top p'' (List.mem_of_getElem? e2) (List.mem_of_getElem? e3)
            · exact h.1
          rw [← List.take_append_drop 1 ys, hnil, List.append_nil, ← List.reverse_reverse (ys.take 1), i2]; rfl
        subst hys
        exact ⟨s, _, by rw [hstk], by have := ha.end_.1; omega, hi⟩
      · rw [if_neg hk]
        obtain ⟨s', q', ss'', lhs, rhs, r1, _, _, _, r2⟩ := reduce_spec ha hm hs hc hi hact hk
        rw [r1]
        exact ih r2

theorem atTokens_spec {g : Grammar} {goal : Nat} (ha : Augmented g goal) {ctx : Nat → Nat → List Nat} {states : List LRState} (hm : Machine g states) {p : LRParser}
    (hs : TableSound g ctx states p) (hc : TableComplete g ctx states p) (fuel : Nat) (ts : List Nat) :
    ∀ {w : List Nat} {s : ParseState} {ss ys : List Nat}, StackInv g states w s ss ys → (∀ t ∈ ts, t + 1 < g.nterminals) →
    p.atTokens fuel s ts = .running ∨ p.atTokens fuel s ts = .reject ∨
    (∃ s' ss' ys', p.atTokens fuel s ts = .done s' ∧ StackInv g states (w ++ ts) s' ss' ys') := by
  induction ts with
  | nil =>
    intro w s ss ys hi _
    exact Or.inr (Or.inr ⟨s, ss, ys, rfl, by rw [List.append_nil]; exact hi⟩)
  | cons t ts ih =>
    intro w s ss ys hi ht
    have h0 := ht t (by simp)
    unfold LRParser.atTokens
    rcases atToken_spec ha hm hs hc (show t < g.nterminals by omega) fuel hi with h | h | ⟨s', ss', ys', h, _, hi'⟩ | ⟨s', ss', h, he, _⟩
    · rw [h]; exact Or.inl rfl
    · rw [h]; exact Or.inr (Or.inl rfl)
    · rw [h]
      dsimp only
      have := ih hi' (fun x hx => ht x (List.mem_cons_of_mem _ hx))
      simpa using this
    · omega

/-- Reading always ends, if it ends, with the exception or with a value. A value is a parse of the tokens: the productions reduced are, backwards, those of a
rightmost derivation of the tokens from the goal. -/
theorem parse_spec {g : Grammar} {goal : Nat} (ha : Augmented g goal) {ctx : Nat → Nat → List Nat} {states : List LRState} (hm : Machine g states) {p : LRParser}
    (hp : g.acceptParser ctx states = some p) (fuel : Nat) {tokens : List Nat} (ht : ∀ t ∈ tokens, t + 1 < g.nterminals) :
    p.parse fuel tokens = .running ∨ p.parse fuel tokens = .reject ∨
    ∃ v ks, p.parse fuel tokens = .done (v, ks) ∧ RightDerives g [goal] tokens ks ∧ ParseTree g goal tokens v := by
  obtain ⟨hs, hc⟩ := acceptParser_spec hm.sets hp
  have h0 : StackInv g states [] ⟨[0], [], false, []⟩ [0] [] := ⟨rfl, .base, rfl, .nil, fun rest _ => .refl _⟩
  unfold LRParser.parse
  rcases atTokens_spec ha hm hs hc fuel tokens h0 ht with h | h | ⟨s', ss', ys', h, hi⟩
  · rw [h]; exact Or.inl rfl
  · rw [h]; exact Or.inr (Or.inl rfl)
  · rw [h]
    dsimp only
    rw [hs.same]
    have hpos := ha.end_.1
    rcases atToken_spec ha hm hs hc (show g.nterminals - 1 < g.nterminals by omega) fuel hi with h | h | ⟨_, _, _, _, he, _⟩ | ⟨s1, ss1, h, _, hi1⟩
    · rw [h]; exact Or.inl rfl
    · rw [h]; exact Or.inr (Or.inl rfl)
    · omega
    · rw [h]
      dsimp only
      rw [if_pos rfl]
      have hl := forest_length hi1.forest
      have hf := hi1.forest
      have hd := hi1.derives [] (by simp)
      cases hv : s1.values with
      | nil => rw [hv] at hl; simp at hl
      | cons v vs =>
        cases vs with
        | cons => rw [hv] at hl; simp at hl
        | nil =>
          rw [hv] at hf
          refine Or.inr (Or.inr ⟨v, s1.reductions, rfl, ?_, ?_⟩)
          · simpa using hd
          · simp only [List.nil_append, List.reverse_cons, List.reverse_nil] at hf
            cases hf with
            | cons f1 f2 =>
              cases f2
              rw [List.append_nil]
              exact f1

/-- The parser shifts terminals along a path of the machine. -/
theorem shift_many {g : Grammar} {ctx : Nat → Nat → List Nat} {states : List LRState} (hm : Machine g states) {p : LRParser}
    (hs : TableComplete g ctx states p) (r : List Nat) : ∀ {w u : List Nat} {s : ParseState} {ss ss2 ys : List Nat}, StackInv g states w s ss ys →
    LRPath states ss2 (r.reverse ++ ys) → (∀ t ∈ r, t < g.nterminals) →
    ∃ s', PSteps p r.length s (r ++ u) s' u ∧ StackInv g states (w ++ r) s' ss2 (r.reverse ++ ys) ∧ s'.reductions = s.reductions := by
  induction r with
  | nil =>
    intro w u s ss ss2 ys hi h2 _
    cases hi.path.unique hm h2
    exact ⟨s, .refl _ _, by simpa using hi, rfl⟩
  | cons t r ih =>
    intro w u s ss ss2 ys hi h2 ht
    rw [List.reverse_cons, List.append_assoc] at h2
    have hd := h2.drop (n := r.reverse.length) (by simp)
    rw [List.drop_left] at hd
    generalize ss2.drop r.reverse.length = l at hd
    cases hd with
    | @push s0 _ q ss0 _ st hp p1 p2 =>
      cases hi.path.unique hm hp
      have htt := ht t (by simp)
      have hact := hs.shift s0 st t q p1 p2 htt
      have hi' : StackInv g states (w ++ [t]) ⟨(q : Int) :: s.stack, .leaf t :: s.values, s.accepted, s.reductions⟩ (q :: s0 :: ss0) (t :: ys) := by
        refine ⟨by simp [hi.stack], .push hp p1 p2, hi.open_, ?_, ?_⟩
        · have := forest_append hi.forest (.cons (.leaf htt) .nil)
          simpa using this
        · intro rest hrest
          have := hi.derives (t :: rest) (by
            intro x hx
            rcases List.mem_cons.1 hx with rfl | hx
            · exact htt
            · exact hrest x hx)
          simpa using this
      obtain ⟨s', i1, i2, i3⟩ := ih (u := u) hi' h2 (fun x hx => ht x (List.mem_cons_of_mem _ hx))
      refine ⟨s', ?_, by simpa using i2, i3⟩
      exact .shift (q := (s0 : Int)) (below := ss0.map (fun (n : Nat) => (n : Int))) (nx := q) hi.stack (by rw [action_nat]; exact hact) i1

/-- The parser follows a rightmost derivation backwards. -/
theorem follow {g : Grammar} {goal : Nat} (ha : Augmented g goal) {ctx : Nat → Nat → List Nat} {states : List LRState} (hm : Machine g states) {p : LRParser}
    (hs : TableSound g ctx states p) (hc : TableComplete g ctx states p) (hctx : LookAheadsCover g goal states ctx) {tokens : List Nat}
    (ht : ∀ t ∈ tokens, t < g.nterminals) {a ks : List Nat} (h : RightDerives g a tokens ks) :
    (∃ ks0, RightDerives g [goal] a ks0) → Viable g states a → g.nsymbols - 1 ∉ a → ∀ X w, a = X ++ w → (∀ t ∈ w, t < g.nterminals) →
    (X = [] ∨ ∃ x y, X = x ++ [y] ∧ g.nterminals ≤ y) →
    ∃ n s ss w0, PSteps p n ⟨[0], [], false, []⟩ (tokens ++ [g.nterminals - 1]) s (w ++ [g.nterminals - 1]) ∧
      StackInv g states w0 s ss X.reverse ∧ s.reductions = ks := by
  generalize hb : tokens = b at h
  induction h with
  | refl a =>
    subst hb
    intro _ _ _ X w he hw hX
    rcases hX with rfl | ⟨x, y, rfl, hy⟩
    · rw [List.nil_append] at he
      subst he
      exact ⟨0, _, [0], [], .refl _ _, ⟨rfl, .base, rfl, .nil, fun rest _ => .refl _⟩, rfl⟩
    · have := ht y (by rw [he]; simp)
      omega
  | @step x w b k lhs rhs ks hk hw hr ih =>
    intro ⟨ks0, h0⟩ hv htop X w0 he hw0 hX
    have hmem := List.mem_of_getElem? hk
    have hge := (ha.ok.lhs _ hmem).1
    dsimp only at hge
    have hXx : X = x ++ [lhs] ∧ w0 = w := by
      rcases List.append_eq_append_iff.1 he with ⟨a', h1, h2⟩ | ⟨c', h1, h2⟩
      · cases a' with
        | nil =>
          have := hw0 lhs (by rw [List.nil_append] at h2; rw [← h2]; simp)
          omega
        | cons y a' =>
          rw [List.cons_append] at h2
          injection h2 with h3 h4
          subst h3
          rcases hX with rfl | ⟨x', y', rfl, hy⟩
          · simp at h1
          · rcases List.eq_nil_or_concat a' with rfl | ⟨a'', z, rfl⟩
            · exact ⟨h1, h4.symm⟩
            · exfalso
              rw [List.concat_eq_append, ← List.cons_append, ← List.append_assoc] at h1
              have hz := (List.append_inj' h1 rfl).2
              injection hz with hz
              have := hw z (by rw [h4]; simp)
              omega
      · have := hw0 lhs (by rw [h2]; simp)
        omega
    obtain ⟨rfl, rfl⟩ := hXx
    have hv' := hv.step hm hge hk hw
    have h0' : RightDerives g [goal] (x ++ rhs ++ w0) (ks0 ++ [k]) := RightDerives.trans h0 (.step hk hw (.refl _))
    have htop' : g.nsymbols - 1 ∉ x ++ rhs ++ w0 := by
      intro hm'
      simp only [List.mem_append, List.mem_cons] at hm' htop
      rcases hm' with (hm' | hm') | hm'
      · exact htop (Or.inl hm')
      · exact ha.top _ hmem hm'
      · exact htop (Or.inr (Or.inr hm'))
    obtain ⟨X', w', hsplit, hwt, hX'⟩ := split_last g.nterminals (x ++ rhs ++ w0)
    obtain ⟨n, s, ss, wr, r1, r2, r3⟩ := ih hb ⟨_, h0'⟩ hv' htop' X' w' hsplit hwt hX'
    -- what is still to be shifted of the right-hand side
    obtain ⟨r, hr1, hr2⟩ : ∃ r, x ++ rhs = X' ++ r ∧ w' = r ++ w0 := by
      rcases List.append_eq_append_iff.1 hsplit with ⟨c, h1, h2⟩ | ⟨c, h1, h2⟩
      · rcases hX' with rfl | ⟨x', y', rfl, hy⟩
        · obtain ⟨h3, rfl⟩ := List.append_eq_nil_iff.1 h1.symm
          exact ⟨[], by rw [h3]; rfl, by simpa using h2.symm⟩
        · rcases List.eq_nil_or_concat c with rfl | ⟨c', z, rfl⟩
          · exact ⟨[], by simpa using h1.symm, by simpa using h2.symm⟩
          · exfalso
            rw [List.concat_eq_append, ← List.append_assoc] at h1
            have hz := (List.append_inj' h1 rfl).2
            injection hz with hz
            have := hw z (by rw [h2]; simp)
            omega
      · exact ⟨c, h1, h2⟩
    obtain ⟨q, ssq, st, c, w1, w2, w3, w4⟩ := (hv x w0 lhs rfl hw hge).walk hm hge hk rhs.length (Nat.le_refl _)
    rw [List.take_of_length_le (Nat.le_refl _), hr1, List.reverse_append] at w1
    subst hr2
    obtain ⟨s1, t1, t2, t3⟩ := shift_many hm hc r (u := w0 ++ [g.nterminals - 1]) r2 w1 (fun t ht => hwt t (by simp [ht]))
    have hkl : k + 1 ≠ g.prods.length := by
      intro hkl
      have hl := ha.last
      rw [List.getLast?_eq_getElem?, show g.prods.length - 1 = k by omega, hk] at hl
      injection hl with hl
      injection hl with hl _
      exact htop (by rw [← hl]; simp)
    -- the reduction
    have hreach := w1.reached
    rw [← List.reverse_append, List.reverse_reverse, ← hr1] at hreach
    have hla := hctx x w0 k lhs rhs ks0 q h0 hw hk hreach
    have had : g.afterDot c = some (k, none) := afterDot_some.2 ⟨rhs.length, _, w4, hk, by simp⟩
    have hcell := hc.reduce q st c k ((w0 ++ [g.nterminals - 1]).head (by simp)) w2 w3 had (by
      unfold Grammar.context
      rw [if_neg hkl]; exact hla)
    obtain ⟨s2, q2, ss2, lhs', rhs', d1, d2, d3, d4, d5⟩ := reduce_spec ha hm hs hc t2 hcell hkl
    rw [hk] at d2; cases d2
    refine ⟨n + r.length + 1, s2, q2 :: ss2, wr ++ r, ?_, ?_, by rw [d4, t3, r3]⟩
    · rw [List.append_assoc] at r1
      refine (r1.trans t1).trans ?_
      obtain ⟨t, u, htu⟩ : ∃ t u, w0 ++ [g.nterminals - 1] = t :: u := List.exists_cons_of_ne_nil (by simp)
      rw [show (w0 ++ [g.nterminals - 1]).head (by simp) = t by simp [htu]] at hcell
      rw [htu]
      exact .reduce (q := (q : Int)) (below := ssq.map (fun (n : Nat) => (n : Int))) (k := k) t2.stack (by rw [action_nat]; exact hcell)
        (by rw [hs.same]; exact hkl) d1 (.refl _ _)
    · have hys : (r.reverse ++ X'.reverse).drop rhs.length = x.reverse := by
        rw [← List.reverse_append, ← hr1, List.reverse_append, ← List.length_reverse, List.drop_left]
      rw [hys] at d5
      simpa using d5

theorem atTokens_append {p : LRParser} {fuel : Nat} (u : List Nat) : ∀ {v : List Nat} {s : ParseState}, p.atTokens fuel s (u ++ v) =
    match p.atTokens fuel s u with
    | .done s' => p.atTokens fuel s' v
    | .running => .running
    | .reject => .reject
    | .fail => .fail
    | .ub => .ub := by
  induction u with
  | nil => intro v s; rfl
  | cons t u ih =>
    intro v s
    simp only [List.cons_append, LRParser.atTokens]
    cases p.atToken fuel s t with
    | done s' => exact ih
    | _ => rfl

/-- Every derivation is found. -/
theorem parse_complete {g : Grammar} {goal : Nat} (ha : Augmented g goal) {ctx : Nat → Nat → List Nat} {states : List LRState} (hm : Machine g states) {p : LRParser}
    (hp : g.acceptParser ctx states = some p) (hctx : LookAheadsCover g goal states ctx) {tokens : List Nat} (ht : ∀ t ∈ tokens, t + 1 < g.nterminals) {ks : List Nat}
    (h : RightDerives g [goal] tokens ks) : ∃ n, ∀ fuel, n ≤ fuel → ∃ v, p.parse fuel tokens = .done (v, ks) := by
  obtain ⟨hs, hc⟩ := acceptParser_spec hm.sets hp
  have hpos := ha.end_.1
  have hlast : g.prods[g.prods.length - 1]? = some (g.nsymbols - 1, [goal]) := by
    have := ha.last
    rwa [List.getLast?_eq_getElem?] at this
  have hlen : 0 < g.prods.length := by
    have := (List.getElem?_eq_some_iff.1 hlast).1
    omega
  have htop : g.nsymbols - 1 ∉ [goal] := ha.top _ (List.mem_of_getElem? hlast)
  -- the machine at the start
  obtain ⟨c0, st0, a1, a2, a3⟩ := hm.start
  obtain ⟨k0, p0, b1, b2, b3⟩ := mem_startConfigs.1 (List.mem_of_mem_head? a1)
  have hk0 := ha.only k0 p0 b2 b3
  obtain rfl : k0 = g.prods.length - 1 := by omega
  rw [hlast] at b2; cases b2
  have hc0 : c0 ∈ st0.configs := by
    obtain ⟨out, o1, _, o2, _⟩ := close_spec (g := g) (kernel := [c0]) (by simp) (by simpa using (List.getElem?_eq_some_iff.1 b1).1)
    rw [a3] at o1; cases o1
    exact o2 c0 (by simp)
  have had : g.afterDot c0 = some (g.prods.length - 1, some goal) := afterDot_some.2 ⟨0, _, b1, hlast, rfl⟩
  have hend : ∀ s ss w0, StackInv g states w0 s ss [goal] → p.atTokens 1 s [g.nterminals - 1] = .done { s with accepted := true } := by
    intro s ss w0 hi
    obtain ⟨q, st', _, x2, x3, x4⟩ := LRPath.base.advance hm a2 hc0 had
    cases hi.path.unique hm x2
    have hd1 : g.afterDot (c0 + 1) = some (g.prods.length - 1, none) := afterDot_some.2 ⟨1, _, config_next b1 hlast (by simp), hlast, rfl⟩
    have hcell := hc.reduce q st' (c0 + 1) (g.prods.length - 1) (g.nterminals - 1) x3 x4 hd1 (by
      unfold Grammar.context
      rw [if_pos (by omega)]; simp)
    have hstk : s.stack = (q : Int) :: [(0 : Int)] := by rw [hi.stack]; rfl
    simp only [LRParser.atTokens, LRParser.atToken, hstk, action_nat, hcell, hs.same]
    rw [if_pos (by omega)]
  have key : ∃ n s ss w0, PSteps p n ⟨[0], [], false, []⟩ (tokens ++ [g.nterminals - 1]) s [g.nterminals - 1] ∧ StackInv g states w0 s ss [goal] ∧ s.reductions = ks := by
    by_cases hgoal : g.nterminals ≤ goal
    · have hv : Viable g states [goal] := by
        intro x w lhs he _ _
        cases x with
        | nil =>
          cases he
          exact ⟨0, [], st0, c0, _, .base, a2, hc0, had⟩
        | cons y x => simp at he
      have := follow ha hm hs hc hctx (fun t h => by have := ht t h; omega) h ⟨[], .refl _⟩ hv htop [goal] [] rfl (by simp) (Or.inr ⟨[], goal, rfl, hgoal⟩)
      simpa using this
    · -- the goal is itself a terminal
      have hno : RightDerives g [goal] tokens ks → tokens = [goal] ∧ ks = [] := by
        intro h
        generalize hg : [goal] = l at h
        cases h with
        | refl => exact ⟨rfl, rfl⟩
        | @step x w _ k lhs rhs _ hk _ _ =>
          have := (ha.ok.lhs _ (List.mem_of_getElem? hk)).1
          cases x with
          | nil => cases hg; exact absurd this hgoal
          | cons y x => simp at hg
      obtain ⟨rfl, rfl⟩ := hno h
      obtain ⟨q, st', _, x2, x3, x4⟩ := LRPath.base.advance hm a2 hc0 had
      have h0 : StackInv g states [] ⟨[0], [], false, []⟩ [0] [] := ⟨rfl, .base, rfl, .nil, fun rest _ => .refl _⟩
      obtain ⟨s', y1, y2, y3⟩ := shift_many hm hc [goal] (u := [g.nterminals - 1]) h0 x2 (by simpa using (by omega : goal < g.nterminals))
      exact ⟨_, s', _, _, y1, y2, y3⟩
  obtain ⟨n, s, ss, w0, k1, k2, k3⟩ := key
  refine ⟨n + 1, fun fuel hf => ?_⟩
  have hrun := atTokens_mono _ (k1.atTokens (hend s ss w0 k2)) hf
  rw [atTokens_append] at hrun
  have hvals := forest_length k2.forest
  unfold LRParser.parse
  rw [hs.same]
  cases h1 : p.atTokens fuel ⟨[0], [], false, []⟩ tokens with
  | done s1 =>
    rw [h1] at hrun
    dsimp only at hrun ⊢
    unfold LRParser.atTokens at hrun
    cases h2 : p.atToken fuel s1 (g.nterminals - 1) with
    | done s2 =>
      rw [h2] at hrun
      dsimp only [LRParser.atTokens] at hrun ⊢
      injection hrun with hrun
      subst hrun
      rw [if_pos rfl]
      cases hv : s.values with
      | nil => rw [hv] at hvals; simp at hvals
      | cons v vs =>
        cases vs with
        | cons => rw [hv] at hvals; simp at hvals
        | nil => exact ⟨v, by rw [← k3]⟩
    | running => rw [h2] at hrun; cases hrun
    | reject => rw [h2] at hrun; cases hrun
    | fail => rw [h2] at hrun; cases hrun
    | ub => rw [h2] at hrun; cases hrun
  | running => rw [h1] at hrun; cases hrun
  | reject => rw [h1] at hrun; cases hrun
  | fail => rw [h1] at hrun; cases hrun
  | ub => rw [h1] at hrun; cases hrun

theorem lrLoop_mono {g : Grammar} {fuel : Nat} : ∀ {i : Nat} {states out : List LRState}, g.lrLoop fuel i states = .done out → ∀ {fuel' : Nat}, fuel ≤ fuel' →
    g.lrLoop fuel' i states = .done out := by
  induction fuel with
  | zero =>
    intro i states out h fuel' _
    unfold Grammar.lrLoop at h ⊢
    split at h
    · exact h
    · cases h
  | succ fuel ih =>
    intro i states out h fuel' hle
    obtain ⟨f, rfl⟩ : ∃ f, fuel' = f + 1 := ⟨fuel' - 1, by omega⟩
    unfold Grammar.lrLoop at h ⊢
    split at h
    · exact h
    · dsimp only at h ⊢
      split at h
      · cases h
      · split at h
        · cases h
        · cases h
        · cases h
        · exact ih h (by omega)

theorem Augmented.has {g : Grammar} {goal : Nat} (ha : Augmented g goal) : ∃ p ∈ g.prods, p.1 = g.nsymbols - 1 :=
  ⟨_, List.mem_of_mem_getLast? ha.last, rfl⟩

theorem lr0_machine {g : Grammar} {goal : Nat} (ha : Augmented g goal) {fuel : Nat} {states : List LRState} (h : g.lr0 fuel = .done states) : Machine g states := by
  obtain ⟨out, h1, h2⟩ := lr0_spec (Augmented.has ha) (max fuel (2 ^ g.configs.length)) (Nat.le_max_right _ _)
  suffices hs : g.lr0 (max fuel (2 ^ g.configs.length)) = .done states by
    rw [hs] at h1; cases h1; exact h2
  unfold Grammar.lr0 at h ⊢
  split at h
  · cases h
  · split at h
    · cases h
    · cases h
    · cases h
    · exact lrLoop_mono h (Nat.le_max_left _ _)

/-- The machine of every grammar is built, after no more steps than there are sets of configurations. -/
theorem C30_built {g : Grammar} {goal : Nat} (ha : Augmented g goal) {fuel : Nat} (hf : 2 ^ g.configs.length ≤ fuel) : ∃ states, g.lr0 fuel = .done states := by
  obtain ⟨states, h, _⟩ := lr0_spec (Augmented.has ha) fuel hf
  exact ⟨states, h⟩

/-- Whatever look-ahead sets the tables were built with: if a text is read, the productions reduced are, backwards, those of a rightmost derivation of its tokens
from the goal, and the calls of the callbacks make a parse tree of the tokens. -/
theorem C30_derivation {g : Grammar} {goal : Nat} (ha : Augmented g goal) {ctx : Nat → Nat → List Nat} {fuel0 fuel : Nat} {states : List LRState} {p : LRParser}
    (hl : g.lr0 fuel0 = .done states) (hp : g.acceptParser ctx states = some p) {tokens : List Nat} (ht : ∀ t ∈ tokens, t + 1 < g.nterminals) {v : CallTree}
    {ks : List Nat} (h : p.parse fuel tokens = .done (v, ks)) : RightDerives g [goal] tokens ks ∧ ParseTree g goal tokens v := by
  rcases parse_spec ha (lr0_machine ha hl) hp fuel ht with h' | h' | ⟨v', ks', h', h1, h2⟩
  · rw [h] at h'; cases h'
  · rw [h] at h'; cases h'
  · rw [h] at h'; cases h'
    exact ⟨h1, h2⟩

/-- No check fails and nothing is undefined: a text is read or refused with the exception, or the reductions do not end. -/
theorem C30_safe {g : Grammar} {goal : Nat} (ha : Augmented g goal) {ctx : Nat → Nat → List Nat} {fuel0 fuel : Nat} {states : List LRState} {p : LRParser}
    (hl : g.lr0 fuel0 = .done states) (hp : g.acceptParser ctx states = some p) {tokens : List Nat} (ht : ∀ t ∈ tokens, t + 1 < g.nterminals) :
    p.parse fuel tokens ≠ .fail ∧ p.parse fuel tokens ≠ .ub := by
  rcases parse_spec ha (lr0_machine ha hl) hp fuel ht with h | h | ⟨v', ks', h, _⟩ <;> rw [h] <;> exact ⟨by simp, by simp⟩

/-- With look-ahead sets that miss nothing, a text is read exactly if its tokens can be derived from the goal. -/
theorem C30_language {g : Grammar} {goal : Nat} (ha : Augmented g goal) {ctx : Nat → Nat → List Nat} {fuel0 : Nat} {states : List LRState} {p : LRParser}
    (hl : g.lr0 fuel0 = .done states) (hp : g.acceptParser ctx states = some p) (hctx : LookAheadsCover g goal states ctx) {tokens : List Nat}
    (ht : ∀ t ∈ tokens, t + 1 < g.nterminals) : (∃ fuel v ks, p.parse fuel tokens = .done (v, ks)) ↔ Derives g [goal] tokens := by
  constructor
  · rintro ⟨fuel, v, ks, h⟩
    exact RightDerives.derives (C30_derivation ha hl hp ht h).1
  · intro h
    obtain ⟨ks, hk⟩ := Derives.right h (fun t h => by have := ht t h; omega)
    obtain ⟨n, hn⟩ := parse_complete ha (lr0_machine ha hl) hp hctx ht hk
    obtain ⟨v, hv⟩ := hn n (Nat.le_refl _)
    exact ⟨n, v, ks, hv⟩

/-- And a grammar for which such tables can be built is not ambiguous. -/
theorem C30_unambiguous {g : Grammar} {goal : Nat} (ha : Augmented g goal) {ctx : Nat → Nat → List Nat} {fuel0 : Nat} {states : List LRState} {p : LRParser}
    (hl : g.lr0 fuel0 = .done states) (hp : g.acceptParser ctx states = some p) (hctx : LookAheadsCover g goal states ctx) {tokens : List Nat}
    (ht : ∀ t ∈ tokens, t + 1 < g.nterminals) {ks ks' : List Nat} (h : RightDerives g [goal] tokens ks) (h' : RightDerives g [goal] tokens ks') : ks = ks' := by
  obtain ⟨n, hn⟩ := parse_complete ha (lr0_machine ha hl) hp hctx ht h
  obtain ⟨m, hm⟩ := parse_complete ha (lr0_machine ha hl) hp hctx ht h'
  obtain ⟨v, hv⟩ := hn (max n m) (Nat.le_max_left _ _)
  obtain ⟨v', hv'⟩ := hm (max n m) (Nat.le_max_right _ _)
  rw [hv] at hv'; cases hv'
  rfl

/-- `S → a S b | c`, with the terminals a, b, c and the end, and the last symbol. -/
def nestGrammar : Grammar := ⟨6, 4, [(4, [0, 4, 1]), (4, [2]), (5, [4])]⟩

theorem nestGrammar_augmented : Augmented nestGrammar 4 := by
  refine ⟨⟨by decide, by decide, by decide⟩, by decide, by decide, by decide, ?_⟩
  intro k p hk hp
  match k, hk with
  | 0, hk => cases hk; cases hp
  | 1, hk => cases hk; cases hp
  | 2, hk => rfl
  | k + 3, hk => simp [nestGrammar] at hk

/-- The look-ahead set of all terminals misses nothing. -/
theorem lookAheads_all {g : Grammar} {goal : Nat} {states : List LRState} (h : 0 < g.nterminals) : LookAheadsCover g goal states (fun _ _ => List.range g.nterminals) := by
  intro x w k lhs rhs ks s _ hw _ _
  rw [List.mem_range]
  cases w with
  | nil => simp; omega
  | cons t w => exact hw t (by simp)

/-- The hypotheses are met, and the parser built for `S → a S b | c` reads `a a c b b`, with the reductions `S → c`, `S → a S b` and `S → a S b`. -/
example : ∃ states p v, nestGrammar.lr0 20 = .done states ∧ nestGrammar.acceptParser (fun _ _ => List.range 4) states = some p ∧
    p.parse 10 [0, 0, 2, 1, 1] = .done (v, [0, 0, 1]) := ⟨_, _, _, rfl, rfl, rfl⟩

/-- It refuses `a c`. -/
example : ∃ states p, nestGrammar.lr0 20 = .done states ∧ nestGrammar.acceptParser (fun _ _ => List.range 4) states = some p ∧
    p.parse 10 [0, 2] = .reject := ⟨_, _, rfl, rfl, rfl⟩

end OmegaH
