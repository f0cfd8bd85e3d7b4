import Verif.Lemmas.LRPath

/-! # Rightmost derivations and runs of the parser -/

namespace OmegaH

open Spec

theorem forest_length {g : Grammar} {ss w : List Nat} {cs : List CallTree} (h : ParseForest g ss w cs) : ss.length = cs.length := by
  induction cs generalizing ss w with
  | nil => cases h; rfl
  | cons c cs ih =>
    cases h with
    | cons h1 h2 => simp [ih h2]

theorem forest_append {g : Grammar} {a b u v : List Nat} {cs ds : List CallTree} (h : ParseForest g a u cs) (h' : ParseForest g b v ds) :
    ParseForest g (a ++ b) (u ++ v) (cs ++ ds) := by
  induction cs generalizing a u with
  | nil => cases h; exact h'
  | cons c cs ih =>
    cases h with
    | cons h1 h2 =>
      rw [List.append_assoc]
      exact .cons h1 (ih h2)

theorem forest_split {g : Grammar} {a b w : List Nat} {cs ds : List CallTree} (h : ParseForest g (a ++ b) w (cs ++ ds)) (hl : a.length = cs.length) :
    ∃ u v, w = u ++ v ∧ ParseForest g a u cs ∧ ParseForest g b v ds := by
  induction cs generalizing a w with
  | nil =>
    obtain rfl : a = [] := by simpa using hl
    exact ⟨[], w, rfl, .nil, h⟩
  | cons c cs ih =>
    cases a with
    | nil => simp at hl
    | cons x a =>
      cases h with
      | cons h1 h2 =>
        obtain ⟨u, v, rfl, i1, i2⟩ := ih h2 (by simpa using hl)
        exact ⟨_ ++ u, v, by rw [List.append_assoc], .cons h1 i1, i2⟩

theorem RightDerives.trans {g : Grammar} {a b c ks ks' : List Nat} (h : RightDerives g a b ks) (h' : RightDerives g b c ks') : RightDerives g a c (ks ++ ks') := by
  induction h with
  | refl => exact h'
  | step h1 h2 _ ih => exact .step h1 h2 (ih h')

theorem Derives.forest {g : Grammar} {a w : List Nat} (h : Derives g a w) (hw : ∀ t ∈ w, t < g.nterminals) : ∃ cs, ParseForest g a w cs := by
  induction h with
  | refl a =>
    induction a with
    | nil => exact ⟨[], .nil⟩
    | cons t a ih =>
      obtain ⟨cs, hcs⟩ := ih (fun x hx => hw x (List.mem_cons_of_mem _ hx))
      exact ⟨_, .cons (.leaf (hw t (by simp))) hcs⟩
  | step hr _ ih =>
    obtain ⟨cs, hcs⟩ := ih hw
    obtain ⟨x, y, ⟨lhs, rhs⟩, hp, rfl, rfl⟩ := hr
    obtain ⟨k, hk⟩ := List.getElem?_of_mem hp
    dsimp only at hcs
    have hl := forest_length hcs
    simp only [List.length_append] at hl
    rw [List.append_assoc, ← List.take_append_drop x.length cs] at hcs
    obtain ⟨u, v, rfl, f1, f2⟩ := forest_split hcs (by simp; omega)
    rw [← List.take_append_drop rhs.length (cs.drop x.length)] at f2
    obtain ⟨u', v', rfl, f3, f4⟩ := forest_split f2 (by simp; omega)
    exact ⟨_, forest_append f1 (.cons (.node hk f3) f4)⟩

theorem forest_terminals {g : Grammar} {ss w : List Nat} {cs : List CallTree} (h : ParseForest g ss w cs) : ∀ t ∈ w, t < g.nterminals := by
  refine ParseForest.rec (motive_1 := fun _ w _ _ => ∀ t ∈ w, t < g.nterminals) (motive_2 := fun _ w _ _ => ∀ t ∈ w, t < g.nterminals) ?_ ?_ ?_ ?_ h
  · intro t ht x hx
    rw [List.mem_singleton.1 hx]; exact ht
  · intro _ _ _ _ _ _ _ ih; exact ih
  · intro x hx; simp at hx
  · intro s ss u v c cs _ _ h1 h2 x hx
    rcases List.mem_append.1 hx with hx | hx
    · exact h1 x hx
    · exact h2 x hx

theorem forest_right {g : Grammar} {ss w : List Nat} {cs : List CallTree} (h : ParseForest g ss w cs) : ∃ ks, ∀ x rest : List Nat, (∀ t ∈ rest, t < g.nterminals) →
    RightDerives g (x ++ ss ++ rest) (x ++ w ++ rest) ks := by
  refine ParseForest.rec (motive_1 := fun s w _ _ => ∃ ks, ∀ x rest : List Nat, (∀ t ∈ rest, t < g.nterminals) →
      RightDerives g (x ++ s :: rest) (x ++ w ++ rest) ks)
    (motive_2 := fun ss w _ _ => ∃ ks, ∀ x rest : List Nat, (∀ t ∈ rest, t < g.nterminals) → RightDerives g (x ++ ss ++ rest) (x ++ w ++ rest) ks) ?_ ?_ ?_ ?_ h
  · intro t _
    exact ⟨[], fun x rest _ => by simpa using RightDerives.refl (x ++ t :: rest)⟩
  · intro k lhs rhs w cs hk _ ⟨ks, ih⟩
    exact ⟨k :: ks, fun x rest hr => .step hk hr (ih x rest hr)⟩
  · exact ⟨[], fun x rest _ => .refl _⟩
  · intro s ss u v c cs _ hf ⟨ks1, ih1⟩ ⟨ks2, ih2⟩
    refine ⟨ks2 ++ ks1, fun x rest hr => ?_⟩
    have h1 := ih2 (x ++ [s]) rest hr
    have h2 := ih1 x (v ++ rest) (by
      intro t ht
      rcases List.mem_append.1 ht with ht | ht
      · exact forest_terminals hf t ht
      · exact hr t ht)
    simp only [List.append_assoc, List.cons_append, List.nil_append] at h1 h2 ⊢
    exact RightDerives.trans h1 h2

/-- Whatever can be derived has a rightmost derivation. -/
theorem Derives.right {g : Grammar} {a w : List Nat} (h : Derives g a w) (hw : ∀ t ∈ w, t < g.nterminals) : ∃ ks, RightDerives g a w ks := by
  obtain ⟨cs, hcs⟩ := Derives.forest h hw
  obtain ⟨ks, hks⟩ := forest_right hcs
  exact ⟨ks, by simpa using hks [] [] (by simp)⟩

theorem RightDerives.derives {g : Grammar} {a b ks : List Nat} (h : RightDerives g a b ks) : Derives g a b := by
  induction h with
  | refl => exact .refl _
  | step h1 _ _ ih => exact .step ⟨_, _, _, List.mem_of_getElem? h1, rfl, rfl⟩ ih

theorem LRPath.reached {states : List LRState} {q : Nat} {ss ys : List Nat} (h : LRPath states (q :: ss) ys) : Reached states ys.reverse q := by
  generalize hl : q :: ss = l at h
  induction h generalizing q ss with
  | base => cases hl; exact .start
  | push hp h1 h2 ih =>
    cases hl
    rw [List.reverse_cons]
    exact .next (ih rfl) h1 h2

/-- After the symbols `x` the machine expects `lhs`. -/
def Expects (g : Grammar) (states : List LRState) (x : List Nat) (lhs : Nat) : Prop :=
  ∃ s ss st c i, LRPath states (s :: ss) x.reverse ∧ states[s]? = some st ∧ c ∈ st.configs ∧ g.afterDot c = some (i, some lhs)

/-- The machine walks through a right-hand side. -/
theorem Expects.walk {g : Grammar} {states : List LRState} (hm : Machine g states) {x : List Nat} {k lhs : Nat} {rhs : List Nat} (h : Expects g states x lhs)
    (hl : g.nterminals ≤ lhs) (hk : g.prods[k]? = some (lhs, rhs)) : ∀ d, d ≤ rhs.length →
    ∃ s ss st c, LRPath states (s :: ss) (x ++ rhs.take d).reverse ∧ states[s]? = some st ∧ c ∈ st.configs ∧ g.configs[c]? = some (k, d) := by
  intro d
  induction d with
  | zero =>
    intro _
    obtain ⟨s, ss, st, c, i, h1, h2, h3, h4⟩ := h
    obtain ⟨st', o1, o2, _⟩ := h1.origin hm
    rw [h2] at o1; cases o1
    obtain ⟨c', hc'⟩ := config_exists hk
    exact ⟨s, ss, st, c', by simpa using h1, h2, o2 c h3 c' ⟨i, lhs, h4, hl, mem_startConfigs.2 ⟨k, _, hc', hk, rfl⟩⟩, hc'⟩
  | succ d ih =>
    intro hd
    obtain ⟨s, ss, st, c, h1, h2, h3, h4⟩ := ih (by omega)
    have hx : rhs[d]? = some rhs[d] := List.getElem?_eq_getElem (by omega)
    obtain ⟨q, st', a1, a2, a3, a4⟩ := h1.advance hm h2 h3 (afterDot_some.2 ⟨d, _, h4, hk, hx⟩)
    refine ⟨q, s :: ss, st', c + 1, ?_, a3, a4, config_next h4 hk (show d < rhs.length by omega)⟩
    have ht : rhs.take (d + 1) = rhs.take d ++ [rhs[d]] := by rw [List.take_add_one, hx]; rfl
    rw [ht, ← List.append_assoc, List.reverse_append]
    exact a2

/-- In a string, the machine expects the last nonterminal where it is. -/
def Viable (g : Grammar) (states : List LRState) (a : List Nat) : Prop :=
  ∀ x w lhs, a = x ++ lhs :: w → (∀ t ∈ w, t < g.nterminals) → g.nterminals ≤ lhs → Expects g states x lhs

theorem Viable.step {g : Grammar} {states : List LRState} (hm : Machine g states) {x w : List Nat} {k lhs : Nat} {rhs : List Nat}
    (h : Viable g states (x ++ lhs :: w)) (hl : g.nterminals ≤ lhs) (hk : g.prods[k]? = some (lhs, rhs)) (hw : ∀ t ∈ w, t < g.nterminals) :
    Viable g states (x ++ rhs ++ w) := by
  intro x' w' lhs' he hw' hl'
  have hex := h x w lhs rfl hw hl
  rw [List.append_assoc] at he
  have second : ∀ c, x' = x ++ c → rhs ++ w = c ++ lhs' :: w' → Expects g states x' lhs' := by
    rintro c rfl hc
    rcases List.append_eq_append_iff.1 hc with ⟨a', rfl, h2⟩ | ⟨c', h1, h2⟩
    · have := hw lhs' (by rw [h2]; simp)
      omega
    · cases c' with
      | nil =>
        have := hw lhs' (by rw [List.nil_append] at h2; rw [← h2]; simp)
        omega
      | cons y c' =>
        cases h2
        subst h1
        obtain ⟨s, ss, st, c0, w1, w2, w3, w4⟩ := hex.walk hm hl hk c.length (by simp)
        rw [List.take_left] at w1
        exact ⟨s, ss, st, c0, k, w1, w2, w3, afterDot_some.2 ⟨_, _, w4, hk, by simp⟩⟩
  rcases List.append_eq_append_iff.1 he with ⟨a, h1, h2⟩ | ⟨a, h1, h2⟩
  · exact second a h1 h2
  · cases a with
    | nil =>
      rw [List.append_nil] at h1
      subst h1
      exact second [] (by simp) (by simpa using h2.symm)
    | cons y a =>
      rw [List.cons_append] at h2
      injection h2 with h3 h4
      subst h3
      obtain ⟨s, ss, st, c, i, e1, e2, e3, e4⟩ := hex
      rw [h1, List.reverse_append, List.reverse_cons, List.append_assoc] at e1
      have hd := e1.drop (n := a.reverse.length) (by simp)
      rw [List.drop_left] at hd
      generalize (s :: ss).drop a.reverse.length = l at hd
      cases hd with
      | push hp p1 p2 =>
        obtain ⟨c', q1, i', q2⟩ := ((hm.symbols p1).2 _).1 ⟨_, p2⟩
        exact ⟨_, _, _, c', i', hp, p1, q1, q2⟩

/-- A string is split after its last nonterminal. -/
theorem split_last (n : Nat) (a : List Nat) : ∃ X w, a = X ++ w ∧ (∀ t ∈ w, t < n) ∧ (X = [] ∨ ∃ x y, X = x ++ [y] ∧ n ≤ y) := by
  induction a using List.reverseRecOn with
  | nil => exact ⟨[], [], rfl, by simp, Or.inl rfl⟩
  | append_singleton a t ih =>
    by_cases ht : t < n
    · obtain ⟨X, w, rfl, h2, h3⟩ := ih
      refine ⟨X, w ++ [t], by simp, ?_, h3⟩
      intro x hx
      rcases List.mem_append.1 hx with hx | hx
      · exact h2 x hx
      · rw [List.mem_singleton.1 hx]; exact ht
    · exact ⟨a ++ [t], [], by simp, by simp, Or.inr ⟨a, t, rfl, by omega⟩⟩

/-- Steps of the parser over the remaining input. -/
inductive PSteps (p : LRParser) : Nat → ParseState → List Nat → ParseState → List Nat → Prop
  | refl (s : ParseState) (u : List Nat) : PSteps p 0 s u s u
  | shift {n : Nat} {s s' : ParseState} {t : Nat} {u u' : List Nat} {q : Int} {below : List Int} {nx : Nat} : s.stack = q :: below →
      p.action q t = some (.shift nx) → PSteps p n ⟨(nx : Int) :: s.stack, .leaf t :: s.values, s.accepted, s.reductions⟩ u s' u' → PSteps p (n + 1) s (t :: u) s' u'
  | reduce {n : Nat} {s s1 s' : ParseState} {t : Nat} {u u' : List Nat} {q : Int} {below : List Int} {k : Nat} : s.stack = q :: below →
      p.action q t = some (.reduce k) → k + 1 ≠ p.g.prods.length → p.reduce s k = .ok s1 → PSteps p n s1 (t :: u) s' u' → PSteps p (n + 1) s (t :: u) s' u'

theorem PSteps.trans {p : LRParser} {n m : Nat} {s s' s'' : ParseState} {u u' u'' : List Nat} (h : PSteps p n s u s' u') (h' : PSteps p m s' u' s'' u'') :
    PSteps p (n + m) s u s'' u'' := by
  induction h with
  | refl => rw [Nat.zero_add]; exact h'
  | shift h1 h2 _ ih => rw [Nat.add_right_comm]; exact .shift h1 h2 (ih h')
  | reduce h1 h2 h3 h4 _ ih => rw [Nat.add_right_comm]; exact .reduce h1 h2 h3 h4 (ih h')

theorem atToken_mono {p : LRParser} {fuel : Nat} : ∀ {s s' : ParseState} {t : Nat}, p.atToken fuel s t = .done s' → ∀ {fuel' : Nat}, fuel ≤ fuel' →
    p.atToken fuel' s t = .done s' := by
  induction fuel with
  | zero => intro s s' t h; cases h
  | succ fuel ih =>
    intro s s' t h fuel' hle
    obtain ⟨f, rfl⟩ : ∃ f, fuel' = f + 1 := ⟨fuel' - 1, by omega⟩
    unfold LRParser.atToken at h ⊢
    split at h
    · cases h
    · rename_i q below hst
      split at h
      · cases h
      · cases h
      · exact h
      · split at h
        · rw [if_pos (by assumption)]; exact h
        · rw [if_neg (by assumption)]
          split at h
          · exact ih h (by omega)
          · cases h
          · cases h

theorem atTokens_mono {p : LRParser} {fuel : Nat} (u : List Nat) : ∀ {s s' : ParseState}, p.atTokens fuel s u = .done s' → ∀ {fuel' : Nat}, fuel ≤ fuel' →
    p.atTokens fuel' s u = .done s' := by
  induction u with
  | nil => intro s s' h _ _; exact h
  | cons t u ih =>
    intro s s' h fuel' hle
    unfold LRParser.atTokens at h ⊢
    cases h1 : p.atToken fuel s t with
    | done s1 =>
      rw [h1] at h
      rw [atToken_mono h1 hle]
      exact ih h hle
    | running => rw [h1] at h; cases h
    | reject => rw [h1] at h; cases h
    | fail => rw [h1] at h; cases h
    | ub => rw [h1] at h; cases h

theorem PSteps.atTokens {p : LRParser} {n m : Nat} {s s' s'' : ParseState} {u u' : List Nat} (h : PSteps p n s u s' u') (hf : p.atTokens m s' u' = .done s'') :
    p.atTokens (n + m) s u = .done s'' := by
  induction h with
  | refl => rw [Nat.zero_add]; exact hf
  | @shift n s s' t u u' q below nx h1 h2 _ ih =>
    have := atTokens_mono _ (ih hf) (show n + m ≤ n + 1 + m by omega)
    unfold LRParser.atTokens
    have h3 : p.atToken (n + 1 + m) s t = .done ⟨(nx : Int) :: s.stack, .leaf t :: s.values, s.accepted, s.reductions⟩ := by
      rw [show n + 1 + m = (n + m) + 1 by omega]
      simp only [LRParser.atToken, h1, h2]
    rw [h3]
    exact this
  | @reduce n s s1 s' t u u' q below k h1 h2 h3 h4 _ ih =>
    have hi := ih hf
    unfold LRParser.atTokens at hi ⊢
    have h5 : p.atToken (n + 1 + m) s t = p.atToken (n + m) s1 t := by
      rw [show n + 1 + m = (n + m) + 1 by omega]
      simp only [LRParser.atToken, h1, h2, if_neg h3, h4]
    rw [h5]
    cases h6 : p.atToken (n + m) s1 t with
    | done s2 =>
      rw [h6] at hi
      exact atTokens_mono _ hi (by omega)
    | running => rw [h6] at hi; cases hi
    | reject => rw [h6] at hi; cases hi
    | fail => rw [h6] at hi; cases hi
    | ub => rw [h6] at hi; cases hi

end OmegaH
