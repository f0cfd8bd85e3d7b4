import Verif.Props.C30
import Verif.Spec.Indent
import Mathlib.Data.List.TakeWhile

/-!
# C31: indentation tokens are balanced
-/

namespace OmegaH

open Spec

theorem lineStart_iff {text ind : List Nat} : afterNewline text = some ind ↔ LineStart text ind := by
  unfold afterNewline LineStart
  constructor
  · intro h
    split at h
    · rename_i hm
      cases h
      have hd : text.reverse.dropWhile (fun c => decide (c ≠ 10)) ≠ [] := by
        intro hn
        have := List.takeWhile_append_dropWhile (p := fun c => decide (c ≠ 10)) (l := text.reverse)
        rw [hn, List.append_nil] at this
        have h10 : (10 : Nat) ∈ text.reverse.takeWhile (fun c => decide (c ≠ 10)) := by rw [this]; simpa using hm
        have := List.mem_takeWhile_imp h10
        simp at this
      have hsplit := List.takeWhile_append_dropWhile (p := fun c => decide (c ≠ 10)) (l := text.reverse)
      obtain ⟨x, xs, hx⟩ := List.exists_cons_of_ne_nil hd
      have hx10 : x = 10 := by
        have := List.head_dropWhile_not (fun c => decide (c ≠ 10)) hd
        simp only [hx, List.head_cons] at this
        simpa using this
      subst hx10
      refine ⟨xs.reverse, ?_, ?_⟩
      · rw [hx] at hsplit
        have := congrArg List.reverse hsplit
        simp only [List.reverse_append, List.reverse_cons, List.reverse_reverse] at this
        conv_lhs => rw [← this]
        rw [List.append_assoc]; rfl
      · intro h10
        have := List.mem_takeWhile_imp (List.mem_reverse.1 h10)
        simp at this
    · cases h
  · rintro ⟨before, rfl, hn⟩
    rw [if_pos (by simp)]
    congr 1
    rw [List.reverse_append, List.reverse_cons, List.append_assoc, List.takeWhile_append_of_pos]
    · simp
    · intro c hc
      simp only [List.mem_reverse] at hc
      simp only [ne_eq, decide_not, Bool.not_eq_eq_eq_not, Bool.not_true, decide_eq_false_iff_not]
      rintro rfl
      exact hn hc

theorem popIndents_spec (m : Nat) (st : List (Nat × Nat)) (hs : (st.map Prod.snd).Pairwise (· > ·)) :
    (popIndents m st).1 = (st.map Prod.snd).countP (fun e => decide (m < e)) ∧ (popIndents m st).2.map Prod.snd = (st.map Prod.snd).filter (fun e => decide (e ≤ m)) := by
  induction st with
  | nil => exact ⟨rfl, rfl⟩
  | cons top rest ih =>
    rw [List.map_cons, List.pairwise_cons] at hs
    obtain ⟨h1, h2⟩ := ih hs.2
    unfold popIndents
    by_cases ht : top.2 ≤ m
    · rw [if_pos ht]
      have hall : ∀ e ∈ rest.map Prod.snd, e ≤ m := fun e he => by have := hs.1 e he; omega
      constructor
      · symm
        rw [List.countP_eq_zero]
        intro e he
        simp only [List.map_cons, List.mem_cons] at he
        rcases he with rfl | he
        · simpa using ht
        · simpa using hall e he
      · symm
        rw [List.filter_eq_self]
        intro e he
        simp only [List.map_cons, List.mem_cons] at he
        rcases he with rfl | he
        · simpa using ht
        · simpa using hall e he
    · rw [if_neg ht]
      constructor
      · rw [List.map_cons, List.countP_cons_of_pos (by simpa using ht), h1]
      · rw [List.map_cons, List.filter_cons_of_neg (by simpa using ht), h2]

theorem widthAt_append {ws : List Nat} {v i : Nat} (h : i < ws.length) : widthAt (ws ++ [v]) i = widthAt ws i := by
  unfold widthAt
  rw [List.getD_eq_getElem?_getD, List.getD_eq_getElem?_getD, List.getElem?_append_left h]

theorem openBlocks_snoc {ws : List Nat} (hne : ws ≠ []) (v : Nat) : openBlocks (ws ++ [v]) = (openBlocks ws).filter (fun i => decide (widthAt ws i ≤ v)) ++
    (if widthAt ws (ws.length - 1) < v then [ws.length] else []) := by
  have hpos : 0 < ws.length := List.length_pos_iff.2 hne
  unfold openBlocks
  rw [List.length_append, List.length_singleton, List.range_succ, List.filter_append, List.filter_filter]
  congr 1
  · refine List.filter_congr fun i hi => ?_
    have hi := List.mem_range.1 hi
    unfold blockOpen
    rw [widthAt_append hi, widthAt_append (by omega), List.drop_append_of_le_length (by omega), List.all_append]
    simp only [List.all_cons, List.all_nil, Bool.and_true]
    rw [Bool.and_comm (decide (widthAt ws i ≤ v)), Bool.and_assoc, Bool.and_assoc, Bool.and_assoc]
  · have hb : blockOpen (ws ++ [v]) ws.length = decide (widthAt ws (ws.length - 1) < v) := by
      have hv : widthAt (ws ++ [v]) ws.length = v := by unfold widthAt; simp
      unfold blockOpen
      rw [widthAt_append (by omega), hv, List.drop_left]
      simp [hpos]
    by_cases h : widthAt ws (ws.length - 1) < v <;> simp [hb, h]

/-- The stack holds the widths of the open blocks. -/
structure IndInv (ws : List Nat) (s : IndentState) : Prop where
  ne : ws ≠ []
  width : widthAt ws (ws.length - 1) = s.text.length
  blocks : s.stack.map Prod.snd = ((openBlocks ws).map (widthAt ws)).reverse
  sorted : (s.stack.map Prod.snd).Pairwise (· > ·)
  below : ∀ e ∈ s.stack.map Prod.snd, e ≤ s.text.length

theorem widths_snoc {ws : List Nat} {v : Nat} {l : List Nat} (h : ∀ i ∈ l, i < ws.length) : l.map (widthAt (ws ++ [v])) = l.map (widthAt ws) :=
  List.map_congr_left fun i hi => widthAt_append (h i hi)

theorem atIndent_spec {info : IndentInfo} {ws : List Nat} {s : IndentState} {ind : List Nat} (hi : IndInv ws s) :
    (∃ s', atIndent info s ind = (blockTokens info ws ind.length, .ok s') ∧ (s.text <+: ind ∨ ind <+: s.text) ∧ IndInv (ws ++ [ind.length]) s' ∧ s'.text = ind) ∨
    (¬ (s.text <+: ind ∨ ind <+: s.text) ∧ atIndent info s ind = ([], indentMismatch s)) := by
  have hlast : widthAt (ws ++ [ind.length]) ((ws ++ [ind.length]).length - 1) = ind.length := by unfold widthAt; simp
  have hsn := openBlocks_snoc hi.ne ind.length
  have hin : ∀ i ∈ openBlocks ws, i < ws.length := fun i h => List.mem_range.1 (List.mem_of_mem_filter h)
  unfold atIndent blockTokens
  rw [hi.width]
  rw [hi.width] at hsn
  rcases Nat.lt_trichotomy s.text.length ind.length with hlt | heq | hgt
  · rw [if_pos hlt, if_pos hlt]
    rw [if_pos hlt] at hsn
    by_cases hp : ind.take s.text.length = s.text
    · rw [if_neg (by simpa using hp)]
      refine Or.inl ⟨_, rfl, Or.inl (List.prefix_iff_eq_take.2 hp.symm), ⟨by simp, hlast, ?_, ?_, ?_⟩, rfl⟩
      · have hall : (openBlocks ws).filter (fun i => decide (widthAt ws i ≤ ind.length)) = openBlocks ws := by
          rw [List.filter_eq_self]
          intro i him
          have : widthAt ws i ∈ s.stack.map Prod.snd := by
            rw [hi.blocks, List.mem_reverse]; exact List.mem_map_of_mem him
          have := hi.below _ this
          simp; omega
        rw [hsn, hall, List.map_append, widths_snoc hin, List.reverse_append]
        simp only [List.map_cons, List.map_nil, List.reverse_cons, List.reverse_nil, List.nil_append, List.singleton_append]
        rw [← hi.blocks]
        congr 1
        unfold widthAt; simp
      · simp only [List.map_cons, List.pairwise_cons]
        exact ⟨fun e he => by have := hi.below e he; omega, hi.sorted⟩
      · intro e he
        simp only [List.map_cons, List.mem_cons] at he
        rcases he with rfl | he
        · exact Nat.le_refl _
        · have := hi.below e he
          dsimp only; omega
    · rw [if_pos hp]
      refine Or.inr ⟨?_, rfl⟩
      rintro (h | h)
      · exact hp (List.prefix_iff_eq_take.1 h).symm
      · have := h.length_le; omega
  · rw [if_neg (show ¬ ind.length > s.text.length by omega), if_neg (show ¬ ind.length < s.text.length by omega), if_neg (show ¬ s.text.length < ind.length by omega)]
    rw [if_neg (by omega), List.append_nil] at hsn
    have hall : ∀ i ∈ openBlocks ws, widthAt ws i ≤ ind.length := by
      intro i him
      have : widthAt ws i ∈ s.stack.map Prod.snd := by
        rw [hi.blocks, List.mem_reverse]; exact List.mem_map_of_mem him
      have := hi.below _ this
      omega
    by_cases hp : ind = s.text
    · rw [if_neg (by simpa using hp)]
      left
      refine ⟨s, ?_, Or.inl (by rw [hp]), ⟨by simp, by rw [hlast]; omega, ?_, hi.sorted, hi.below⟩, hp.symm⟩
      · have : (openBlocks ws).countP (fun i => decide (ind.length < widthAt ws i)) = 0 := by
          rw [List.countP_eq_zero]
          intro i him
          have := hall i him
          simp; omega
        rw [this]; rfl
      · rw [hsn, List.filter_eq_self.2 (by intro i him; simpa using hall i him), widths_snoc hin]
        exact hi.blocks
    · rw [if_pos hp]
      refine Or.inr ⟨?_, rfl⟩
      rintro (h | h)
      · exact hp (h.eq_of_length heq).symm
      · exact hp (h.eq_of_length heq.symm)
  · rw [if_neg (show ¬ ind.length > s.text.length by omega), if_pos hgt, if_neg (show ¬ s.text.length < ind.length by omega)]
    rw [if_neg (by omega), List.append_nil] at hsn
    by_cases hp : s.text.take ind.length = ind
    · rw [if_neg (by simpa using hp)]
      left
      obtain ⟨p1, p2⟩ := popIndents_spec ind.length s.stack hi.sorted
      rw [Nat.min_eq_left (by omega)]
      refine ⟨⟨ind, (popIndents ind.length s.stack).2⟩, ?_, Or.inr (List.prefix_iff_eq_take.2 hp.symm), ⟨by simp, hlast, ?_, ?_, ?_⟩, rfl⟩
      · dsimp only
        rw [p1, hi.blocks, List.countP_reverse, List.countP_map]
        rfl
      · dsimp only
        rw [p2, hi.blocks, hsn, List.filter_reverse, List.filter_map, widths_snoc (fun i h => hin i (List.mem_of_mem_filter h))]
        rfl
      · dsimp only
        rw [p2]; exact hi.sorted.filter _
      · dsimp only
        rw [p2]
        intro e he
        simpa using List.of_mem_filter he
    · rw [if_pos hp]
      refine Or.inr ⟨?_, rfl⟩
      rintro (h | h)
      · have := h.length_le; omega
      · exact hp (List.prefix_iff_eq_take.1 h).symm

theorem deliver_spec {info : IndentInfo} (toks : List (Nat × List Nat)) : ∀ {ws : List Nat} {s : IndentState}, IndInv ws s →
    (∃ s' ws', (deliver info s toks).2 = .ok s' ∧ Consistent info s.text toks ∧ Layout info ws toks (deliver info s toks).1 ws' ∧ IndInv ws' s') ∨
    (¬ Consistent info s.text toks ∧ ∀ s', (deliver info s toks).2 ≠ .ok s') := by
  induction toks with
  | nil =>
    intro ws s hi
    exact Or.inl ⟨s, ws, rfl, .done _, .done _, hi⟩
  | cons tok toks ih =>
    intro ws s hi
    obtain ⟨t, text⟩ := tok
    by_cases ht : t = info.newline
    · subst ht
      cases hl : afterNewline text with
      | none =>
        have h1 : atTokenIndent info s (info.newline, text) = ([], .fail) := by
          simp only [atTokenIndent, ne_eq, not_true, if_false, hl]
        refine Or.inr ⟨?_, ?_⟩
        · intro hc
          cases hc with
          | token h => exact h rfl
          | newline h => rw [lineStart_iff.2 h] at hl; cases hl
        · intro s'
          simp only [deliver, h1]
          simp
      | some ind =>
        have h1 : atTokenIndent info s (info.newline, text) = (info.newline :: (atIndent info s ind).1, (atIndent info s ind).2) := by
          simp only [atTokenIndent, ne_eq, not_true, if_false, hl]
        rcases atIndent_spec (info := info) (ind := ind) hi with ⟨s', a1, a2, a3, a4⟩ | ⟨a1, a2⟩
        · rw [a1] at h1
          have hd : deliver info s ((info.newline, text) :: toks) =
              ((info.newline :: blockTokens info ws ind.length) ++ (deliver info s' toks).1, (deliver info s' toks).2) := by
            simp only [deliver, h1]
          rw [hd]
          rcases ih a3 with ⟨s2, ws2, b1, b2, b3, b4⟩ | ⟨b1, b2⟩
          · rw [a4] at b2
            exact Or.inl ⟨s2, ws2, b1, .newline (lineStart_iff.1 hl) a2 b2, .newline (lineStart_iff.1 hl) b3, b4⟩
          · refine Or.inr ⟨?_, b2⟩
            intro hc
            cases hc with
            | token h => exact h rfl
            | newline h _ hc =>
              rw [lineStart_iff.2 h] at hl; cases hl
              rw [a4] at b1
              exact b1 hc
        · rw [a2] at h1
          refine Or.inr ⟨?_, ?_⟩
          · intro hc
            cases hc with
            | token h => exact h rfl
            | newline h hp _ =>
              rw [lineStart_iff.2 h] at hl; cases hl
              exact a1 hp
          · intro s'
            simp only [deliver, h1]
            unfold indentMismatch
            by_cases he : s.stack = [] <;> simp [he]
    · have h1 : atTokenIndent info s (t, text) = ([t], .ok s) := by simp only [atTokenIndent, ne_eq, ht, not_false_eq_true, if_true]
      have hd : deliver info s ((t, text) :: toks) = ([t] ++ (deliver info s toks).1, (deliver info s toks).2) := by
        simp only [deliver, h1]
      rw [hd]
      rcases ih hi with ⟨s2, ws2, b1, b2, b3, b4⟩ | ⟨b1, b2⟩
      · exact Or.inl ⟨s2, ws2, b1, .token ht b2, .token ht b3, b4⟩
      · refine Or.inr ⟨?_, b2⟩
        intro hc
        cases hc with
        | token _ h => exact b1 h
        | newline => exact ht rfl

theorem start_inv : IndInv [0] ⟨[], []⟩ := ⟨by simp, rfl, rfl, List.Pairwise.nil, by simp⟩

/-- A text is laid out exactly if tabs and spaces are not mixed. -/
theorem C31_consistent {info : IndentInfo} (toks : List (Nat × List Nat)) : (∃ s, (deliver info ⟨[], []⟩ toks).2 = .ok s) ↔ Consistent info [] toks := by
  rcases deliver_spec (info := info) toks start_inv with ⟨s', ws', h1, h2, _⟩ | ⟨h1, h2⟩
  · exact ⟨fun _ => h2, fun _ => ⟨s', h1⟩⟩
  · exact ⟨fun ⟨s, h⟩ => absurd h (h2 s), fun h => absurd h h1⟩

/-- The tokens delivered are the blocks of the text: a block starts at every line indented further than the one before it, and ends before the first line that is
indented less than the line that opened it. -/
theorem C31_layout {info : IndentInfo} {toks : List (Nat × List Nat)} {s : IndentState} (h : (deliver info ⟨[], []⟩ toks).2 = .ok s) :
    ∃ ws, Layout info [0] toks (deliver info ⟨[], []⟩ toks).1 ws ∧ s.stack.length = (openBlocks ws).length ∧ s.text.length = widthAt ws (ws.length - 1) := by
  rcases deliver_spec (info := info) toks start_inv with ⟨s', ws', h1, _, h3, h4⟩ | ⟨_, h2⟩
  · rw [h] at h1; cases h1
    refine ⟨ws', h3, ?_, h4.width.symm⟩
    have := congrArg List.length h4.blocks
    simpa using this
  · exact absurd h (h2 s)

theorem nesting_append {info : IndentInfo} (a : List Nat) : ∀ (d : Nat) (b : List Nat), nesting info d (a ++ b) = (nesting info d a).bind (fun e => nesting info e b) := by
  induction a with
  | nil => intro d b; rfl
  | cons t a ih =>
    intro d b
    simp only [List.cons_append, nesting]
    split
    · exact ih _ _
    · split
      · cases d with
        | zero => rfl
        | succ d => exact ih _ _
      · exact ih _ _

theorem nesting_dedents {info : IndentInfo} (hid : info.indent ≠ info.dedent) (n d : Nat) : nesting info (d + n) (List.replicate n info.dedent) = some d := by
  induction n with
  | zero => rfl
  | succ n ih =>
    rw [List.replicate_succ]
    simp only [nesting]
    rw [if_neg (fun h => hid h.symm), if_pos trivial]
    exact ih

/-- The three tokens differ. -/
structure InfoOk (info : IndentInfo) : Prop where
  id : info.indent ≠ info.dedent
  ni : info.newline ≠ info.indent
  nd : info.newline ≠ info.dedent

theorem popIndents_length (m : Nat) (st : List (Nat × Nat)) : (popIndents m st).2.length + (popIndents m st).1 = st.length := by
  induction st with
  | nil => rfl
  | cons top rest ih =>
    unfold popIndents
    split
    · rfl
    · simp only [List.length_cons]; omega

theorem atIndent_nesting {info : IndentInfo} (ho : InfoOk info) (s : IndentState) (ind : List Nat) :
    ∃ d, nesting info s.stack.length (atIndent info s ind).1 = some d ∧ ∀ s', (atIndent info s ind).2 = .ok s' → d = s'.stack.length := by
  have hmis : ∀ s', indentMismatch s ≠ .ok s' := by
    intro s'
    unfold indentMismatch
    split <;> simp
  unfold atIndent
  split
  · split
    · exact ⟨_, rfl, fun s' h => absurd h (hmis s')⟩
    · refine ⟨s.stack.length + 1, by simp [nesting], ?_⟩
      intro s' h
      cases h
      rfl
  · split
    · split
      · exact ⟨_, rfl, fun s' h => absurd h (hmis s')⟩
      · have hl := popIndents_length (min ind.length s.text.length) s.stack
        refine ⟨_, by dsimp only; rw [← hl]; exact nesting_dedents ho.id _ _, ?_⟩
        intro s' h
        cases h
        rfl
    · split
      · exact ⟨_, rfl, fun s' h => absurd h (hmis s')⟩
      · refine ⟨_, rfl, ?_⟩
        intro s' h
        cases h
        rfl

theorem deliver_nesting {info : IndentInfo} (ho : InfoOk info) (toks : List (Nat × List Nat)) : ∀ (s : IndentState),
    (∀ tok ∈ toks, tok.1 ≠ info.indent ∧ tok.1 ≠ info.dedent) →
    ∃ d, nesting info s.stack.length (deliver info s toks).1 = some d ∧ ∀ s', (deliver info s toks).2 = .ok s' → d = s'.stack.length := by
  induction toks with
  | nil =>
    intro s _
    exact ⟨_, rfl, fun s' h => by cases h; rfl⟩
  | cons tok toks ih =>
    intro s ht
    have hstep : ∃ d, nesting info s.stack.length (atTokenIndent info s tok).1 = some d ∧ ∀ s', (atTokenIndent info s tok).2 = .ok s' → d = s'.stack.length := by
      unfold atTokenIndent
      split
      · obtain ⟨h1, h2⟩ := ht tok (by simp)
        refine ⟨s.stack.length, by simp [nesting, h1, h2], fun s' h => by cases h; rfl⟩
      · split
        · exact ⟨_, rfl, fun s' h => by cases h⟩
        · obtain ⟨d, h1, h2⟩ := atIndent_nesting ho s (by assumption)
          refine ⟨d, ?_, h2⟩
          simp only [nesting]
          rw [if_neg ho.ni, if_neg ho.nd]
          exact h1
    obtain ⟨d, h1, h2⟩ := hstep
    unfold deliver
    split
    · rename_i s' hs'
      obtain ⟨e, i1, i2⟩ := ih s' (fun t h => ht t (List.mem_cons_of_mem _ h))
      refine ⟨e, ?_, i2⟩
      rw [nesting_append, h1, h2 s' hs']
      exact i1
    · rename_i hne
      refine ⟨d, h1, fun s' h => absurd h ?_⟩
      exact fun h => hne s' h

/-- The nesting depth of the delivered tokens never becomes negative, whether the text is read or not, and after the text it is the number of open blocks. -/
theorem C31_nesting {info : IndentInfo} (ho : InfoOk info) {toks : List (Nat × List Nat)} (ht : ∀ tok ∈ toks, tok.1 ≠ info.indent ∧ tok.1 ≠ info.dedent) :
    (∃ d, nesting info 0 (deliver info ⟨[], []⟩ toks).1 = some d) ∧
    ∀ s, (deliver info ⟨[], []⟩ toks).2 = .ok s → ∃ ws, Layout info [0] toks (deliver info ⟨[], []⟩ toks).1 ws ∧
      nesting info 0 (deliver info ⟨[], []⟩ toks).1 = some (openBlocks ws).length := by
  obtain ⟨d, h1, h2⟩ := deliver_nesting ho toks ⟨[], []⟩ ht
  refine ⟨⟨d, h1⟩, fun s hs => ?_⟩
  obtain ⟨ws, l1, l2, _⟩ := C31_layout hs
  refine ⟨ws, l1, ?_⟩
  rw [← l2, ← h2 s hs]
  exact h1

/-- If the last line is not indented, every block is closed. -/
theorem C31_unindented_partial {info : IndentInfo} (ho : InfoOk info) {toks : List (Nat × List Nat)} (ht : ∀ tok ∈ toks, tok.1 ≠ info.indent ∧ tok.1 ≠ info.dedent)
    {s : IndentState} (hs : (deliver info ⟨[], []⟩ toks).2 = .ok s) (hlast : s.text = []) : nesting info 0 (deliver info ⟨[], []⟩ toks).1 = some 0 := by
  obtain ⟨d, h1, h2⟩ := deliver_nesting ho toks ⟨[], []⟩ ht
  rcases deliver_spec (info := info) toks start_inv with ⟨s', ws', g1, _, _, g4⟩ | ⟨_, g2⟩
  · rw [hs] at g1; cases g1
    have h0 : s.stack = [] := by
      cases hst : s.stack with
      | nil => rfl
      | cons a l =>
        exfalso
        have hmem : a.2 ∈ s.stack.map Prod.snd := by rw [hst]; simp
        have hz := g4.below _ hmem
        rw [hlast] at hz
        rw [g4.blocks, List.mem_reverse] at hmem
        obtain ⟨i, hi, hi'⟩ := List.mem_map.1 hmem
        have hb := List.of_mem_filter hi
        unfold blockOpen at hb
        simp only [Bool.and_eq_true, decide_eq_true_eq] at hb
        simp only [List.length_nil] at hz
        omega
    have hd := h2 s hs
    rw [h0] at hd
    rw [hd] at h1
    exact h1
  · exact absurd hs (g2 s)

theorem nesting_shift {info : IndentInfo} (a : List Nat) : ∀ {d e : Nat} (c : Nat), nesting info d a = some e → nesting info (d + c) a = some (e + c) := by
  induction a with
  | nil => intro d e c h; cases h; rfl
  | cons t a ih =>
    intro d e c h
    simp only [nesting] at h ⊢
    split at h
    · rw [if_pos (by assumption), Nat.add_right_comm]; exact ih c h
    · rw [if_neg (by assumption)]
      split at h
      · rw [if_pos (by assumption)]
        cases d with
        | zero => cases h
        | succ d => rw [Nat.add_right_comm]; exact ih c h
      · rw [if_neg (by assumption)]; exact ih c h

/-- In a language whose productions have, each, as many ends of blocks as starts, every text that is read has all its blocks closed. -/
theorem C31_grammar_partial {g : Grammar} {goal : Nat} (ha : Augmented g goal) {info : IndentInfo} (hb : ∀ p ∈ g.prods, nesting info 0 p.2 = some 0)
    (hl : ∀ p ∈ g.prods, p.1 ≠ info.indent ∧ p.1 ≠ info.dedent) {ctx : Nat → Nat → List Nat} {fuel0 fuel : Nat} {states : List LRState} {p : LRParser}
    (hm : g.lr0 fuel0 = .done states) (hp : g.acceptParser ctx states = some p) {toks : List (Nat × List Nat)}
    (ht : ∀ t ∈ (deliver info ⟨[], []⟩ toks).1, t + 1 < g.nterminals) {v : CallTree} {ks : List Nat} (h : readIndented p info fuel toks = .done (v, ks)) :
    nesting info 0 (deliver info ⟨[], []⟩ toks).1 = some 0 := by
  have hpar : p.parse fuel (deliver info ⟨[], []⟩ toks).1 = .done (v, ks) := by
    unfold readIndented at h
    split at h
    · exact h
    · split at h
      · split at h <;> cases h
      · cases h
      · cases h
      · cases h
      · cases h
  have hd := RightDerives.derives (C30_derivation ha hm hp ht hpar).1
  have key : ∀ {a b : List Nat}, Derives g a b → nesting info 0 a = some 0 → nesting info 0 b = some 0 := by
    intro a b hab
    induction hab with
    | refl => exact id
    | step hr _ ih =>
      intro h0
      refine ih ?_
      obtain ⟨x, y, q, hq, rfl, rfl⟩ := hr
      obtain ⟨q1, q2⟩ := hl q hq
      rw [nesting_append] at h0
      obtain ⟨d, d1, d2⟩ := Option.bind_eq_some_iff.1 h0
      simp only [nesting] at d2
      rw [if_neg q1, if_neg q2] at d2
      rw [List.append_assoc, nesting_append, d1, Option.bind_some, nesting_append]
      have := nesting_shift q.2 d (hb q hq)
      rw [Nat.zero_add] at this
      rw [this, Option.bind_some]
      exact d2
  refine key hd ?_
  have hlast := hb _ (List.mem_of_mem_getLast? ha.last)
  exact hlast

/-- newline, start and end of a block, and the end of the text are the terminals 0 to 3; the goal is a newline and the start of a block. -/
def openGrammar : Grammar := ⟨6, 4, [(4, [0, 1]), (5, [4])]⟩

theorem openGrammar_augmented : Augmented openGrammar 4 := by
  refine ⟨⟨by decide, by decide, by decide⟩, by decide, by decide, by decide, ?_⟩
  intro k p hk hp
  match k, hk with
  | 0, hk => cases hk; cases hp
  | 1, hk => rfl
  | k + 2, hk => simp [openGrammar] at hk

def blockInfo : IndentInfo := ⟨1, 2, 0⟩

/-- The end of a text closes no block: in this language a text that ends in an indented line is read although its block is never closed. -/
theorem C31_refuted : ∃ (states : List LRState) (p : LRParser) (toks : List (Nat × List Nat)) (v : CallTree) (ks : List Nat),
    openGrammar.lr0 20 = .done states ∧ openGrammar.acceptParser (fun _ _ => List.range 4) states = some p ∧
    readIndented p blockInfo 10 toks = .done (v, ks) ∧ nesting blockInfo 0 (deliver blockInfo ⟨[], []⟩ toks).1 = some 1 :=
  ⟨_, _, [(0, [10, 32])], _, _, rfl, rfl, rfl, rfl⟩

/-- The goal is a newline, a block that holds a newline, and a newline. -/
def mixedGrammar : Grammar := ⟨6, 4, [(4, [0, 1, 0, 2, 0]), (5, [4])]⟩

/-- A text that mixes tabs and spaces is not always refused with the exception: after a line that is indented by a part of a block's indentation no block is open, and the
check that one is fails. The lines begin with four spaces, two spaces and two tabs. -/
theorem C31_mixed_refuted : ∃ (states : List LRState) (p : LRParser) (toks : List (Nat × List Nat)),
    mixedGrammar.lr0 30 = .done states ∧ mixedGrammar.acceptParser (fun _ _ => List.range 4) states = some p ∧
    readIndented p blockInfo 10 toks = .fail :=
  ⟨_, _, [(0, [10, 32, 32, 32, 32]), (0, [10, 32, 32]), (0, [10, 9, 9])], rfl, rfl, rfl⟩

/-- The goal is an empty nonterminal and a newline. -/
def emptyGrammar : Grammar := ⟨7, 4, [(4, [5, 0]), (5, []), (6, [4])]⟩

/-- In an indentation-sensitive language, reading is undefined if it starts with a reduction of an empty production: there is no symbol yet whose indentation it
could take over. -/
theorem C31_empty_refuted : ∃ (states : List LRState) (p : LRParser), emptyGrammar.lr0 30 = .done states ∧
    emptyGrammar.acceptParser (fun _ _ => [0]) states = some p ∧ (∃ s, p.atToken 10 ⟨[0], [], false, []⟩ 0 = .done s) ∧
    p.atTokenSized 10 (⟨[0], [], false, []⟩, 0) 0 = .ub :=
  ⟨_, _, rfl, rfl, ⟨_, rfl⟩, rfl⟩

/-- The sizes of `symbol_indentation_stack` and of the values differ by what was there before the text: this is the only way to undefined behaviour. -/
theorem C31_sized_partial {p : LRParser} {n : Nat} (hn : 0 < n) (fuel : Nat) : ∀ {s : ParseState} {t : Nat},
    (∀ s', p.atToken fuel s t = .done s' → p.atTokenSized fuel (s, s.values.length + n) t = .done (s', s'.values.length + n)) ∧
    (p.atToken fuel s t ≠ .ub → p.atTokenSized fuel (s, s.values.length + n) t ≠ .ub) := by
  induction fuel with
  | zero => intro s t; exact ⟨fun s' h => (by cases h), fun _ => by simp [LRParser.atTokenSized]⟩
  | succ fuel ih =>
    intro s t
    unfold LRParser.atToken LRParser.atTokenSized
    cases hs : s.stack with
    | nil => exact ⟨fun s' h => (by cases h), fun _ => by simp⟩
    | cons q below =>
      dsimp only
      cases ha : p.action q t with
      | none => exact ⟨fun s' h => (by cases h), fun _ => by simp⟩
      | some a =>
        cases a with
        | none => exact ⟨fun s' h => (by cases h), fun _ => by simp⟩
        | shift nx =>
          refine ⟨fun s' h => ?_, fun _ => by simp⟩
          cases h
          simp only [List.length_cons]
          rw [Nat.add_right_comm]
        | reduce k =>
          dsimp only
          by_cases hk : k + 1 = p.g.prods.length
          · rw [if_pos hk, if_pos hk]
            refine ⟨fun s' h => ?_, fun _ => by simp⟩
            cases h
            rfl
          · rw [if_neg hk, if_neg hk]
            cases hp : p.g.prods[k]? with
            | none =>
              have : p.reduce s k = .fail := by unfold LRParser.reduce; rw [hp]
              rw [this]
              exact ⟨fun s' h => (by cases h), fun _ => by simp⟩
            | some pr =>
              obtain ⟨lhs, rhs⟩ := pr
              dsimp only
              rw [if_neg (by omega)]
              cases hr : p.reduce s k with
              | fail => exact ⟨fun s' h => (by cases h), fun _ => by simp⟩
              | ub => exact ⟨fun s' h => (by cases h), fun h => absurd rfl h⟩
              | ok s1 =>
                dsimp only
                have hl : s.values.length + n + 1 - rhs.length = s1.values.length + n := by
                  unfold LRParser.reduce at hr
                  rw [hp] at hr
                  dsimp only at hr
                  split at hr
                  · cases hr
                  · split at hr
                    · cases hr
                    · split at hr
                      · cases hr
                      · split at hr
                        · cases hr
                        · cases hr
                          simp only [List.length_cons, List.length_drop]
                          omega
                rw [hl]
                exact ih

/-- The hypotheses are met by a text with two nested blocks that are closed by one line: the lines are indented by 0, 2, 4 and 0 characters. -/
example : (deliver blockInfo ⟨[], []⟩ [(7, []), (0, [10, 32, 32]), (7, []), (0, [10, 32, 32, 32, 32]), (7, []), (0, [10])]) =
    ([7, 0, 1, 7, 0, 1, 7, 0, 2, 2], .ok ⟨[], []⟩) := by decide

/-- Every production of this language is balanced, and a text with a block is read. -/
example : (∀ p ∈ mixedGrammar.prods, nesting blockInfo 0 p.2 = some 0) ∧ (∀ p ∈ mixedGrammar.prods, p.1 ≠ blockInfo.indent ∧ p.1 ≠ blockInfo.dedent) ∧
    ∃ (states : List LRState) (p : LRParser) (v : CallTree) (ks : List Nat), mixedGrammar.lr0 30 = .done states ∧
      mixedGrammar.acceptParser (fun _ _ => List.range 4) states = some p ∧
      readIndented p blockInfo 10 [(0, [10, 32, 32, 32, 32]), (0, [10]), (0, [10])] = .done (v, ks) :=
  ⟨by decide, by decide, _, _, _, _, rfl, rfl, rfl⟩

end OmegaH
