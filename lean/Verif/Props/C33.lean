import Verif.Spec.Xml

/-! # C33: scanning a tag recovers its type, name and attributes -/

namespace OmegaH

open Spec

/-- What a run of characters does to the state. -/
def XmlRun (s : XmlState) (l : FileBytes) (s' : XmlState) : Prop := l.foldlM xmlStep s = some s'

theorem XmlRun.append {s s' s'' : XmlState} {a b : FileBytes} (h : XmlRun s a s') (h' : XmlRun s' b s'') : XmlRun s (a ++ b) s'' := by
  unfold XmlRun at *
  rw [List.foldlM_append, h]
  exact h'

theorem XmlRun.cons {s s' s'' : XmlState} {c : BitVec 8} {b : FileBytes} (h : xmlStep s c = some s') (h' : XmlRun s' b s'') : XmlRun s (c :: b) s'' := by
  unfold XmlRun at *
  rw [List.foldlM_cons, h]
  exact h'

theorem XmlRun.nil (s : XmlState) : XmlRun s [] s := rfl

/-- Blanks that are skipped. -/
theorem run_blanks {s : XmlState} (h : s.state = 0 ∨ s.state = 1 ∨ s.state = 2 ∨ s.state = 4) (n : Nat) : XmlRun s (List.replicate n (ch ' ')) s := by
  induction n with
  | zero => exact XmlRun.nil s
  | succ n ih =>
    rw [List.replicate_succ]
    refine XmlRun.cons ?_ ih
    unfold xmlStep
    rcases h with h | h | h | h <;> rw [h] <;>
      simp [show ch ' ' ≠ ch '<' by decide, show ch ' ' ≠ ch '/' by decide, show ch ' ' ≠ ch '>' by decide]

theorem run_name {s : XmlState} (h : s.state = 3) : ∀ (l : FileBytes), (ch ' ') ∉ l → (ch '/') ∉ l → (ch '>') ∉ l →
    XmlRun s l { s with tag := { s.tag with name := s.tag.name ++ l } } := by
  intro l
  induction l generalizing s with
  | nil => intro _ _ _; simp only [List.append_nil]; exact XmlRun.nil s
  | cons c l ih =>
    intro h1 h2 h3
    simp only [List.mem_cons, not_or] at h1 h2 h3
    refine XmlRun.cons (s' := { s with tag := { s.tag with name := s.tag.name ++ [c] } }) ?_ ?_
    · unfold xmlStep
      rw [h]
      simp only []
      rw [if_neg (fun e => h1.1 e.symm), if_neg (fun e => h2.1 e.symm), if_neg (fun e => h3.1 e.symm)]
    · have := ih (s := { s with tag := { s.tag with name := s.tag.name ++ [c] } }) h h1.2 h2.2 h3.2
      simpa using this

theorem run_attName {s : XmlState} (h : s.state = 5) : ∀ (l : FileBytes), (ch '=') ∉ l → XmlRun s l { s with attNm := s.attNm ++ l } := by
  intro l
  induction l generalizing s with
  | nil => intro _; simp only [List.append_nil]; exact XmlRun.nil s
  | cons c l ih =>
    intro h1
    simp only [List.mem_cons, not_or] at h1
    refine XmlRun.cons (s' := { s with attNm := s.attNm ++ [c] }) ?_ ?_
    · unfold xmlStep
      rw [h]
      simp only []
      rw [if_neg (fun e => h1.1 e.symm)]
    · have := ih (s := { s with attNm := s.attNm ++ [c] }) h h1.2
      simpa using this

theorem run_attVal {s : XmlState} (h : s.state = 7) : ∀ (l : FileBytes), s.quot ∉ l → XmlRun s l { s with attVal := s.attVal ++ l } := by
  intro l
  induction l generalizing s with
  | nil => intro _; simp only [List.append_nil]; exact XmlRun.nil s
  | cons c l ih =>
    intro h1
    simp only [List.mem_cons, not_or] at h1
    refine XmlRun.cons (s' := { s with attVal := s.attVal ++ [c] }) ?_ ?_
    · unfold xmlStep
      rw [h]
      simp only []
      rw [if_neg (fun e => h1.1 e.symm)]
    · have := ih (s := { s with attVal := s.attVal ++ [c] }) h h1.2
      simpa using this

/-- The text of an attribute without the blanks before it. -/
theorem run_attr {s : XmlState} (h : s.state = 4) (hn : s.attNm = []) (hv : s.attVal = []) {a : XmlAttr} (ha : a.Good) :
    XmlRun s (a.name ++ (ch '=') :: a.quot :: (a.value ++ [a.quot]))
      { s with tag := { s.tag with attribs := setAttrib a.name a.value s.tag.attribs }, quot := a.quot } := by
  obtain ⟨c, rest, e, c1, c2, c3, c4⟩ := ha.name
  rw [e, List.cons_append]
  refine XmlRun.cons (s' := { s with state := 5, attNm := [c] }) ?_ ?_
  · unfold xmlStep
    rw [h]
    simp only []
    rw [if_neg c2, if_neg c3, if_pos c1, hn]
    rfl
  refine XmlRun.append (run_attName rfl rest c4) ?_
  refine XmlRun.cons (s' := { s with state := 6, attNm := [c] ++ rest }) ?_ ?_
  · rfl
  refine XmlRun.cons (s' := { s with state := 7, attNm := [c] ++ rest, quot := a.quot }) ?_ ?_
  · unfold xmlStep
    simp only []
    rw [if_pos ha.quot]
  refine XmlRun.append (run_attVal rfl a.value ha.value) ?_
  refine XmlRun.cons ?_ (XmlRun.nil _)
  unfold xmlStep
  simp only []
  rw [if_pos trivial, hv, List.nil_append]
  cases s
  simp only [] at h hn hv
  subst h hn hv
  rfl

theorem setAttrib_find (l : List (FileBytes × FileBytes)) (nm val x : FileBytes) :
    ((setAttrib nm val l).find? (fun a => decide (a.1 = x))).map Prod.snd = if nm = x then some val else (l.find? (fun a => decide (a.1 = x))).map Prod.snd := by
  induction l with
  | nil =>
    unfold setAttrib
    by_cases h : nm = x
    · simp [h]
    · simp [h]
  | cons a l ih =>
    unfold setAttrib
    by_cases h : a.1 = nm
    · rw [if_pos h]
      by_cases hx : nm = x
      · simp [hx]
      · have : a.1 ≠ x := by rw [h]; exact hx
        simp [hx, this]
    · rw [if_neg h]
      by_cases hx : a.1 = x
      · have : nm ≠ x := by rw [← hx]; exact fun e => h e.symm
        simp [hx, this]
      · rw [List.find?_cons_of_neg (by simpa using hx), List.find?_cons_of_neg (by simpa using hx), ih]

/-- The attributes one after the other. -/
theorem run_attrs : ∀ (attrs : List XmlAttr), (∀ a ∈ attrs, a.Good) → ∀ {s : XmlState}, s.state = 4 → s.attNm = [] → s.attVal = [] →
    ∃ q, XmlRun s (attrs.flatMap XmlAttr.text)
      { s with tag := { s.tag with attribs := attrs.foldl (fun m a => setAttrib a.name a.value m) s.tag.attribs }, quot := q } := by
  intro attrs
  induction attrs with
  | nil => intro _ s _ _ _; exact ⟨s.quot, XmlRun.nil s⟩
  | cons a attrs ih =>
    intro hg s h1 h2 h3
    rw [List.flatMap_cons]
    obtain ⟨q, hq⟩ := ih (fun b hb => hg b (List.mem_cons_of_mem _ hb))
      (s := { s with tag := { s.tag with attribs := setAttrib a.name a.value s.tag.attribs }, quot := a.quot }) h1 h2 h3
    refine ⟨q, XmlRun.append (XmlRun.append (run_blanks (Or.inr (Or.inr (Or.inr h1))) a.gap) (run_attr h1 h2 h3 (hg a (by simp)))) ?_⟩
    exact hq

theorem attribs_find (attrs : List XmlAttr) (x : FileBytes) : ∀ (m : List (FileBytes × FileBytes)),
    ((attrs.foldl (fun m a => setAttrib a.name a.value m) m).find? (fun a => decide (a.1 = x))).map Prod.snd =
      match attrValue attrs x with
      | some v => some v
      | none => (m.find? (fun a => decide (a.1 = x))).map Prod.snd := by
  induction attrs with
  | nil => intro m; rfl
  | cons a attrs ih =>
    intro m
    rw [List.foldl_cons, ih, setAttrib_find]
    unfold attrValue
    rw [List.reverse_cons, List.find?_append]
    cases h : attrs.reverse.find? (fun a => decide (a.name = x)) with
    | some b => rfl
    | none =>
      by_cases hx : a.name = x
      · simp [hx]
      · simp [hx]

/-- The rest of a line behind a tag does not matter. -/
theorem run_rest {s : XmlState} (h : s.state = 9) : ∀ (l : FileBytes), XmlRun s l s := by
  intro l
  induction l with
  | nil => exact XmlRun.nil s
  | cons c l ih =>
    refine XmlRun.cons ?_ ih
    unfold xmlStep
    rw [h]
    rfl

/-- From the name on. -/
theorem run_body {s : XmlState} (h : s.state = 1 ∨ s.state = 2) (hn : s.attNm = []) (hv : s.attVal = []) (htag : s.tag.name = [] ∧ s.tag.attribs = [])
    {name : FileBytes} (hname : GoodName name) {attrs : List XmlAttr} (hg : ∀ a ∈ attrs, a.Good) (hsep : Separated attrs) (gap tail : Nat) (close : Bool)
    (hclose : close = true → attrs ≠ [] ∨ 0 < tail) (rest : FileBytes) :
    ∃ s', XmlRun s (List.replicate gap (ch ' ') ++ (name ++ (attrs.flatMap XmlAttr.text ++ (List.replicate tail (ch ' ') ++ ((if close then [(ch '/')] else []) ++ (ch '>') :: rest))))) s' ∧
      s'.state = 9 ∧ s'.tag = ⟨name, if close then .selfClosing else s.tag.type, attrs.foldl (fun m a => setAttrib a.name a.value m) []⟩ := by
  obtain ⟨n0, n1, n2, n3⟩ := hname
  obtain ⟨c, nm, rfl⟩ := List.exists_cons_of_ne_nil n0
  simp only [List.mem_cons, not_or] at n1 n2 n3
  obtain ⟨st, ⟨tn, ty, ta⟩, an, av, q⟩ := s
  simp only [] at h hn hv htag
  obtain ⟨rfl, rfl⟩ := htag
  subst hn hv
  -- the name
  have hN : XmlRun ⟨st, ⟨[], ty, []⟩, [], [], q⟩ (List.replicate gap (ch ' ') ++ (c :: nm)) ⟨3, ⟨c :: nm, ty, []⟩, [], [], q⟩ := by
    refine XmlRun.append (run_blanks (by rcases h with h | h <;> simp [h]) gap) ?_
    refine XmlRun.cons (s' := ⟨3, ⟨[c], ty, []⟩, [], [], q⟩) ?_ ?_
    · unfold xmlStep
      rcases h with rfl | rfl
      · simp only []
        rw [if_neg (fun e => n2.1 e.symm), if_pos (fun e => n1.1 e.symm)]; rfl
      · simp only []
        rw [if_pos (fun e => n1.1 e.symm)]; rfl
    · exact run_name rfl nm n1.2 n2.2 n3.2
  -- the attributes and blanks
  have hE : ∃ k q', XmlRun ⟨3, ⟨c :: nm, ty, []⟩, [], [], q⟩ (attrs.flatMap XmlAttr.text ++ List.replicate tail (ch ' '))
      ⟨k, ⟨c :: nm, ty, attrs.foldl (fun m a => setAttrib a.name a.value m) []⟩, [], [], q'⟩ ∧ ((k = 3 ∧ attrs = [] ∧ tail = 0) ∨ k = 4) := by
    cases attrs with
    | nil =>
      cases tail with
      | zero => exact ⟨3, q, XmlRun.nil _, Or.inl ⟨rfl, rfl, rfl⟩⟩
      | succ tail =>
        refine ⟨4, q, ?_, Or.inr rfl⟩
        rw [List.flatMap_nil, List.nil_append, List.replicate_succ]
        exact XmlRun.cons rfl (run_blanks (Or.inr (Or.inr (Or.inr rfl))) tail)
    | cons a attrs =>
      have hgap := hsep a rfl
      obtain ⟨g, hgg⟩ : ∃ g, a.gap = g + 1 := ⟨a.gap - 1, by omega⟩
      obtain ⟨q', hq'⟩ := run_attrs attrs (fun b hb => hg b (List.mem_cons_of_mem _ hb))
        (s := ⟨4, ⟨c :: nm, ty, setAttrib a.name a.value []⟩, [], [], a.quot⟩) rfl rfl rfl
      refine ⟨4, q', ?_, Or.inr rfl⟩
      refine XmlRun.append ?_ (run_blanks (Or.inr (Or.inr (Or.inr rfl))) tail)
      rw [List.flatMap_cons]
      refine XmlRun.append ?_ hq'
      unfold XmlAttr.text
      rw [hgg, List.replicate_succ, List.cons_append]
      refine XmlRun.cons (s' := ⟨4, ⟨c :: nm, ty, []⟩, [], [], q⟩) rfl ?_
      exact XmlRun.append (run_blanks (Or.inr (Or.inr (Or.inr rfl))) g) (run_attr rfl rfl rfl (hg a (by simp)))
  obtain ⟨k, q', hE, hk⟩ := hE
  -- the end
  have hF : ∃ s', XmlRun ⟨k, ⟨c :: nm, ty, attrs.foldl (fun m a => setAttrib a.name a.value m) []⟩, [], [], q'⟩ ((if close then [(ch '/')] else []) ++ (ch '>') :: rest) s' ∧
      s'.state = 9 ∧ s'.tag = ⟨c :: nm, if close then .selfClosing else ty, attrs.foldl (fun m a => setAttrib a.name a.value m) []⟩ := by
    cases close with
    | true =>
      have h4 : k = 4 := by
        rcases hk with ⟨_, h1, h2⟩ | hk
        · rcases hclose rfl with h | h
          · exact absurd h1 h
          · omega
        · exact hk
      subst h4
      exact ⟨_, XmlRun.cons rfl (XmlRun.cons rfl (run_rest rfl rest)), rfl, rfl⟩
    | false =>
      rcases hk with ⟨rfl, _, _⟩ | rfl
      · exact ⟨_, XmlRun.cons rfl (run_rest rfl rest), rfl, rfl⟩
      · exact ⟨_, XmlRun.cons rfl (run_rest rfl rest), rfl, rfl⟩
  obtain ⟨s', hF, h9, ht⟩ := hF
  refine ⟨s', ?_, h9, ht⟩
  have := XmlRun.append (XmlRun.append hN hE) hF
  simpa only [List.append_assoc] using this

/-- Scanning the text of a tag, with blanks where they are allowed, gives its type and name and for every name the value of that attribute. What follows on the line does
not matter. A self-closing tag has an attribute or a blank before the `/`, as all those of the VTK writer do. -/
theorem C33_scan (type : XmlType) (lead gap : Nat) {name : FileBytes} (hname : GoodName name) {attrs : List XmlAttr} (hg : ∀ a ∈ attrs, a.Good)
    (hsep : Separated attrs) (tail : Nat) (hself : type = .selfClosing → attrs ≠ [] ∨ 0 < tail) (rest : FileBytes) :
    ∃ tag, parseTag (tagText type lead gap name attrs tail ++ rest) = some tag ∧ tag.type = type ∧ tag.name = name ∧
      ∀ x, (tag.attribs.find? (fun a => decide (a.1 = x))).map Prod.snd = attrValue attrs x := by
  have start : ∀ l s', XmlRun ⟨1, ⟨[], .start, []⟩, [], [], 0#8⟩ l s' → XmlRun ⟨0, ⟨[], .start, []⟩, [], [], 0#8⟩ (List.replicate lead (ch ' ') ++ (ch '<') :: l) s' := by
    intro l s' h
    exact XmlRun.append (run_blanks (Or.inl rfl) lead) (XmlRun.cons rfl h)
  have fin : ∀ (s : XmlState) (ty : XmlType) (close : Bool), (s.state = 1 ∨ s.state = 2) → s.attNm = [] → s.attVal = [] → s.tag = ⟨[], ty, []⟩ →
      (close = true → attrs ≠ [] ∨ 0 < tail) → (if close then XmlType.selfClosing else ty) = type →
      ∃ s', XmlRun s (List.replicate gap (ch ' ') ++ (name ++ (attrs.flatMap XmlAttr.text ++ (List.replicate tail (ch ' ') ++ ((if close then [(ch '/')] else []) ++ (ch '>') :: rest))))) s' ∧
        s'.state = 9 ∧ s'.tag.type = type ∧ s'.tag.name = name ∧
        ∀ x, (s'.tag.attribs.find? (fun a => decide (a.1 = x))).map Prod.snd = attrValue attrs x := by
    intro s ty close h1 h2 h3 h4 h5 h6
    obtain ⟨s', r1, r2, r3⟩ := run_body h1 h2 h3 ⟨by rw [h4], by rw [h4]⟩ hname hg hsep gap tail close h5 rest
    refine ⟨s', r1, r2, ?_, ?_, ?_⟩
    · rw [r3, h4]; exact h6
    · rw [r3]
    · intro x
      rw [r3]
      dsimp only
      rw [attribs_find]
      cases attrValue attrs x <;> rfl
  have conclude : ∀ (l : FileBytes) (s' : XmlState), XmlRun ⟨0, ⟨[], .start, []⟩, [], [], 0#8⟩ l s' → s'.state = 9 → parseTag l = some s'.tag := by
    intro l s' h h9
    unfold parseTag
    unfold XmlRun at h
    rw [h, Option.bind_some, if_pos h9]
  cases type with
  | start =>
    obtain ⟨s', r1, r2, r3, r4, r5⟩ := fin ⟨1, ⟨[], .start, []⟩, [], [], 0#8⟩ .start false (Or.inl rfl) rfl rfl rfl (fun h => by cases h) rfl
    refine ⟨s'.tag, conclude _ s' ?_ r2, r3, r4, r5⟩
    have := start _ s' r1
    simpa [tagText] using this
  | end_ =>
    obtain ⟨s', r1, r2, r3, r4, r5⟩ := fin ⟨2, ⟨[], .end_, []⟩, [], [], 0#8⟩ .end_ false (Or.inr rfl) rfl rfl rfl (fun h => by cases h) rfl
    refine ⟨s'.tag, conclude _ s' ?_ r2, r3, r4, r5⟩
    have := start _ s' (XmlRun.cons (c := (ch '/')) rfl r1)
    simpa [tagText] using this
  | selfClosing =>
    obtain ⟨s', r1, r2, r3, r4, r5⟩ := fin ⟨1, ⟨[], .start, []⟩, [], [], 0#8⟩ .start true (Or.inl rfl) rfl rfl rfl (fun _ => hself rfl) rfl
    refine ⟨s'.tag, conclude _ s' ?_ r2, r3, r4, r5⟩
    have := start _ s' r1
    simpa [tagText] using this

/-- A line whose first character other than a blank is not `<`, such as one with encoded data, is no tag. -/
theorem C33_no_tag (lead : Nat) {c : BitVec 8} (hc : c ≠ (ch '<')) (hb : c ≠ (ch ' ')) (rest : FileBytes) : parseTag (List.replicate lead (ch ' ') ++ c :: rest) = none := by
  unfold parseTag
  have h := run_blanks (s := ⟨0, ⟨[], .start, []⟩, [], [], 0#8⟩) (Or.inl rfl) lead
  unfold XmlRun at h
  rw [List.foldlM_append, h]
  simp [xmlStep, hc, hb]

/-- A tag that is not ended on the line is no tag: without a `>` nothing is accepted. -/
theorem C33_unended {line : FileBytes} (h : (ch '>') ∉ line) : parseTag line = none := by
  have key : ∀ (l : FileBytes) (s s' : XmlState), (ch '>') ∉ l → s.state ≠ 9 → XmlRun s l s' → s'.state ≠ 9 := by
    intro l
    induction l with
    | nil => intro s s' _ h9 hr; cases hr; exact h9
    | cons c l ih =>
      intro s s' hl h9 hr
      simp only [List.mem_cons, not_or] at hl
      unfold XmlRun at hr
      rw [List.foldlM_cons] at hr
      cases hs : xmlStep s c with
      | none => rw [hs] at hr; cases hr
      | some s1 =>
        rw [hs] at hr
        refine ih s1 s' hl.2 ?_ hr
        have hc : c ≠ (ch '>') := fun e => hl.1 e.symm
        unfold xmlStep at hs
        split at hs <;> (repeat' split at hs) <;> first | (cases hs; done) | (cases hs; simp_all)
  unfold parseTag
  cases hr : line.foldlM xmlStep ⟨0, ⟨[], .start, []⟩, [], [], 0#8⟩ with
  | none => rfl
  | some s' =>
    rw [Option.bind_some, if_neg]
    exact key line _ s' h (by decide) hr

/-- A self-closing tag without attributes and blank is reported as a start tag, and an end tag with a blank before a second `/` as self-closing. -/
theorem C33_bare_refuted : (parseTag (str "<Foo/>")).map XmlTag.type = some .start ∧ (parseTag (str "</Foo />")).map XmlTag.type = some .selfClosing := by
  decide

/-- The tag of an array of the VTK writer meets the hypotheses. -/
example : tagText .start 0 0 (str "DataArray") [⟨1, (str "type"), (ch '"'), (str "Float64")⟩, ⟨1, (str "Name"), (ch '"'), (str "coordinates")⟩] 0 =
      (str "<DataArray type=\"Float64\" Name=\"coordinates\">") ∧ GoodName (str "DataArray") ∧
    XmlAttr.Good ⟨1, (str "type"), (ch '"'), (str "Float64")⟩ := by
  refine ⟨by decide, by unfold GoodName; decide, ⟨ch 't', str "ype", by decide, by decide, by decide, by decide, by decide⟩, Or.inl rfl, by decide⟩

end OmegaH
