import Verif.Spec.Pvd
import Verif.Props.C33
import Verif.Lemmas.VtkTags

/-!
# C52: the list of time steps

Whatever was done with the writers of a directory, and if the last write of each was cut short after any number of bytes, the list holds exactly the steps it should hold.
-/

namespace OmegaH

open Spec

/-- The line of a step without the line feed. -/
def pvdLine0 {T : Type} (F : TimeFormat T) (e : PvdEntry T) : FileBytes :=
  str "<DataSet timestep=\"" ++ (F.format e.time ++ (str "\" part=\"0\" file=\"" ++ (stepFile e.step ++ str "\"/>")))

theorem pvdLine_eq {T : Type} (F : TimeFormat T) (e : PvdEntry T) : pvdLine F e = pvdLine0 F e ++ str "\n" := by
  unfold pvdLine pvdLine0
  simp only [List.append_assoc]
  rfl

theorem stepFile_chars (n : Int) : ∀ c ∈ stepFile n, c ≠ ch '"' ∧ c ≠ ch '\n' ∧ c ≠ ch '>' := by
  have hd : ∀ k, ∀ c ∈ decimal k, c ≠ ch '"' ∧ c ≠ ch '\n' ∧ c ≠ ch '>' := by
    intro k c hc
    have := decimal_digits k c hc
    refine ⟨?_, ?_, ?_⟩ <;> (rintro rfl; revert this; decide)
  have h1 : ∀ c ∈ str "steps/step_", c ≠ ch '"' ∧ c ≠ ch '\n' ∧ c ≠ ch '>' := by decide
  have h2 : ∀ c ∈ str "/pieces.pvtu", c ≠ ch '"' ∧ c ≠ ch '\n' ∧ c ≠ ch '>' := by decide
  intro c hc
  unfold stepFile at hc
  rcases List.mem_append.1 hc with hc | hc
  · rcases List.mem_append.1 hc with hc | hc
    · exact h1 c hc
    · unfold intText at hc
      split at hc
      · rcases List.mem_cons.1 hc with rfl | h
        · decide
        · exact hd _ c h
      · exact hd _ c hc
  · exact h2 c hc

theorem pvdLine0_line {T : Type} {F : TimeFormat T} (hF : GoodTime F) (e : PvdEntry T) : ch '\n' ∉ pvdLine0 F e := by
  unfold pvdLine0
  simp only [List.mem_append, not_or]
  exact ⟨by decide, fun h => (hF.chars _ _ h).2.1 rfl, by decide, fun h => (stepFile_chars _ _ h).2.1 rfl, by decide⟩

theorem pvdLine0_length {T : Type} {F : TimeFormat T} (hF : GoodTime F) (e : PvdEntry T) : 30 ≤ (pvdLine0 F e).length := by
  unfold pvdLine0
  have h1 := hF.length e.time
  have h2 : (str "<DataSet timestep=\"").length = 19 := by decide
  have h3 : (str "\" part=\"0\" file=\"").length = 17 := by decide
  simp only [List.length_append]
  omega

/-! ## Lines -/

theorem fileLines_line {l : FileBytes} (h : ch '\n' ∉ l) (rest : FileBytes) : fileLines (l ++ (str "\n" ++ rest)) = l :: fileLines rest := by
  induction l with
  | nil =>
    show fileLines (ch '\n' :: rest) = _
    simp [fileLines]
  | cons c l ih =>
    simp only [List.mem_cons, not_or] at h
    have hc : ¬ c = ch '\n' := fun e => h.1 e.symm
    rw [List.cons_append]
    conv_lhs => unfold fileLines
    rw [if_neg hc, ih h.2]

theorem fileLines_last {l : FileBytes} (h : ch '\n' ∉ l) (hne : l ≠ []) : fileLines l = [l] := by
  induction l with
  | nil => exact absurd rfl hne
  | cons c l ih =>
    simp only [List.mem_cons, not_or] at h
    have hc : ¬ c = ch '\n' := fun e => h.1 e.symm
    unfold fileLines
    rw [if_neg hc]
    cases l with
    | nil => rfl
    | cons d l => rw [ih h.2 (by simp)]

theorem fileLines_entries {T : Type} {F : TimeFormat T} (hF : GoodTime F) (es : List (PvdEntry T)) (rest : FileBytes) :
    fileLines (es.flatMap (pvdLine F) ++ rest) = es.map (pvdLine0 F) ++ fileLines rest := by
  induction es with
  | nil => rfl
  | cons e es ih =>
    rw [List.flatMap_cons, pvdLine_eq, List.append_assoc, List.append_assoc, fileLines_line (pvdLine0_line hF e), ih]
    rfl

/-! ## Tags -/

/-- A line that is no entry. -/
def JunkLine (l : FileBytes) : Prop := ∀ tag, parseTag l = some tag → tag.name ≠ str "DataSet"

instance (l : FileBytes) : Decidable (JunkLine l) :=
  match h : parseTag l with
  | none => .isTrue (fun tag ht => by rw [h] at ht; cases ht)
  | some t => if hn : t.name = str "DataSet" then .isFalse (fun hj => hj t h hn) else .isTrue (fun tag ht => by rw [h] at ht; cases ht; exact hn)

theorem parse_entry {T : Type} {F : TimeFormat T} (hF : GoodTime F) (e : PvdEntry T) :
    ∃ tag, parseTag (pvdLine0 F e) = some tag ∧ tag.name = str "DataSet" ∧ tag.attr? (str "timestep") = some (F.format e.time) ∧
      tag.attr (str "timestep") = F.format e.time ∧ tag.attr (str "file") = stepFile e.step := by
  let attrs : List XmlAttr := [⟨1, str "timestep", ch '"', F.format e.time⟩, ⟨1, str "part", ch '"', str "0"⟩, ⟨1, str "file", ch '"', stepFile e.step⟩]
  have hg : ∀ a ∈ attrs, a.Good := by
    intro a ha
    simp only [attrs] at ha
    rw [List.mem_cons, List.mem_cons, List.mem_singleton] at ha
    rcases ha with rfl | rfl | rfl
    · exact attr_good ⟨ch 't', str "imestep", by decide, by decide, by decide, by decide, by decide⟩ (fun h => (hF.chars _ _ h).1 rfl)
    · exact attr_good ⟨ch 'p', str "art", by decide, by decide, by decide, by decide, by decide⟩ (by decide)
    · exact attr_good ⟨ch 'f', str "ile", by decide, by decide, by decide, by decide, by decide⟩ (fun h => (stepFile_chars _ _ h).1 rfl)
  obtain ⟨tag, h1, _, h3, h4⟩ := C33_scan .selfClosing 0 0 (name := str "DataSet") (by unfold GoodName; decide) hg (by intro a ha; cases ha; exact Nat.one_pos) 0
    (fun _ => Or.inl (by simp [attrs])) []
  have e1 : tagText .selfClosing 0 0 (str "DataSet") attrs 0 ++ [] = pvdLine0 F e := by
    unfold tagText pvdLine0
    simp only [attrs, List.flatMap_cons, List.flatMap_nil, XmlAttr.text, List.append_assoc, List.append_nil, List.cons_append]
    rfl
  rw [e1] at h1
  refine ⟨tag, h1, h3, ?_, ?_, ?_⟩
  · unfold XmlTag.attr?
    rw [h4]
    rfl
  · unfold XmlTag.attr
    rw [h4]
    rfl
  · unfold XmlTag.attr
    rw [h4]
    rfl

theorem junk_unended {l : FileBytes} (h : ch '>' ∉ l) : JunkLine l := by
  intro tag ht
  rw [C33_unended h] at ht
  cases ht

/-- Inside the quotes of the time. -/
theorem junk_quoted {l : FileBytes} (h : ch '"' ∉ l) : JunkLine (str "<DataSet timestep=\"" ++ l) := by
  intro tag ht
  have h1 : XmlRun ⟨0, ⟨[], .start, []⟩, [], [], 0#8⟩ (str "<DataSet timestep=\"") ⟨7, ⟨str "DataSet", .start, []⟩, str "timestep", [], ch '"'⟩ := by
    unfold XmlRun
    decide
  have h2 := XmlRun.append h1 (run_attVal (s := ⟨7, ⟨str "DataSet", .start, []⟩, str "timestep", [], ch '"'⟩) rfl l h)
  unfold parseTag at ht
  unfold XmlRun at h2
  rw [h2] at ht
  simp at ht

/-! ## Reading -/

/-- The file lists the steps. -/
def Lists {T : Type} (F : TimeFormat T) (file : FileBytes) (es : List (PvdEntry T)) : Prop :=
  ∃ body junk, file = pvdPrologue ++ body ∧ fileLines body = es.map (pvdLine0 F) ++ junk ∧ ∀ l ∈ junk, JunkLine l

theorem readLines_junk {T : Type} (F : TimeFormat T) (junk : List FileBytes) (h : ∀ l ∈ junk, JunkLine l) : readPvdLines F junk = .ok [] := by
  induction junk with
  | nil => rfl
  | cons l junk ih =>
    have h1 := h l (by simp)
    unfold readPvdLines
    cases hp : parseTag l with
    | none => exact ih (fun l hl => h l (List.mem_cons_of_mem _ hl))
    | some tag =>
      dsimp only
      rw [if_pos (h1 tag hp)]
      exact ih (fun l hl => h l (List.mem_cons_of_mem _ hl))

theorem readLines_entries {T : Type} {F : TimeFormat T} (hF : GoodTime F) (es : List (PvdEntry T)) (junk : List FileBytes) (h : ∀ l ∈ junk, JunkLine l) :
    readPvdLines F (es.map (pvdLine0 F) ++ junk) = .ok (entryFiles es) := by
  induction es with
  | nil => exact readLines_junk F junk h
  | cons e es ih =>
    obtain ⟨tag, h1, h2, h3, h4, h5⟩ := parse_entry hF e
    rw [List.map_cons, List.cons_append]
    unfold readPvdLines
    rw [h1]
    dsimp only
    rw [if_neg (by simp [h2]), h4, hF.back]
    dsimp only
    rw [ih, Res.bind_ok, h5]
    rfl

theorem fileLines_prologue (body : FileBytes) : fileLines (pvdPrologue ++ body) =
    str "<VTKFile type=\"Collection\" version=\"0.1\">" :: str "<Collection>" :: fileLines body := by
  have e : pvdPrologue ++ body = str "<VTKFile type=\"Collection\" version=\"0.1\">" ++ (str "\n" ++ (str "<Collection>" ++ (str "\n" ++ body))) := by
    simp only [← List.append_assoc]
    congr 1
  rw [e, fileLines_line (by decide), fileLines_line (by decide)]

theorem readPvd_lists {T : Type} {F : TimeFormat T} (hF : GoodTime F) {file : FileBytes} {es : List (PvdEntry T)} (h : Lists F file es) :
    readPvd F file = .ok (entryFiles es) := by
  obtain ⟨body, junk, rfl, h1, h2⟩ := h
  unfold readPvd
  rw [fileLines_prologue, h1]
  have h3 := readLines_entries hF es junk h2
  have j : ∀ (l : FileBytes) (rest : List FileBytes), JunkLine l → readPvdLines F (l :: rest) = readPvdLines F rest := by
    intro l rest hj
    conv_lhs => unfold readPvdLines
    cases hp : parseTag l with
    | none => rfl
    | some tag =>
      dsimp only
      rw [if_pos (hj tag hp)]
  rw [j _ _ (by decide), j _ _ (by decide), h3]

theorem keep_junk {T : Type} (F : TimeFormat T) (restart : T) (junk : List FileBytes) (h : ∀ l ∈ junk, JunkLine l) : keepLines F restart junk = .ok [] := by
  cases junk with
  | nil => rfl
  | cons l junk =>
    unfold keepLines
    cases hp : parseTag l with
    | none => rfl
    | some tag =>
      dsimp only
      rw [if_pos (h l (by simp) tag hp)]

theorem keep_entries {T : Type} {F : TimeFormat T} (hF : GoodTime F) (restart : T) (es : List (PvdEntry T)) (junk : List FileBytes) (h : ∀ l ∈ junk, JunkLine l) :
    keepLines F restart (es.map (pvdLine0 F) ++ junk) = .ok ((es.takeWhile (fun e => F.before e.time restart)).flatMap (pvdLine F)) := by
  induction es with
  | nil => exact keep_junk F restart junk h
  | cons e es ih =>
    obtain ⟨tag, h1, h2, h3, _⟩ := parse_entry hF e
    rw [List.map_cons, List.cons_append]
    unfold keepLines
    rw [h1]
    dsimp only
    rw [if_neg (by simp [h2]), h3]
    dsimp only
    rw [hF.back]
    dsimp only
    rw [List.takeWhile_cons]
    split
    · rw [ih, Res.bind_ok, List.flatMap_cons, pvdLine_eq]
    · rfl

theorem open_lists {T : Type} {F : TimeFormat T} (hF : GoodTime F) (restart : T) {file : FileBytes} {es : List (PvdEntry T)} (h : Lists F file es) :
    readExistingPvd F restart (some file) = .ok (pvdPrologue ++ (es.takeWhile (fun e => F.before e.time restart)).flatMap (pvdLine F)) := by
  obtain ⟨body, junk, rfl, h1, h2⟩ := h
  unfold readExistingPvd
  dsimp only
  have e1 : getLine (pvdPrologue ++ body) = (str "<VTKFile type=\"Collection\" version=\"0.1\">", str "<Collection>\n" ++ body) := by
    have : pvdPrologue ++ body = str "<VTKFile type=\"Collection\" version=\"0.1\">" ++ str "\n" ++ (str "<Collection>\n" ++ body) := by
      simp only [← List.append_assoc]
      congr 1
    rw [this, getLine_line (by decide)]
  have e2 : getLine (str "<Collection>\n" ++ body) = (str "<Collection>", body) := by
    have : str "<Collection>\n" ++ body = str "<Collection>" ++ str "\n" ++ body := by congr 1
    rw [this, getLine_line (by decide)]
  rw [e1]
  dsimp only
  rw [e2]
  dsimp only
  rw [if_neg (by decide), h1, keep_entries hF restart es junk h2]
  rfl

/-! ## Writing -/

/-- What is in the file between two writes. -/
def pvdText {T : Type} (F : TimeFormat T) (es : List (PvdEntry T)) : FileBytes := pvdPrologue ++ es.flatMap (pvdLine F)

theorem epilogue_junk : ∀ j < 26, ∀ l ∈ fileLines (pvdEpilogue.take j), JunkLine l := by decide

theorem lists_text {T : Type} {F : TimeFormat T} (hF : GoodTime F) (es : List (PvdEntry T)) : Lists F (pvdText F es ++ pvdEpilogue) es := by
  refine ⟨es.flatMap (pvdLine F) ++ pvdEpilogue, fileLines pvdEpilogue, by unfold pvdText; rw [List.append_assoc], fileLines_entries hF es _, ?_⟩
  exact epilogue_junk 25 (by decide)

theorem update_text {T : Type} {F : TimeFormat T} (hF : GoodTime F) (es : List (PvdEntry T)) (e : PvdEntry T) :
    updatePvd F (pvdText F es ++ pvdEpilogue, (pvdText F es).length) e = (pvdText F (es ++ [e]) ++ pvdEpilogue, (pvdText F (es ++ [e])).length) := by
  have h1 := pvdLine0_length hF e
  have h2 : (pvdLine F e).length = (pvdLine0 F e).length + 1 := by rw [pvdLine_eq, List.length_append]; rfl
  have h3 : pvdText F (es ++ [e]) = pvdText F es ++ pvdLine F e := by
    unfold pvdText
    rw [List.flatMap_append, List.append_assoc]
    simp
  have h4 : pvdEpilogue.length = 25 := by decide
  unfold updatePvd overwrite
  dsimp only
  rw [h3, List.length_append (as := pvdText F es) (bs := pvdLine F e), List.take_left, List.drop_eq_nil_of_le (by simp only [List.length_append]; omega), List.append_nil, List.append_assoc]

theorem short_junk : ∀ k < 19, ∀ l ∈ fileLines ((str "<DataSet timestep=\"").take k ++ pvdEpilogue.drop k), JunkLine l := by decide

theorem quoted_rest : ∀ k < 25, 19 ≤ k → ∃ r, pvdEpilogue.drop k = r ++ str "\n" ∧ ch '"' ∉ r ∧ ch '\n' ∉ r := by
  intro k h1 h2
  refine ⟨(pvdEpilogue.drop k).dropLast, ?_⟩
  interval_cases k <;> decide

/-- A write that is cut short. -/
theorem crash_text {T : Type} {F : TimeFormat T} (hF : GoodTime F) (es : List (PvdEntry T)) (e : PvdEntry T) (k : Nat) :
    Lists F (updatePvdCrash F (pvdText F es ++ pvdEpilogue, (pvdText F es).length) e k) (es ++ if (pvdLine F e).length ≤ k + 1 then [e] else []) := by
  have h1 := pvdLine0_length hF e
  have h2 : (pvdLine F e).length = (pvdLine0 F e).length + 1 := by rw [pvdLine_eq, List.length_append]; rfl
  have h4 : pvdEpilogue.length = 25 := by decide
  have hline := pvdLine0_line hF e
  obtain ⟨X, hX⟩ : ∃ X, X = (pvdLine F e ++ pvdEpilogue).take k ++ pvdEpilogue.drop ((pvdLine F e ++ pvdEpilogue).take k).length := ⟨_, rfl⟩
  have hlen : ((pvdLine F e ++ pvdEpilogue).take k).length = min k ((pvdLine F e).length + 25) := by rw [List.length_take, List.length_append, h4]
  have hfile : updatePvdCrash F (pvdText F es ++ pvdEpilogue, (pvdText F es).length) e k = pvdPrologue ++ (es.flatMap (pvdLine F) ++ X) := by
    unfold updatePvdCrash overwrite
    dsimp only
    rw [List.take_left, List.drop_append, hX]
    unfold pvdText
    rw [List.drop_eq_nil_of_le (by omega), List.nil_append, List.append_assoc, Nat.add_sub_cancel_left]
  suffices h : ∃ junk, fileLines X = (if (pvdLine F e).length ≤ k + 1 then [pvdLine0 F e] else []) ++ junk ∧ ∀ l ∈ junk, JunkLine l by
    obtain ⟨junk, j1, j2⟩ := h
    refine ⟨_, junk, hfile, ?_, j2⟩
    rw [fileLines_entries hF, j1, List.map_append, List.append_assoc]
    split <;> rfl
  by_cases c1 : (pvdLine F e).length ≤ k
  · rw [if_pos (by omega)]
    have hx : X = pvdLine0 F e ++ (str "\n" ++ pvdEpilogue.take (min (k - (pvdLine F e).length) 25)) := by
      rw [hX, hlen, List.drop_eq_nil_of_le (by omega), List.append_nil, List.take_append, List.take_of_length_le c1, pvdLine_eq, List.append_assoc]
      congr 2
      rw [← pvdLine_eq]
      by_cases hk : k - (pvdLine F e).length ≤ 25
      · rw [Nat.min_eq_left hk]
      · rw [Nat.min_eq_right (by omega), List.take_of_length_le (by omega), List.take_of_length_le (by omega)]
    refine ⟨fileLines (pvdEpilogue.take (min (k - (pvdLine F e).length) 25)), ?_, epilogue_junk _ (by omega)⟩
    rw [hx, fileLines_line hline]
    rfl
  · have htake : (pvdLine F e ++ pvdEpilogue).take k = (pvdLine0 F e).take k := by
      rw [List.take_append_of_le_length (by omega), pvdLine_eq, List.take_append_of_le_length (by omega)]
    have hk : min k ((pvdLine F e).length + 25) = k := by omega
    rw [hlen, hk, htake] at hX
    by_cases c2 : (pvdLine F e).length ≤ k + 1
    · rw [if_pos c2]
      refine ⟨[], ?_, by simp⟩
      rw [hX, List.take_of_length_le (by omega), List.drop_eq_nil_of_le (by omega), List.append_nil, List.append_nil, fileLines_last hline]
      intro h
      rw [h] at h1
      simp at h1
    · rw [if_neg c2]
      refine ⟨fileLines X, rfl, ?_⟩
      have hq : (str "<DataSet timestep=\"").length = 19 := by decide
      by_cases c3 : 25 ≤ k
      · rw [hX, List.drop_eq_nil_of_le (by omega), List.append_nil, fileLines_last (fun h => hline (List.mem_of_mem_take h))]
        · intro l hl
          rw [List.mem_singleton] at hl
          subst hl
          refine junk_unended ?_
          intro hm
          have hd : pvdLine0 F e = (pvdLine0 F e).dropLast ++ [ch '>'] := by
            unfold pvdLine0
            have : str "\"/>" = str "\"/" ++ [ch '>'] := by decide
            rw [this]
            simp only [← List.append_assoc, List.dropLast_concat]
          have hm2 : ch '>' ∈ (pvdLine0 F e).dropLast := by
            rw [hd, List.take_append_of_le_length (by rw [List.length_dropLast]; omega)] at hm
            exact List.mem_of_mem_take hm
          have : (pvdLine0 F e).dropLast = str "<DataSet timestep=\"" ++ (F.format e.time ++ (str "\" part=\"0\" file=\"" ++ (stepFile e.step ++ str "\"/"))) := by
            unfold pvdLine0
            have : str "\"/>" = str "\"/" ++ [ch '>'] := by decide
            rw [this]
            simp only [← List.append_assoc, List.dropLast_concat]
          rw [this] at hm2
          simp only [List.mem_append] at hm2
          rcases hm2 with h | h | h | h | h
          · revert h; decide
          · exact (hF.chars _ _ h).2.2 rfl
          · revert h; decide
          · exact (stepFile_chars _ _ h).2.2 rfl
          · revert h; decide
        · intro h
          rw [List.take_eq_nil_iff] at h
          rcases h with h | h
          · omega
          · rw [h] at h1; simp at h1
      · by_cases c4 : 19 ≤ k
        · obtain ⟨r, r1, r2, r3⟩ := quoted_rest k (by omega) c4
          have ht : (pvdLine0 F e).take k = str "<DataSet timestep=\"" ++ (F.format e.time).take (k - 19) := by
            unfold pvdLine0
            have hl := hF.length e.time
            rw [List.take_append, List.take_of_length_le (by omega), hq, List.take_append_of_le_length (by omega)]
          have hnl : ch '\n' ∉ str "<DataSet timestep=\"" ++ ((F.format e.time).take (k - 19) ++ r) := by
            simp only [List.mem_append, not_or]
            exact ⟨by decide, fun h => (hF.chars _ _ (List.mem_of_mem_take h)).2.1 rfl, r3⟩
          have hx : X = (str "<DataSet timestep=\"" ++ ((F.format e.time).take (k - 19) ++ r)) ++ (str "\n" ++ []) := by
            rw [hX, ht, r1, List.append_nil]
            simp only [List.append_assoc]
          rw [hx, fileLines_line hnl]
          intro l hl
          simp only [fileLines, List.mem_singleton] at hl
          subst hl
          refine junk_quoted ?_
          simp only [List.mem_append, not_or]
          exact ⟨fun h => (hF.chars _ _ (List.mem_of_mem_take h)).1 rfl, r2⟩
        · have ht : (pvdLine0 F e).take k = (str "<DataSet timestep=\"").take k := by
            unfold pvdLine0
            rw [List.take_append_of_le_length (by omega)]
          rw [hX, ht]
          exact short_junk k (by omega)

/-! ## Histories -/

theorem run_lists {T : Type} {F : TimeFormat T} (hF : GoodTime F) (crash : Option Nat) : ∀ (ws es : List (PvdEntry T)) (data : Int → Option T),
    Lists F (runWrites F (pvdText F es ++ pvdEpilogue, (pvdText F es).length) data ws crash).1
      (es ++ match crash, ws.getLast? with
        | some k, some e => ws.dropLast ++ if (pvdLine F e).length ≤ k + 1 then [e] else []
        | _, _ => ws)
  | [], es, data => by
    cases crash <;> simpa [runWrites] using lists_text hF es
  | [e], es, data => by
    cases crash with
    | none =>
      unfold runWrites
      rw [update_text hF]
      simpa [runWrites] using lists_text hF (es ++ [e])
    | some k => simpa [runWrites] using crash_text hF es e k
  | e :: e2 :: ws, es, data => by
    have ih := run_lists hF crash (e2 :: ws) (es ++ [e]) (putStep data e)
    have : runWrites F (pvdText F es ++ pvdEpilogue, (pvdText F es).length) data (e :: e2 :: ws) crash =
        runWrites F (pvdText F (es ++ [e]) ++ pvdEpilogue, (pvdText F (es ++ [e])).length) (putStep data e) (e2 :: ws) crash := by
      conv_lhs => unfold runWrites
      rw [update_text hF]
    rw [this]
    cases crash with
    | none => simpa using ih
    | some k =>
      obtain ⟨x, hx⟩ : ∃ x, (e2 :: ws).getLast? = some x := ⟨_, List.getLast?_eq_some_getLast (by simp)⟩
      rw [List.getLast?_cons_cons, List.dropLast_cons_cons]
      rw [hx] at ih ⊢
      simpa using ih

/-- One session. -/
theorem C52_session {T : Type} {F : TimeFormat T} (hF : GoodTime F) {dir : PvdDir T} {listed : List (PvdEntry T)}
    (h : ∀ f, dir.file = some f → Lists F f listed) (h0 : dir.file = none → listed = []) (s : PvdSession T) :
    ∃ dir' f, runSession F dir s = .ok dir' ∧ dir'.file = some f ∧ Lists F f (listedAfter F listed s) := by
  have ho : openPvd F s.restart dir.file = .ok (pvdText F (listed.takeWhile (fun e => F.before e.time s.restart)) ++ pvdEpilogue,
      (pvdText F (listed.takeWhile (fun e => F.before e.time s.restart))).length) := by
    unfold openPvd
    cases hf : dir.file with
    | none =>
      rw [h0 hf]
      simp [readExistingPvd, pvdText, Res.bind_ok]
    | some f =>
      rw [open_lists hF s.restart (h f hf), Res.bind_ok]
      rfl
  refine ⟨_, _, by unfold runSession; rw [ho, Res.bind_ok], rfl, ?_⟩
  exact run_lists hF s.crash _ _ _

/-- After any history of sessions, the list can be read and holds exactly the steps that it should. -/
theorem C52_history {T : Type} {F : TimeFormat T} (hF : GoodTime F) (data : Int → Option T) (ss : List (PvdSession T)) (hne : ss ≠ []) :
    ∃ dir f, runSessions F ⟨none, data⟩ ss = .ok dir ∧ dir.file = some f ∧ readPvd F f = .ok (entryFiles (ss.foldl (listedAfter F) [])) := by
  have key : ∀ (ss : List (PvdSession T)) (dir : PvdDir T) (listed : List (PvdEntry T)), (∀ f, dir.file = some f → Lists F f listed) → (dir.file = none → listed = []) →
      (ss ≠ [] ∨ dir.file ≠ none) → ∃ dir' f, runSessions F dir ss = .ok dir' ∧ dir'.file = some f ∧ Lists F f (ss.foldl (listedAfter F) listed) := by
    intro ss
    induction ss with
    | nil =>
      intro dir listed h h0 hne
      cases hf : dir.file with
      | none => simp [hf] at hne
      | some f => exact ⟨dir, f, rfl, hf, h f hf⟩
    | cons s ss ih =>
      intro dir listed h h0 _
      obtain ⟨d, f, h1, h2, h3⟩ := C52_session hF h h0 s
      obtain ⟨d', f', g1, g2, g3⟩ := ih d (listedAfter F listed s) (fun f' hf' => by rw [h2] at hf'; cases hf'; exact h3) (fun hn => by rw [h2] at hn; cases hn)
        (Or.inr (by rw [h2]; simp))
      refine ⟨d', f', ?_, g2, g3⟩
      unfold runSessions
      rw [h1, Res.bind_ok]
      exact g1
  obtain ⟨d, f, h1, h2, h3⟩ := key ss ⟨none, data⟩ [] (fun f hf => by cases hf) (fun _ => rfl) (Or.inl hne)
  exact ⟨d, f, h1, h2, readPvd_lists hF h3⟩

/-! ## The data -/

theorem runWrites_data {T : Type} (F : TimeFormat T) (crash : Option Nat) : ∀ (ws : List (PvdEntry T)) (w : FileBytes × Nat) (data : Int → Option T),
    (runWrites F w data ws crash).2 = ws.foldl putStep data
  | [], w, data => by cases crash <;> rfl
  | [e], w, data => by cases crash <;> rfl
  | e :: e2 :: ws, w, data => by
    conv_lhs => unfold runWrites
    rw [runWrites_data F crash (e2 :: ws)]
    rfl

theorem putStep_other {T : Type} : ∀ (ws : List (PvdEntry T)) (data : Int → Option T) (s : Int), (∀ e ∈ ws, e.step ≠ s) → ws.foldl putStep data s = data s
  | [], _, _, _ => rfl
  | e :: ws, data, s, h => by
    rw [List.foldl_cons, putStep_other ws _ s (fun e he => h e (List.mem_cons_of_mem _ he))]
    have : ¬ s = e.step := fun hs => h e (by simp) hs.symm
    simp [putStep, this]

theorem putStep_mem {T : Type} : ∀ (ws : List (PvdEntry T)) (data : Int → Option T), (ws.map PvdEntry.step).Nodup → ∀ e ∈ ws, ws.foldl putStep data e.step = some e.time
  | [], _, _, e, he => by cases he
  | a :: ws, data, h, e, he => by
    rw [List.map_cons, List.nodup_cons] at h
    rw [List.foldl_cons]
    rcases List.mem_cons.1 he with rfl | he
    · rw [putStep_other ws _ _ (fun b hb hs => h.1 (by rw [← hs]; exact List.mem_map_of_mem hb))]
      simp [putStep]
    · exact putStep_mem ws _ h.2 e he

theorem listedAfter_mem {T : Type} {F : TimeFormat T} {listed : List (PvdEntry T)} {s : PvdSession T} {e : PvdEntry T} (h : e ∈ listedAfter F listed s) :
    e ∈ listed.takeWhile (fun e => F.before e.time s.restart) ∨ e ∈ writerSteps 0 s.writes := by
  unfold listedAfter at h
  rcases List.mem_append.1 h with h | h
  · exact Or.inl h
  · right
    split at h
    · rename_i k x _ hx
      rcases List.mem_append.1 h with h | h
      · exact List.dropLast_subset _ h
      · split at h
        · rw [List.mem_singleton] at h
          subst h
          exact List.mem_of_getLast? hx
        · cases h
    · exact h

/-- If no session writes a step that is still listed, every step of the list has the data of its time. Partial: a writer numbers its steps from 0, so this is not so after
a restart without numbers, see `C52_restart_refuted`. -/
theorem C52_data_partial {T : Type} {F : TimeFormat T} (hF : GoodTime F) (data : Int → Option T) (ss : List (PvdSession T)) (hfresh : FreshSteps F [] ss) :
    ∃ dir, runSessions F ⟨none, data⟩ ss = .ok dir ∧ ∀ e ∈ ss.foldl (listedAfter F) [], dir.data e.step = some e.time := by
  have key : ∀ (ss : List (PvdSession T)) (dir : PvdDir T) (listed : List (PvdEntry T)), (∀ f, dir.file = some f → Lists F f listed) → (dir.file = none → listed = []) →
      (∀ e ∈ listed, dir.data e.step = some e.time) → FreshSteps F listed ss →
      ∃ dir', runSessions F dir ss = .ok dir' ∧ ∀ e ∈ ss.foldl (listedAfter F) listed, dir'.data e.step = some e.time := by
    intro ss
    induction ss with
    | nil => intro dir listed _ _ hd _; exact ⟨dir, rfl, hd⟩
    | cons s ss ih =>
      intro dir listed h h0 hd hf
      obtain ⟨d, f, h1, h2, h3⟩ := C52_session hF h h0 s
      have hdata : d.data = (writerSteps 0 s.writes).foldl putStep dir.data := by
        unfold runSession at h1
        obtain ⟨w, _, hw⟩ := Res.bind_eq_ok.1 h1
        cases hw
        exact runWrites_data F _ _ _ _
      obtain ⟨d', g1, g2⟩ := ih d (listedAfter F listed s) (fun f' hf' => by rw [h2] at hf'; cases hf'; exact h3) (fun hn => by rw [h2] at hn; cases hn) (by
        intro e he
        have hn := hf.1
        rw [List.map_append, List.nodup_append] at hn
        rw [hdata]
        rcases listedAfter_mem he with he | he
        · rw [putStep_other _ _ _ (fun a ha hs => hn.2.2 _ (List.mem_map_of_mem he) _ (List.mem_map_of_mem ha) hs.symm)]
          exact hd e (List.takeWhile_subset _ he)
        · exact putStep_mem _ _ hn.2.1 e he) hf.2
      refine ⟨d', ?_, g2⟩
      unfold runSessions
      rw [h1, Res.bind_ok]
      exact g1
  exact key ss ⟨none, data⟩ [] (fun f hf => by cases hf) (fun _ => rfl) (fun e he => by cases he) hfresh

/-- Steps without numbers are counted from 0. -/
theorem writerSteps_count {T : Type} : ∀ (ws : List (WriteCall T)) (n : Int), (∀ w ∈ ws, w.step = none) →
    (writerSteps n ws).map PvdEntry.step = (List.range ws.length).map (fun (i : Nat) => n + i)
  | [], _, _ => rfl
  | w :: ws, n, h => by
    unfold writerSteps
    rw [h w (by simp)]
    dsimp only
    rw [List.map_cons, writerSteps_count ws (n + 1) (fun w hw => h w (List.mem_cons_of_mem _ hw)), List.length_cons, List.range_succ_eq_map, List.map_cons, List.map_map]
    congr 1
    · simp
    · apply List.map_congr_left
      intro i _
      simp only [Function.comp]
      push_cast
      omega

/-- One writer that numbers all steps itself never writes one twice. -/
theorem C52_one_writer {T : Type} (F : TimeFormat T) (s : PvdSession T) (h : ∀ w ∈ s.writes, w.step = none) : FreshSteps F [] [s] := by
  refine ⟨?_, trivial⟩
  rw [List.takeWhile_nil, List.nil_append, writerSteps_count _ _ h]
  refine List.Nodup.map ?_ List.nodup_range
  intro a b hab
  simpa using hab

/-- **Numbers of steps.** A write with a number keeps it; the writes without numbers that follow count up from this number, the first of them using it again. -/
theorem C52_numbers {T : Type} (pre : List (WriteCall T)) (k : Int) (t : T) (ws : List (WriteCall T)) (h : ∀ w ∈ ws, w.step = none) (n : Int) :
    (writerSteps n (pre ++ ⟨some k, t⟩ :: ws)).map PvdEntry.step =
      (writerSteps n pre).map PvdEntry.step ++ k :: (List.range ws.length).map (fun (i : Nat) => k + i) ∧
    (writerSteps n (pre ++ ⟨some k, t⟩ :: ws)).map PvdEntry.time = (pre ++ ⟨some k, t⟩ :: ws).map WriteCall.time := by
  constructor
  · induction pre generalizing n with
    | nil =>
      show (⟨k, t⟩ :: writerSteps k ws : List (PvdEntry T)).map PvdEntry.step = _
      rw [List.map_cons, writerSteps_count ws k h]
      rfl
    | cons w pre ih =>
      rw [List.cons_append]
      unfold writerSteps
      cases w.step with
      | some k' => exact congrArg (k' :: ·) (ih k')
      | none => exact congrArg (n :: ·) (ih (n + 1))
  · generalize pre ++ ⟨some k, t⟩ :: ws = l
    induction l generalizing n with
    | nil => rfl
    | cons w l ih =>
      unfold writerSteps
      cases w.step with
      | some k' => exact congrArg (w.time :: ·) (ih k')
      | none => exact congrArg (w.time :: ·) (ih (n + 1))

example : ((writerSteps 0 [⟨none, 0⟩, ⟨some 7, 1⟩, ⟨none, 2⟩, ⟨none, 3⟩] : List (PvdEntry Nat)).map PvdEntry.step) = [0, 7, 7, 8] :=
  (C52_numbers [⟨none, 0⟩] 7 1 [⟨none, 2⟩, ⟨none, 3⟩] (by decide) 0).1.trans (by decide)

/-! ## Examples and what goes wrong -/

/-- Times are whole numbers, written with so many ones. -/
def unaryTime : TimeFormat Nat where
  format n := List.replicate (n + 6) (ch '1')
  stod l := if 6 ≤ l.length then some (l.length - 6) else none
  before a b := decide (a < b)

theorem unaryTime_good : GoodTime unaryTime where
  back t := by simp [unaryTime]
  length t := by simp [unaryTime]
  chars t c hc := by
    rw [show unaryTime.format t = List.replicate (t + 6) (ch '1') from rfl] at hc
    rw [List.eq_of_mem_replicate hc]
    decide

/-- Three steps, and a restart from time 2 in which the second write is cut short. -/
example : [(⟨0, [⟨none, 0⟩, ⟨none, 1⟩, ⟨none, 2⟩], none⟩ : PvdSession Nat), ⟨2, [⟨some 2, 2⟩, ⟨some 3, 3⟩], some 10⟩].foldl (listedAfter unaryTime) [] =
    [⟨0, 0⟩, ⟨1, 1⟩, ⟨2, 2⟩] := by decide

example : FreshSteps unaryTime [] [(⟨0, [⟨none, 0⟩, ⟨none, 1⟩, ⟨none, 2⟩], none⟩ : PvdSession Nat), ⟨2, [⟨some 2, 2⟩, ⟨some 3, 3⟩], some 10⟩] := by
  refine ⟨by decide, by decide, trivial⟩

/-- Steps are numbered from 0 again after a restart: the step of time 0 is still listed, but its data are those of time 2. -/
theorem C52_restart_refuted :
    let ss : List (PvdSession Nat) := [⟨0, [⟨none, 0⟩, ⟨none, 1⟩], none⟩, ⟨2, [⟨none, 2⟩], none⟩]
    (⟨0, 0⟩ : PvdEntry Nat) ∈ ss.foldl (listedAfter unaryTime) [] ∧
      ((runSessions unaryTime ⟨none, fun _ => none⟩ ss).bind fun dir => .ok (dir.data 0)) = .ok (some 2) := by
  constructor
  · decide
  · decide +kernel

/-- Within one session: the write after one with a number overwrites its data. -/
theorem C52_explicit_refuted :
    let ss : List (PvdSession Nat) := [⟨0, [⟨some 5, 0⟩, ⟨none, 1⟩], none⟩]
    (⟨5, 0⟩ : PvdEntry Nat) ∈ ss.foldl (listedAfter unaryTime) [] ∧
      ((runSessions unaryTime ⟨none, fun _ => none⟩ ss).bind fun dir => .ok (dir.data 5)) = .ok (some 1) := by
  constructor
  · decide
  · decide +kernel

/-- If the construction of a writer is cut short before anything is written, all steps are lost, even those before the restart. -/
theorem C52_reopen_refuted {T : Type} {F : TimeFormat T} (hF : GoodTime F) {file : FileBytes} {es : List (PvdEntry T)} (h : Lists F file es) (restart again : T) :
    ∃ f, openPvdCrash F restart (some file) 0 = .ok f ∧ readPvd F f = .ok [] ∧ readExistingPvd F again (some f) = .ok pvdPrologue := by
  refine ⟨[], ?_, rfl, ?_⟩
  · unfold openPvdCrash openPvd
    rw [open_lists hF restart h]
    rfl
  · unfold readExistingPvd
    dsimp only
    rw [if_pos (by decide)]

end OmegaH
