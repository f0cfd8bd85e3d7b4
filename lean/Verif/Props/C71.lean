import Verif.Lemmas.CmdLineLoop

/-!
C71: a program declares flags and required arguments. A line is accepted exactly if it can be read as those flags with their values and
those arguments, and then the program gets the values that stand on the line. Words nobody asked for stay on the line in their order for
whoever parses it next.

This fails when the line ends with a value of a flag that is also the name of a flag declared later.
-/

namespace OmegaH

open Spec

/-- What the parser answers about a line that was read as `items`. -/
structure Answers (d : CDecl) (items : List CItem) (c : CLine) : Prop where
  /-- A flag counts as parsed exactly if it was given. -/
  flags : ∀ n, c.parsedFlag n = true ↔ ∃ vs, CItem.flag n vs ∈ items
  /-- The values of a flag that was given are the words behind it, in order. -/
  values : ∀ n ns vs i name v, (n, ns) ∈ d.flags → ns.Nodup → CItem.flag n vs ∈ items → ns[i]? = some name → vs[i]? = some v →
    c.getOfFlag n name = some (some v) ∧ c.parsedOfFlag n i = some true
  /-- A flag that was not given keeps its defaults. -/
  defaults : ∀ n ns i name, (n, ns) ∈ d.flags → ns.Nodup → (∀ vs, CItem.flag n vs ∉ items) → ns[i]? = some name →
    c.getOfFlag n name = some none ∧ c.parsedOfFlag n i = some false
  /-- The required arguments have the words that are no flags and no values, in order. -/
  args : ∀ i name, d.args.Nodup → d.args[i]? = some name →
    ∃ v, (items.filterMap CItem.arg?)[i]? = some v ∧ c.getArg name = some (some v) ∧ c.parsedArg i = some true
  help : c.help = true ↔ CItem.help ∈ items

theorem answers_of_reading {d : CDecl} (hd : d.names.Nodup) {line : List String} {items : List CItem} (hi : IsReading d line items) :
    Answers d items (lineOf d items) := by
  have hnone : ∀ n, (∀ vs, CItem.flag n vs ∉ items) → flagValues items n = none := by
    intro n h
    apply flagValues_none
    intro hm
    obtain ⟨x, hx, e⟩ := List.mem_filterMap.1 hm
    cases x with
    | flag m vs =>
      simp only [CItem.flagName?, Option.some.injEq] at e
      subst e
      exact h vs hx
    | _ => simp [CItem.flagName?] at e
  refine ⟨?_, ?_, ?_, ?_, ?_⟩
  · intro n
    rw [CLine.parsedFlag]
    show (match (d.flags.map (flagOf items)).find? (fun f => f.name == n) with | some f => f.parsed | none => false) = true ↔ _
    by_cases hn : n ∈ d.names
    · obtain ⟨⟨m, ns⟩, hm, rfl⟩ := List.mem_map.1 hn
      rw [find_flag hd items hm]
      dsimp only
      constructor
      · intro h
        by_cases hg : ∃ vs, CItem.flag m vs ∈ items
        · exact hg
        · rw [flagOf, hnone m (fun vs hv => hg ⟨vs, hv⟩)] at h
          simp [CFlag.fresh] at h
      · rintro ⟨vs, hv⟩
        rw [flagOf, flagValues_some hi.once hv]
    · rw [find_flag_none items hn]
      constructor
      · intro h; cases h
      · rintro ⟨vs, hv⟩
        obtain ⟨ns, h1, -⟩ := hi.fits _ hv
        exact absurd (List.mem_map.2 ⟨_, h1, rfl⟩) hn
  · intro n ns vs i name v hn hnd hv hname hval
    have e : flagOf items (n, ns) = ⟨n, true, fillArgs ns vs⟩ := by rw [flagOf, flagValues_some hi.once hv]
    constructor
    · rw [CLine.getOfFlag]
      show ((d.flags.map (flagOf items)).find? (fun f => f.name == n)).bind _ = _
      rw [find_flag hd items hn, Option.bind_some, e]
      exact (find_fill ns vs hnd i name hname).trans (by rw [hval])
    · rw [CLine.parsedOfFlag]
      show (match (d.flags.map (flagOf items)).find? (fun f => f.name == n) with
        | some f => (f.args[i]?).map CArg.parsed | none => some false) = _
      rw [find_flag hd items hn, e]
      dsimp only
      rw [fill_parsed ns vs i (List.getElem?_eq_some_iff.1 hname).1]
      simp [(List.getElem?_eq_some_iff.1 hval).1]
  · intro n ns i name hn hnd hg hname
    have e : flagOf items (n, ns) = ⟨n, false, fillArgs ns []⟩ := by
      rw [flagOf, hnone n hg, fillArgs_nil]; rfl
    constructor
    · rw [CLine.getOfFlag]
      show ((d.flags.map (flagOf items)).find? (fun f => f.name == n)).bind _ = _
      rw [find_flag hd items hn, Option.bind_some, e]
      exact (find_fill ns [] hnd i name hname).trans (by simp)
    · rw [CLine.parsedOfFlag]
      show (match (d.flags.map (flagOf items)).find? (fun f => f.name == n) with
        | some f => (f.args[i]?).map CArg.parsed | none => some false) = _
      rw [find_flag hd items hn, e]
      dsimp only
      rw [fill_parsed ns [] i (List.getElem?_eq_some_iff.1 hname).1]
      simp
  · intro i name hnd hname
    have hlt : i < (items.filterMap CItem.arg?).length := by
      rw [hi.args]; exact (List.getElem?_eq_some_iff.1 hname).1
    refine ⟨(items.filterMap CItem.arg?)[i], List.getElem?_eq_getElem hlt, ?_, ?_⟩
    · rw [CLine.getArg]
      refine (find_fill d.args (items.filterMap CItem.arg?) hnd i name hname).trans ?_
      rw [List.getElem?_eq_getElem hlt]
    · rw [CLine.parsedArg]
      refine (fill_parsed d.args (items.filterMap CItem.arg?) i (List.getElem?_eq_some_iff.1 hname).1).trans ?_
      simp [hlt]
  · simp [lineOf]

/-- There is at most one way to read a line. -/
theorem C71_reading_unique (d : CDecl) (hd : d.names.Nodup) (words : List String) (r s : List CItem) (hr : IsReading d words r)
    (hs : IsReading d words s) : r = s := reading_unique hd hr hs

/-- Parsing ends, stays inside `argv`, and accepts exactly the lines that can be read and do not end with a value that is the name of a
flag declared later. Then it answers as the line says, and leaves on the line what was not asked for. `tail` is whatever lies in `argv`
behind the line, so this also holds for a line that another parser has been at. Missing: lines that end with such a value. -/
theorem C71_parse_partial (d : CDecl) (hd : d.names.Nodup) (a : Argv) (prog : String) (words tail : List String)
    (hm : a.mem = prog :: words ++ tail) (ha : a.argc = words.length + 1) :
    ∃ ok c a1, (CLine.fresh d.flags d.args).parse a = some (ok, c, a1) ∧
      (ok = true ↔ ∃ items, IsReading d words items ∧ ¬ EndsInFlagName d items) ∧
      (ok = true → ∀ items, IsReading d words items → Answers d items c ∧
        ∃ tail1, a1.mem = prog :: items.flatMap CItem.left ++ tail1 ∧ a1.argc = (items.flatMap CItem.left).length + 1) := by
  have hb : CBegun d [] := ⟨by simp, by simp, by simp, by simp⟩
  have hl : CLeads d words [] words := fun items hi => ⟨items, rfl, hi.words⟩
  have hh : ArgvHolds a [prog] words tail := ⟨by rw [hm]; simp, by rw [ha]; simp; omega⟩
  have hne : ¬ EndsInFlagName d [] := by rintro ⟨n, vs, v, h, -⟩; simp at h
  have := loop_holds d hd words prog (a.argc + 1) [] a [prog] words tail (by simp) hb hl (by simp) hh (by omega) (fun _ => hne)
  rw [lineOf_nil] at this
  rcases this with ⟨c, a1, e, h⟩ | ⟨items, a1, tail1, e, h1, h2, h3⟩
  · refine ⟨false, c, a1, e, ⟨fun h => (nomatch h), ?_⟩, fun h => (nomatch h)⟩
    rintro ⟨items, h1, h2⟩
    exact absurd (h items h1) h2
  · refine ⟨true, _, a1, e, ⟨fun _ => ⟨items, h1, h2⟩, fun _ => rfl⟩, ?_⟩
    intro _ items' hi'
    rw [reading_unique hd hi' h1]
    refine ⟨answers_of_reading hd h1, tail1, ?_, ?_⟩
    · rw [h3.mem]; simp
    · rw [h3.argc]; simp

/-- `parse_final` accepts exactly the lines that `parse` accepts, that do not ask for help and leave nothing behind. -/
theorem C71_final_partial (d : CDecl) (hd : d.names.Nodup) (a : Argv) (prog : String) (words tail : List String)
    (hm : a.mem = prog :: words ++ tail) (ha : a.argc = words.length + 1) :
    ∃ ok c a1, (CLine.fresh d.flags d.args).parseFinal a = some (ok, c, a1) ∧
      (ok = true ↔ ∃ items, IsReading d words items ∧ ¬ EndsInFlagName d items ∧ ∀ x ∈ items, x ≠ .help ∧ ∀ w, x ≠ .extra w) ∧
      (ok = true → ∀ items, IsReading d words items → Answers d items c) := by
  obtain ⟨ok, c, a1, e, h1, h2⟩ := C71_parse_partial d hd a prog words tail hm ha
  refine ⟨_, c, a1, by rw [CLine.parseFinal, e]; rfl, ?_, ?_⟩
  · constructor
    · intro h
      simp only [Bool.and_eq_true, Bool.not_eq_true', decide_eq_true_eq] at h
      obtain ⟨⟨rfl, h4⟩, h5⟩ := h
      obtain ⟨items, h6, h7⟩ := h1.1 rfl
      obtain ⟨h8, tail1, h9, h10⟩ := h2 rfl items h6
      have h11 : items.flatMap CItem.left = [] := List.length_eq_zero_iff.1 (by omega)
      rw [List.flatMap_eq_nil_iff] at h11
      refine ⟨items, h6, h7, fun x hx => ⟨?_, ?_⟩⟩
      · rintro rfl; have := h11 _ hx; simp [CItem.left] at this
      · rintro w rfl; have := h11 _ hx; simp [CItem.left] at this
    · rintro ⟨items, h6, h7, h8⟩
      have hok := h1.2 ⟨items, h6, h7⟩
      obtain ⟨h9, tail1, h10, h11⟩ := h2 hok items h6
      have h12 : items.flatMap CItem.left = [] := by
        rw [List.flatMap_eq_nil_iff]
        intro x hx
        cases x with
        | help => exact absurd rfl (h8 _ hx).1
        | extra w => exact absurd rfl ((h8 _ hx).2 w)
        | _ => rfl
      have h13 : c.help = false := by
        cases hc : c.help with
        | false => rfl
        | true => exact absurd rfl (h8 _ (h9.help.1 hc)).1
      simp only [hok, h13, h11, h12, List.length_nil]
      decide
  · intro h items hi
    simp only [Bool.and_eq_true] at h
    exact (h2 h.1.1 items hi).1

/-- `prog -o -v`, where `-o` takes a name and `-v` was declared after it: the line says that the name is `-v`, but parsing fails, and
leaves `argc` zero. -/
theorem C71_parse_refuted : ∃ (d : CDecl) (words : List String) (items : List CItem), d.names.Nodup ∧ IsReading d words items ∧
    ((CLine.fresh d.flags d.args).parse ⟨words.length + 1, "prog" :: words⟩).map (fun r => (r.1, r.2.2.argc)) = some (false, 0) := by
  refine ⟨⟨[("-o", ["name"]), ("-v", [])], []⟩, ["-o", "-v"], [.flag "-o" ["-v"]], by decide, ⟨rfl, ?_, by decide, rfl, ?_⟩, ?_⟩
  · intro x hx
    rw [List.mem_singleton.1 hx]
    exact ⟨["name"], by simp, rfl⟩
  · intro before w after e
    cases before with
    | nil => simp at e
    | cons y before => simp at e
  · decide +kernel

/-- A line with a flag that takes two values, one of them the name of a flag, a flag that takes none, an argument, help and a word too
many: it meets the hypotheses, and is accepted. -/
example : ((CLine.fresh [("-o", ["name", "n"]), ("-v", []), ("-q", ["level"])] ["mesh"]).parse
      ⟨8, ["prog", "-o", "-v", "3", "in.osh", "--help", "-v", "more", "behind"]⟩).map (fun r => (r.1, r.2.1.parsedFlag "-v", r.2.1.help, r.2.2.line))
    = some (true, true, true, ["prog", "--help", "more"]) := by decide +kernel

example : ((CLine.fresh [("-o", ["name", "n"]), ("-v", []), ("-q", ["level"])] ["mesh"]).parse
      ⟨8, ["prog", "-o", "-v", "3", "in.osh", "--help", "-v", "more", "behind"]⟩).map (fun r =>
        [r.2.1.getOfFlag "-o" "name", r.2.1.getOfFlag "-o" "n", r.2.1.getOfFlag "-q" "level", r.2.1.getArg "mesh"])
    = some [some (some "-v"), some (some "3"), some none, some (some "in.osh")] := by decide +kernel

/-- The reading of that line. -/
example : IsReading ⟨[("-o", ["name", "n"]), ("-v", []), ("-q", ["level"])], ["mesh"]⟩ ["-o", "-v", "3", "in.osh", "--help", "-v", "more"]
    [.flag "-o" ["-v", "3"], .arg "in.osh", .help, .flag "-v" [], .extra "more"] := by
  refine ⟨rfl, ?_, by decide, rfl, ?_⟩
  · intro x hx
    simp only [List.mem_cons, List.not_mem_nil, or_false] at hx
    rcases hx with rfl | rfl | rfl | rfl | rfl
    · exact ⟨["name", "n"], by simp, rfl⟩
    · exact ⟨by decide, by decide⟩
    · show "--help" ∉ _; decide
    · exact ⟨[], by simp, rfl⟩
    · exact ⟨by decide, by decide⟩
  · intro before w after e
    rcases before with _ | ⟨b1, _ | ⟨b2, _ | ⟨b3, _ | ⟨b4, _ | ⟨b5, b⟩⟩⟩⟩⟩ <;> simp at e
    obtain ⟨rfl, rfl, rfl, rfl, rfl, rfl⟩ := e
    rfl

example : ¬ EndsInFlagName ⟨[("-o", ["name", "n"]), ("-v", []), ("-q", ["level"])], ["mesh"]⟩
    [.flag "-o" ["-v", "3"], .arg "in.osh", .help, .flag "-v" [], .extra "more"] := by
  rintro ⟨n, vs, v, h, -⟩; simp at h

end OmegaH
