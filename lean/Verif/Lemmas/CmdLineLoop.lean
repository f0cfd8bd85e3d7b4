import Verif.Lemmas.CmdLine

/-! The loop over the words of a command line. -/

namespace OmegaH

open Spec

/-- The parser after these items. -/
def lineOf (d : CDecl) (done : List CItem) : CLine :=
  ⟨fillArgs d.args (done.filterMap CItem.arg?), d.flags.map (flagOf done), (done.filterMap CItem.arg?).length, decide (CItem.help ∈ done)⟩

theorem lineOf_nil (d : CDecl) : lineOf d [] = CLine.fresh d.flags d.args := by
  rw [lineOf, CLine.fresh]
  simp only [List.filterMap_nil, fillArgs_nil]
  rfl

theorem CBegun.append {d : CDecl} {done : List CItem} (h : CBegun d done) {x : CItem} (hf : x.Fits d) (hn : x.flagName? = none)
    (ha : ∀ w, x = .arg w → (done.filterMap CItem.arg?).length < d.args.length)
    (he : ∀ w, x = .extra w → (done.filterMap CItem.arg?).length = d.args.length) : CBegun d (done ++ [x]) := by
  refine ⟨?_, ?_, ?_, ?_⟩
  · intro y hy
    rcases List.mem_append.1 hy with hy | hy
    · exact h.fits y hy
    · rw [List.mem_singleton.1 hy]; exact hf
  · rw [List.filterMap_append, List.filterMap_cons, hn]
    simpa using h.once
  · rw [List.filterMap_append, List.length_append]
    have h1 := h.args
    cases x with
    | arg w => have := ha w rfl; simp only [List.filterMap_cons, CItem.arg?, List.filterMap_nil, List.length_cons, List.length_nil]; omega
    | _ => simp only [List.filterMap_cons, CItem.arg?, List.filterMap_nil, List.length_nil]; omega
  · intro before w after e
    rcases List.append_eq_append_iff.1 e with ⟨c, e1, e2⟩ | ⟨c, e1, e2⟩
    · cases c with
      | nil =>
        rw [List.nil_append, List.cons.injEq] at e2
        rw [e1, List.append_nil]
        exact he w e2.1
      | cons y c => simp at e2
    · cases c with
      | nil =>
        rw [List.nil_append, List.cons.injEq] at e2
        rw [List.append_nil] at e1
        rw [← e1]
        exact he w e2.1.symm
      | cons y c =>
        rw [List.cons_append, List.cons.injEq] at e2
        obtain ⟨rfl, -⟩ := e2
        exact h.extra before w c e1

theorem CLeads.help {d : CDecl} {line ws : List String} {done : List CItem} (h : CLeads d line done ("--help" :: ws))
    (hn : "--help" ∉ d.names) : CLeads d line (done ++ [.help]) ws := by
  intro items hi
  obtain ⟨x, rest, rfl, e, hf⟩ := h.head hi
  cases x with
  | help =>
    rw [CItem.words, List.cons_append, List.cons.injEq] at e
    exact ⟨rest, by simp, e.2⟩
  | flag n vs =>
    rw [CItem.words, List.cons_append, List.cons.injEq] at e
    obtain ⟨ns, h1, -⟩ := hf
    rw [e.1] at h1
    exact absurd (List.mem_map.2 ⟨_, h1, rfl⟩) hn
  | arg w => rw [CItem.words, List.cons_append, List.cons.injEq] at e; exact absurd e.1 hf.2
  | extra w => rw [CItem.words, List.cons_append, List.cons.injEq] at e; exact absurd e.1 hf.2

theorem CLeads.arg {d : CDecl} {line ws : List String} {done : List CItem} {w : String} (h : CLeads d line done (w :: ws))
    (hn : w ∉ d.names) (hh : w ≠ "--help") (hc : (done.filterMap CItem.arg?).length < d.args.length) :
    CLeads d line (done ++ [.arg w]) ws := by
  intro items hi
  obtain ⟨x, rest, rfl, e, hf⟩ := h.head hi
  cases x with
  | help => rw [CItem.words, List.cons_append, List.cons.injEq] at e; exact absurd e.1.symm hh
  | flag n vs =>
    rw [CItem.words, List.cons_append, List.cons.injEq] at e
    obtain ⟨ns, h1, -⟩ := hf
    rw [e.1] at h1
    exact absurd (List.mem_map.2 ⟨_, h1, rfl⟩) hn
  | arg w' =>
    rw [CItem.words, List.cons_append, List.cons.injEq] at e
    exact ⟨rest, by rw [e.1]; simp, e.2⟩
  | extra w' => have := hi.extra done w' rest rfl; omega

theorem CLeads.extra {d : CDecl} {line ws : List String} {done : List CItem} {w : String} (h : CLeads d line done (w :: ws))
    (hn : w ∉ d.names) (hh : w ≠ "--help") (hc : ¬ (done.filterMap CItem.arg?).length < d.args.length) :
    CLeads d line (done ++ [.extra w]) ws := by
  intro items hi
  obtain ⟨x, rest, rfl, e, hf⟩ := h.head hi
  cases x with
  | help => rw [CItem.words, List.cons_append, List.cons.injEq] at e; exact absurd e.1.symm hh
  | flag n vs =>
    rw [CItem.words, List.cons_append, List.cons.injEq] at e
    obtain ⟨ns, h1, -⟩ := hf
    rw [e.1] at h1
    exact absurd (List.mem_map.2 ⟨_, h1, rfl⟩) hn
  | arg w' =>
    have := hi.args
    rw [List.filterMap_append, List.length_append, List.filterMap_cons] at this
    simp only [CItem.arg?, List.length_cons] at this
    omega
  | extra w' =>
    rw [CItem.words, List.cons_append, List.cons.injEq] at e
    exact ⟨rest, by rw [e.1]; simp, e.2⟩

theorem not_ends {d : CDecl} {done : List CItem} {x : CItem} (hn : x.flagName? = none) : ¬ EndsInFlagName d (done ++ [x]) := by
  rintro ⟨n, vs, v, h, -, -⟩
  rw [List.getLast?_append] at h
  simp at h
  subst h
  simp [CItem.flagName?] at hn

theorem flagOf_append {done : List CItem} {x : CItem} (hn : x.flagName? = none) (fs : List (String × List String)) :
    fs.map (flagOf (done ++ [x])) = fs.map (flagOf done) := by
  apply List.map_congr_left
  intro f _
  have : flagValues [x] f.1 = none := flagValues_none (by simp [hn])
  rw [flagOf, flagOf, flagValues_append, this, Option.or_none]

theorem loop_holds (d : CDecl) (hd : d.names.Nodup) (line : List String) (prog : String) :
    ∀ (fuel : Nat) (done : List CItem) (a : Argv) (pre todo tail : List String), pre = prog :: done.flatMap CItem.left → CBegun d done →
    CLeads d line done todo → done.flatMap CItem.words ++ todo = line → ArgvHolds a pre todo tail → todo.length < fuel →
    (todo = [] → ¬ EndsInFlagName d done) →
    (∃ c a1, CLine.loop fuel (lineOf d done) a pre.length = some (false, c, a1) ∧ ∀ items, IsReading d line items → EndsInFlagName d items) ∨
    (∃ items a1 tail1, CLine.loop fuel (lineOf d done) a pre.length = some (true, lineOf d items, a1) ∧ IsReading d line items ∧
      ¬ EndsInFlagName d items ∧ ArgvHolds a1 (prog :: items.flatMap CItem.left) [] tail1) := by
  intro fuel
  induction fuel with
  | zero => intro done a pre todo tail _ _ _ _ _ h; omega
  | succ fuel ih =>
    intro done a pre todo tail hpre hb hl hw h hfuel hend
    have hp : pre ≠ [] := by rw [hpre]; simp
    rw [CLine.loop]
    cases todo with
    | nil =>
      rw [if_neg (by rw [h.argc]; simp)]
      have hlen : (lineOf d done).args.length = d.args.length := fillArgs_length _ _
      by_cases hc : (done.filterMap CItem.arg?).length < d.args.length
      · refine Or.inl ⟨_, _, by rw [hlen]; simp only [lineOf, hc, decide_true, Bool.not_true]; rfl, ?_⟩
        intro items hi
        obtain ⟨rest, rfl, e⟩ := hl items hi
        have := hi.args
        rw [words_nil e, List.append_nil] at this
        omega
      · refine Or.inr ⟨done, a, tail, by rw [hlen]; simp only [lineOf, hc, decide_false, Bool.not_false], ?_, hend rfl, hpre ▸ h⟩
        exact ⟨by simpa using hw, hb.fits, hb.once, by have := hb.args; omega, hb.extra⟩
    | cons w ws =>
      rw [if_pos (by rw [h.argc, List.length_cons]; omega)]
      have hflags : (lineOf d done).flags = d.flags.map (flagOf done) := rfl
      rw [hflags]
      rcases parseFlags_holds d hd line d.flags [] done a pre w ws tail rfl hp hb hl hw h with
        ⟨b, fs, a2, e2, h2⟩ | ⟨more, todo1, tail2, a2, e2, h2, h3, h4, h5, h6, h7, h8, h9⟩
      · rw [e2, Option.bind_some]
        exact Or.inl ⟨_, _, rfl, h2⟩
      · rw [e2, Option.bind_some]
        simp only [Bool.true_eq_false, if_false]
        have hleft : more.flatMap CItem.left = [] := by
          rw [List.flatMap_eq_nil_iff]; exact fun x hx => (h6 x hx).1
        have hargs : more.filterMap CItem.arg? = [] := by
          rw [List.filterMap_eq_nil_iff]; exact fun x hx => (h6 x hx).2.2
        have hhelp : CItem.help ∉ more := fun hx => (h6 _ hx).2.1 rfl
        have hline : (⟨(lineOf d done).args, d.flags.map (flagOf (done ++ more)), (lineOf d done).nargs, (lineOf d done).help⟩ : CLine)
            = lineOf d (done ++ more) := by
          simp only [lineOf, List.filterMap_append, hargs, List.append_nil, List.mem_append, hhelp, or_false]
        by_cases hm : more = []
        · obtain ⟨hwn, rfl, rfl⟩ := h8 hm
          subst hm
          rw [List.flatMap_nil, List.nil_append] at h3
          subst h3
          have hwn : w ∉ d.names := hwn
          simp only [List.isEmpty_nil, Bool.not_true, Bool.false_eq_true, if_false, List.append_nil]
          rw [h.get, Option.bind_some]
          by_cases hh : w = "--help"
          · subst hh
            rw [if_pos rfl]
            have e : (⟨(lineOf d done).args, d.flags.map (flagOf done), (lineOf d done).nargs, true⟩ : CLine)
                = lineOf d (done ++ [.help]) := by
              simp only [lineOf]
              rw [flagOf_append rfl, List.filterMap_append, show List.filterMap CItem.arg? [CItem.help] = [] from rfl, List.append_nil]
              simp
            rw [e]
            have := ih (done ++ [.help]) a2 (pre ++ ["--help"]) ws tail2 (by rw [hpre]; simp [CItem.left])
              (hb.append (x := .help) hwn rfl (fun w h => nomatch h) (fun w h => nomatch h)) (hl.help hwn)
              (by rw [← hw]; simp [CItem.words]) h.skip (by simp only [List.length_cons] at hfuel; omega) (fun _ => not_ends rfl)
            rwa [List.length_append, List.length_singleton] at this
          · rw [if_neg hh]
            by_cases hc : (done.filterMap CItem.arg?).length < d.args.length
            · obtain ⟨n, g1, g2, g3⟩ := fillArgs_next d.args (done.filterMap CItem.arg?) hc
              have g2' : (lineOf d done).args[(lineOf d done).nargs]? = some (CArg.fresh n) := g2
              rw [g2']
              obtain ⟨a3, x, e3, -, h3'⟩ := h.shift
              have e4 : (CArg.fresh n).parse a2 pre.length = some (true, ⟨n, some w, true⟩, a3) := by
                rw [CArg.parse, if_neg (by simp [CArg.fresh]), h.get, Option.bind_some, e3]; rfl
              simp only [e4, Option.bind_some, if_true]
              have e5 : (⟨(lineOf d done).args.set (lineOf d done).nargs ⟨n, some w, true⟩, d.flags.map (flagOf done),
                  (lineOf d done).nargs + 1, (lineOf d done).help⟩ : CLine) = lineOf d (done ++ [.arg w]) := by
                simp only [lineOf]
                rw [flagOf_append rfl, g3 w, List.filterMap_append, show List.filterMap CItem.arg? [CItem.arg w] = [w] from rfl]
                simp
              rw [e5]
              exact ih (done ++ [.arg w]) a3 pre ws (x :: tail2) (by rw [hpre]; simp [CItem.left])
                (hb.append (x := .arg w) ⟨hwn, hh⟩ rfl (fun _ _ => hc) (fun w h => nomatch h)) (hl.arg hwn hh hc)
                (by rw [← hw]; simp [CItem.words]) h3' (by simp only [List.length_cons] at hfuel; omega) (fun _ => not_ends rfl)
            · have g2' : (lineOf d done).args[(lineOf d done).nargs]? = none := by
                rw [List.getElem?_eq_none_iff]
                show (fillArgs _ _).length ≤ (done.filterMap CItem.arg?).length
                rw [fillArgs_length]; omega
              rw [g2']
              have e : (⟨(lineOf d done).args, d.flags.map (flagOf done), (lineOf d done).nargs, (lineOf d done).help⟩ : CLine)
                  = lineOf d (done ++ [.extra w]) := by
                simp only [lineOf]
                rw [flagOf_append rfl, List.filterMap_append, show List.filterMap CItem.arg? [CItem.extra w] = [] from rfl, List.append_nil]
                simp
              rw [e]
              have := ih (done ++ [.extra w]) a2 (pre ++ [w]) ws tail2 (by rw [hpre]; simp [CItem.left])
                (hb.append (x := .extra w) ⟨hwn, hh⟩ rfl (fun w h => nomatch h) (fun _ _ => by have := hb.args; omega)) (hl.extra hwn hh hc)
                (by rw [← hw]; simp [CItem.words]) h.skip (by simp only [List.length_cons] at hfuel; omega) (fun _ => not_ends rfl)
              rwa [List.length_append, List.length_singleton] at this
        · have : (!more.isEmpty) = true := by cases more with
            | nil => exact absurd rfl hm
            | cons _ _ => rfl
          rw [this]
          simp only [if_true]
          rw [hline]
          refine ih (done ++ more) a2 pre todo1 tail2 (by rw [hpre, List.flatMap_append, hleft, List.append_nil]) h4 h5
            (by rw [List.flatMap_append, List.append_assoc, h3, hw]) h2 ?_ h9
          have hl3 := congrArg List.length h3
          rw [List.length_append, List.length_cons] at hl3
          have : 0 < (more.flatMap CItem.words).length := List.length_pos_iff.2 (fun e => hm (words_nil e))
          rw [List.length_cons] at hfuel
          omega

/-- What a reading begins with, every reading begins with. -/
theorem reading_leads {d : CDecl} (hd : d.names.Nodup) {line : List String} {items : List CItem} (hi : IsReading d line items)
    (rest : List CItem) : ∀ done, items = done ++ rest → CLeads d line done (rest.flatMap CItem.words) → CLeads d line items [] := by
  induction rest with
  | nil => intro done e h; rw [e, List.append_nil]; exact h
  | cons x rest ih =>
    intro done e h
    refine ih (done ++ [x]) (by rw [e]; simp) ?_
    rw [List.flatMap_cons] at h
    have hf : x.Fits d := hi.fits x (by rw [e]; simp)
    have ha := hi.args
    rw [e, List.filterMap_append, List.length_append, List.filterMap_cons] at ha
    cases x with
    | flag n vs =>
      intro items' hi'
      obtain ⟨ns, h1, h2⟩ := hf
      obtain ⟨vs', rest', rfl, h3, h4⟩ := CLeads.flag hd h1 h hi'
      obtain ⟨rfl, h5⟩ := List.append_inj h4 (by rw [h2, h3])
      exact ⟨rest', by simp, h5⟩
    | help => exact CLeads.help h hf
    | arg w =>
      simp only [CItem.arg?, List.length_cons] at ha
      exact CLeads.arg h hf.1 hf.2 (by omega)
    | extra w =>
      have := hi.extra done w rest e
      exact CLeads.extra h hf.1 hf.2 (by omega)

theorem reading_unique {d : CDecl} (hd : d.names.Nodup) {line : List String} {a b : List CItem} (ha : IsReading d line a)
    (hb : IsReading d line b) : a = b := by
  have h := reading_leads hd ha a [] rfl (by intro i hi; exact ⟨i, rfl, by rw [hi.words, ha.words]⟩)
  obtain ⟨rest, rfl, e⟩ := h b hb
  rw [words_nil e, List.append_nil]

theorem find_flag {d : CDecl} (hd : d.names.Nodup) (items : List CItem) {n : String} {ns : List String} (h : (n, ns) ∈ d.flags) :
    (d.flags.map (flagOf items)).find? (fun f => f.name == n) = some (flagOf items (n, ns)) := by
  rw [CDecl.names] at hd
  generalize d.flags = l at *
  induction l with
  | nil => simp at h
  | cons x l ih =>
    rw [List.map_cons, List.find?_cons, flagOf_name]
    rw [List.map_cons, List.nodup_cons] at hd
    rcases List.mem_cons.1 h with rfl | h'
    · simp
    · have : x.1 ≠ n := fun e => hd.1 (e ▸ List.mem_map.2 ⟨_, h', rfl⟩)
      have : (x.1 == n) = false := by simpa using this
      rw [this]
      exact ih hd.2 h'

theorem find_flag_none {d : CDecl} (items : List CItem) {n : String} (h : n ∉ d.names) :
    (d.flags.map (flagOf items)).find? (fun f => f.name == n) = none := by
  rw [List.find?_eq_none]
  intro f hf
  obtain ⟨g, hg, rfl⟩ := List.mem_map.1 hf
  rw [flagOf_name]
  intro e
  exact h (List.mem_map.2 ⟨g, hg, by simpa using e⟩)

theorem find_fill (ns : List String) : ∀ (vs : List String), ns.Nodup → ∀ (i : Nat) (name : String), ns[i]? = some name →
    ((fillArgs ns vs).find? (fun x => x.name == name)).map CArg.value = some vs[i]? := by
  induction ns with
  | nil => intro vs _ i name h; simp at h
  | cons n ns ih =>
    intro vs hn i name h
    rw [List.nodup_cons] at hn
    cases i with
    | zero =>
      simp only [List.getElem?_cons_zero, Option.some.injEq] at h
      subst h
      cases vs <;> simp [fillArgs, CArg.fresh]
    | succ i =>
      rw [List.getElem?_cons_succ] at h
      have hne : (n == name) = false := by
        have : n ≠ name := fun e => hn.1 (e ▸ List.mem_of_getElem? h)
        simpa using this
      cases vs with
      | nil =>
        rw [fillArgs, List.find?_cons]
        simp only [CArg.fresh, hne]
        simpa using ih [] hn.2 i name h
      | cons v vs =>
        rw [fillArgs, List.find?_cons]
        simp only [hne]
        simpa using ih vs hn.2 i name h

theorem fill_parsed (ns : List String) : ∀ (vs : List String) (i : Nat), i < ns.length →
    ((fillArgs ns vs)[i]?).map CArg.parsed = some (decide (i < vs.length)) := by
  induction ns with
  | nil => intro vs i h; simp at h
  | cons n ns ih =>
    intro vs i h
    cases i with
    | zero => cases vs <;> simp [fillArgs, CArg.fresh]
    | succ i =>
      rw [List.length_cons] at h
      cases vs with
      | nil => simpa [fillArgs] using ih [] i (by omega)
      | cons v vs => simpa [fillArgs] using ih vs i (by omega)

end OmegaH
