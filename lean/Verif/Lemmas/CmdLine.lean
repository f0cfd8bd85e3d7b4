import Verif.Model.CmdLine
import Verif.Spec.CmdLine

/-! Lemmas about the command line parser: what shifting, a flag and the loop over the flags do. -/

namespace OmegaH

open Spec

/-- The memory holds words that were looked at, words still to be looked at, and what lies behind. -/
structure ArgvHolds (a : Argv) (pre todo tail : List String) : Prop where
  mem : a.mem = pre ++ todo ++ tail
  argc : a.argc = pre.length + todo.length

theorem shift_mem (ws : List String) : ∀ (pre : List String) (w : String) (tail : List String),
    ∃ x, (w :: ws).getLast? = some x ∧
      (List.range' pre.length ws.length).foldlM (fun m j => (m[j + 1]?).map (fun w => m.set j w)) (pre ++ w :: ws ++ tail)
        = some (pre ++ ws ++ x :: tail) := by
  induction ws with
  | nil => intro pre w tail; exact ⟨w, rfl, by simp⟩
  | cons w2 ws ih =>
    intro pre w tail
    obtain ⟨x, hx, h⟩ := ih (pre ++ [w2]) w2 tail
    refine ⟨x, by simpa [List.getLast?_cons_cons] using hx, ?_⟩
    have e : (pre ++ w :: w2 :: ws ++ tail)[pre.length + 1]? = some w2 := by
      rw [List.append_assoc, List.getElem?_append_right (by omega)]; simp
    have e2 : (pre ++ w :: w2 :: ws ++ tail).set pre.length w2 = (pre ++ [w2]) ++ w2 :: ws ++ tail := by
      rw [List.append_assoc, List.set_append_right _ _ (by omega)]; simp
    rw [List.length_cons, List.range'_succ, List.foldlM_cons, e]
    simp only [Option.map_some, Option.bind_eq_bind, Option.bind_some]
    rw [e2]
    have := h
    simp only [List.length_append, List.length_cons, List.length_nil, Nat.zero_add] at this
    rw [this]
    simp

theorem ArgvHolds.shift {a : Argv} {pre ws tail : List String} {w : String} (h : ArgvHolds a pre (w :: ws) tail) :
    ∃ a1 x, a.shift pre.length = some a1 ∧ (w :: ws).getLast? = some x ∧ ArgvHolds a1 pre ws (x :: tail) := by
  obtain ⟨x, hx, e⟩ := shift_mem ws pre w tail
  refine ⟨⟨pre.length + ws.length, pre ++ ws ++ x :: tail⟩, x, ?_, hx, ⟨rfl, rfl⟩⟩
  have e1 : a.argc - 1 - pre.length = ws.length := by rw [h.argc, List.length_cons]; omega
  have e2 : a.argc - 1 = pre.length + ws.length := by rw [h.argc, List.length_cons]; omega
  rw [Argv.shift, e1, e2, h.mem, e]; rfl

theorem ArgvHolds.get {a : Argv} {pre ws tail : List String} {w : String} (h : ArgvHolds a pre (w :: ws) tail) :
    a.mem[pre.length]? = some w := by
  rw [h.mem, List.append_assoc, List.getElem?_append_right (by omega)]; simp

theorem ArgvHolds.get_stale {a : Argv} {pre tail : List String} {w : String} (h : ArgvHolds a pre [] (w :: tail)) :
    a.mem[pre.length]? = some w := by
  rw [h.mem, List.append_assoc, List.getElem?_append_right (by omega)]; simp

theorem ArgvHolds.skip {a : Argv} {pre ws tail : List String} {w : String} (h : ArgvHolds a pre (w :: ws) tail) :
    ArgvHolds a (pre ++ [w]) ws tail :=
  ⟨by rw [h.mem]; simp, by rw [h.argc]; simp; omega⟩

/-- Arguments with the values they were given so far. -/
def fillArgs : List String → List String → List CArg
  | [], _ => []
  | n :: ns, [] => CArg.fresh n :: fillArgs ns []
  | n :: ns, v :: vs => ⟨n, some v, true⟩ :: fillArgs ns vs

theorem fillArgs_nil (ns : List String) : fillArgs ns [] = ns.map CArg.fresh := by
  induction ns with
  | nil => rfl
  | cons n ns ih => rw [fillArgs, ih]; rfl

theorem fillArgs_length (ns : List String) : ∀ vs, (fillArgs ns vs).length = ns.length := by
  induction ns with
  | nil => intro vs; rfl
  | cons n ns ih => intro vs; cases vs <;> simp [fillArgs, ih]

theorem fillArgs_next (ns : List String) : ∀ (vs : List String), vs.length < ns.length →
    ∃ n, ns[vs.length]? = some n ∧ (fillArgs ns vs)[vs.length]? = some (CArg.fresh n) ∧
      ∀ w, (fillArgs ns vs).set vs.length ⟨n, some w, true⟩ = fillArgs ns (vs ++ [w]) := by
  induction ns with
  | nil => intro vs h; simp at h
  | cons n ns ih =>
    intro vs h
    cases vs with
    | nil => exact ⟨n, rfl, rfl, fun w => rfl⟩
    | cons v vs =>
      obtain ⟨m, h1, h2, h3⟩ := ih vs (by simpa using h)
      refine ⟨m, by simpa using h1, by simpa [fillArgs] using h2, ?_⟩
      intro w
      simp only [fillArgs, List.length_cons, List.set_cons_succ, List.cons_append]
      rw [h3 w]

theorem parseArgs_holds (ns : List String) : ∀ (a : Argv) (pre vs ws tail : List String), vs.length = ns.length →
    ArgvHolds a pre (vs ++ ws) tail →
    ∃ a1 tail1, parseArgs pre.length (ns.map CArg.fresh) a = some (true, fillArgs ns vs, a1) ∧ ArgvHolds a1 pre ws tail1 ∧
      (ws = [] → tail1.head? = (vs.getLast?).or tail.head?) := by
  induction ns with
  | nil =>
    intro a pre vs ws tail hl h
    have : vs = [] := List.length_eq_zero_iff.1 hl
    subst this
    exact ⟨a, tail, rfl, by simpa using h, fun _ => by simp⟩
  | cons n ns ih =>
    intro a pre vs ws tail hl h
    cases vs with
    | nil => simp at hl
    | cons v vs =>
      rw [List.cons_append] at h
      obtain ⟨a1, x, e, hx, h1⟩ := h.shift
      obtain ⟨a2, tail2, e2, h2, ht⟩ := ih a1 pre vs ws (x :: tail) (by simpa using hl) h1
      refine ⟨a2, tail2, ?_, h2, ?_⟩
      · rw [List.map_cons, parseArgs]
        simp only [CArg.parse, CArg.fresh, h.get, e, Option.bind_some, Option.map_some, Bool.false_eq_true, if_false, if_true]
        rw [e2]
        rfl
      · intro hw
        rw [ht hw]
        subst hw
        rw [List.append_nil] at hx
        cases vs with
        | nil => simpa using hx.symm
        | cons v2 vs =>
          obtain ⟨y, hy⟩ : ∃ y, (v2 :: vs).getLast? = some y := ⟨_, List.getLast?_eq_some_getLast (by simp)⟩
          rw [List.getLast?_cons_cons, hy]; rfl

/-- A flag that was not given yet, and the words it takes. -/
theorem flag_parse_ok (n : String) (ns : List String) (a : Argv) (pre vs ws tail : List String) (hl : vs.length = ns.length)
    (h : ArgvHolds a pre (n :: (vs ++ ws)) tail) :
    ∃ a1 tail1, (CFlag.fresh n ns).parse a pre.length = some (true, ⟨n, true, fillArgs ns vs⟩, a1) ∧ ArgvHolds a1 pre ws tail1 ∧
      (ws = [] → tail1.head? = (n :: vs).getLast?) := by
  obtain ⟨a1, x, e, hx, h1⟩ := h.shift
  obtain ⟨a2, tail2, e2, h2, ht⟩ := parseArgs_holds ns a1 pre vs ws (x :: tail) hl h1
  refine ⟨a2, tail2, ?_, h2, ?_⟩
  · rw [CFlag.parse]
    have hnp : ¬ (CFlag.fresh n ns).parsed = true := by simp [CFlag.fresh]
    rw [if_neg hnp, e, Option.bind_some]
    have hneg : ¬ (a1.argc : Int) - (pre.length : Int) < ((CFlag.fresh n ns).args.length : Int) := by
      rw [h1.argc, List.length_append, CFlag.fresh, List.length_map]; omega
    rw [if_neg hneg, show (CFlag.fresh n ns).args = ns.map CArg.fresh from rfl, e2]
    rfl
  · intro hw
    rw [ht hw]
    subst hw
    rw [List.append_nil] at hx
    cases vs with
    | nil => simpa using hx.symm
    | cons v2 vs =>
      obtain ⟨y, hy⟩ : ∃ y, (v2 :: vs).getLast? = some y := ⟨_, List.getLast?_eq_some_getLast (by simp)⟩
      rw [List.getLast?_cons_cons, hy]; rfl

/-- A flag with too few words behind it. -/
theorem flag_parse_short (n : String) (ns : List String) (a : Argv) (pre ws tail : List String) (hl : ws.length < ns.length)
    (h : ArgvHolds a pre (n :: ws) tail) :
    ∃ f a1, (CFlag.fresh n ns).parse a pre.length = some (false, f, a1) := by
  obtain ⟨a1, x, e, hx, h1⟩ := h.shift
  refine ⟨CFlag.fresh n ns, a1, ?_⟩
  rw [CFlag.parse]
  have hnp : ¬ (CFlag.fresh n ns).parsed = true := by simp [CFlag.fresh]
  rw [if_neg hnp, e, Option.bind_some]
  have hpos : (a1.argc : Int) - (pre.length : Int) < ((CFlag.fresh n ns).args.length : Int) := by
    rw [h1.argc, CFlag.fresh, List.length_map]; omega
  rw [if_pos hpos]

/-- A flag found in the word behind the end of the line. -/
theorem flag_parse_stale (f : CFlag) (a : Argv) (pre tail : List String) (hp : pre ≠ []) (h : ArgvHolds a pre [] tail) :
    ∃ f1 a1, f.parse a pre.length = some (false, f1, a1) := by
  have hp : 0 < pre.length := List.length_pos_iff.2 hp
  have ha : a.argc = pre.length := by rw [h.argc]; rfl
  rw [CFlag.parse]
  split
  · exact ⟨_, _, rfl⟩
  · have : a.shift pre.length = some ⟨a.argc - 1, a.mem⟩ := by
      rw [Argv.shift, show a.argc - 1 - pre.length = 0 by omega]; rfl
    rw [this, Option.bind_some, if_pos (by simp only; omega)]
    exact ⟨_, _, rfl⟩

/-- The values a flag was given. -/
def flagValues (done : List CItem) (n : String) : Option (List String) :=
  done.findSome? (fun x => match x with | .flag m vs => if m = n then some vs else none | _ => none)

theorem flagValues_append (a b : List CItem) (n : String) : flagValues (a ++ b) n = (flagValues a n).or (flagValues b n) := by
  rw [flagValues, List.findSome?_append]; rfl

theorem flagValues_none {done : List CItem} {n : String} (h : n ∉ done.filterMap CItem.flagName?) : flagValues done n = none := by
  rw [flagValues, List.findSome?_eq_none_iff]
  intro x hx
  cases x with
  | flag m vs =>
    dsimp only
    rw [if_neg]
    rintro rfl
    exact h (List.mem_filterMap.2 ⟨_, hx, rfl⟩)
  | _ => rfl

theorem flagValues_some {done : List CItem} {n : String} {vs : List String} (hn : (done.filterMap CItem.flagName?).Nodup)
    (h : CItem.flag n vs ∈ done) : flagValues done n = some vs := by
  obtain ⟨a, b, rfl⟩ := List.append_of_mem h
  rw [flagValues_append, flagValues_none]
  · simp [flagValues]
  · intro hm
    rw [List.filterMap_append, List.nodup_append] at hn
    exact hn.2.2 n hm n (by simp [CItem.flagName?]) rfl

/-- A flag as the parser has it after these items. -/
def flagOf (done : List CItem) (f : String × List String) : CFlag :=
  match flagValues done f.1 with
  | some vs => ⟨f.1, true, fillArgs f.2 vs⟩
  | none => CFlag.fresh f.1 f.2

theorem flagOf_name (done : List CItem) (f : String × List String) : (flagOf done f).name = f.1 := by
  rw [flagOf]; split <;> rfl

/-- What is known of the items read so far. -/
structure CBegun (d : CDecl) (done : List CItem) : Prop where
  fits : ∀ x ∈ done, x.Fits d
  once : (done.filterMap CItem.flagName?).Nodup
  args : (done.filterMap CItem.arg?).length ≤ d.args.length
  extra : ∀ before w after, done = before ++ .extra w :: after → (before.filterMap CItem.arg?).length = d.args.length

/-- Every reading of the line begins with these items and goes on with these words. -/
def CLeads (d : CDecl) (line : List String) (done : List CItem) (todo : List String) : Prop :=
  ∀ items, IsReading d line items → ∃ rest, items = done ++ rest ∧ rest.flatMap CItem.words = todo

theorem Spec.CItem.words_ne_nil (x : CItem) : x.words ≠ [] := by cases x <;> simp [CItem.words]

theorem words_nil {rest : List CItem} (h : rest.flatMap CItem.words = []) : rest = [] := by
  cases rest with
  | nil => rfl
  | cons x rest =>
    rw [List.flatMap_cons, List.append_eq_nil_iff] at h
    exact absurd h.1 x.words_ne_nil

/-- The first item of what is left has the first word of what is left. -/
theorem CLeads.head {d : CDecl} {line ws : List String} {done : List CItem} {w : String} (h : CLeads d line done (w :: ws))
    {items : List CItem} (hi : IsReading d line items) :
    ∃ x rest, items = done ++ x :: rest ∧ x.words ++ rest.flatMap CItem.words = w :: ws ∧ x.Fits d := by
  obtain ⟨rest, rfl, e⟩ := h items hi
  cases rest with
  | nil => simp at e
  | cons x rest => exact ⟨x, rest, rfl, by simpa using e, hi.fits x (by simp)⟩

theorem names_unique {d : CDecl} (hd : d.names.Nodup) {n : String} {a b : List String} (ha : (n, a) ∈ d.flags) (hb : (n, b) ∈ d.flags) :
    a = b := by
  rw [CDecl.names] at hd
  generalize d.flags = l at *
  induction l with
  | nil => simp at ha
  | cons x l ih =>
    rw [List.map_cons, List.nodup_cons] at hd
    rcases List.mem_cons.1 ha with rfl | ha'
    · rcases List.mem_cons.1 hb with h | hb'
      · exact (Prod.mk.inj h).2.symm
      · exact absurd (List.mem_map.2 ⟨_, hb', rfl⟩) hd.1
    · rcases List.mem_cons.1 hb with rfl | hb'
      · exact absurd (List.mem_map.2 ⟨_, ha', rfl⟩) hd.1
      · exact ih hd.2 ha' hb'

/-- If the first word is a flag, so is the first item. -/
theorem CLeads.flag {d : CDecl} (hd : d.names.Nodup) {line ws : List String} {done : List CItem} {n : String} {ns : List String}
    (hn : (n, ns) ∈ d.flags) (h : CLeads d line done (n :: ws)) {items : List CItem} (hi : IsReading d line items) :
    ∃ vs rest, items = done ++ .flag n vs :: rest ∧ vs.length = ns.length ∧ vs ++ rest.flatMap CItem.words = ws := by
  obtain ⟨x, rest, e, e2, hf⟩ := h.head hi
  have hm : n ∈ d.names := List.mem_map.2 ⟨_, hn, rfl⟩
  cases x with
  | flag m vs =>
    obtain ⟨ms, hms, hl⟩ := hf
    rw [CItem.words, List.cons_append, List.cons.injEq] at e2
    obtain ⟨rfl, e2⟩ := e2
    rw [names_unique hd hms hn] at hl
    exact ⟨vs, rest, e, hl, e2⟩
  | help =>
    rw [CItem.words, List.cons_append, List.cons.injEq] at e2
    rw [CItem.Fits, e2.1] at hf
    exact absurd hm hf
  | arg w =>
    rw [CItem.words, List.cons_append, List.cons.injEq] at e2
    rw [CItem.Fits, e2.1] at hf
    exact absurd hm hf.1
  | extra w =>
    rw [CItem.words, List.cons_append, List.cons.injEq] at e2
    rw [CItem.Fits, e2.1] at hf
    exact absurd hm hf.1

theorem sublist_pair {n v : String} : ∀ (a b : List String), (a ++ n :: b).Nodup → ([n, v].Sublist (a ++ n :: b) ↔ v ∈ b) := by
  intro a b hd
  constructor
  · intro h
    induction a with
    | nil =>
      rw [List.nil_append] at h hd
      cases h with
      | cons _ h => exact absurd (h.subset (by simp)) (List.nodup_cons.1 hd).1
      | cons_cons _ h => exact h.subset (by simp)
    | cons x a ih =>
      rw [List.cons_append] at h hd
      cases h with
      | cons _ h => exact ih (List.nodup_cons.1 hd).2 h
      | cons_cons _ h => exact absurd (by simp) (List.nodup_cons.1 hd).1
  · intro h
    exact List.Sublist.trans (List.Sublist.cons_cons n (List.singleton_sublist.2 h)) (List.sublist_append_right a (n :: b))

theorem CBegun.append_flag {d : CDecl} {done : List CItem} (h : CBegun d done) {n : String} {ns vs : List String} (hn : (n, ns) ∈ d.flags)
    (hl : vs.length = ns.length) (hf : n ∉ done.filterMap CItem.flagName?) : CBegun d (done ++ [.flag n vs]) := by
  refine ⟨?_, ?_, ?_, ?_⟩
  · intro x hx
    rcases List.mem_append.1 hx with hx | hx
    · exact h.fits x hx
    · rw [List.mem_singleton.1 hx]; exact ⟨ns, hn, hl⟩
  · rw [List.filterMap_append]
    rw [List.nodup_append]
    refine ⟨h.once, by simp [CItem.flagName?], ?_⟩
    intro a ha b hb
    simp [CItem.flagName?] at hb
    subst hb
    rintro rfl
    exact hf ha
  · rw [List.filterMap_append, show List.filterMap CItem.arg? [CItem.flag n vs] = [] from rfl, List.append_nil]; exact h.args
  · intro before w after e
    rcases List.append_eq_append_iff.1 e with ⟨c, e1, e2⟩ | ⟨c, e1, e2⟩
    · cases c with
      | nil => simp at e2
      | cons y c => simp at e2
    · cases c with
      | nil => simp at e2
      | cons y c =>
        rw [List.cons_append, List.cons.injEq] at e2
        obtain ⟨rfl, -⟩ := e2
        exact h.extra before w c e1

/-- The loop over the flags when nothing is left on the line. -/
theorem parseFlags_stale (fs : List CFlag) (a : Argv) (pre tail : List String) (v : String) (hp : pre ≠ [])
    (h : ArgvHolds a pre [] (v :: tail)) :
    (v ∉ fs.map CFlag.name → parseFlags pre.length fs a = some (true, false, fs, a)) ∧
      (v ∈ fs.map CFlag.name → ∃ b fs1 a1, parseFlags pre.length fs a = some (false, b, fs1, a1)) := by
  induction fs with
  | nil => exact ⟨fun _ => rfl, fun h => by simp at h⟩
  | cons f fs ih =>
    rw [parseFlags, h.get_stale, Option.bind_some]
    constructor
    · intro hv
      rw [List.map_cons, List.mem_cons, not_or] at hv
      rw [if_neg (fun e => hv.1 e.symm), ih.1 hv.2]; rfl
    · intro hv
      by_cases e : f.name = v
      · obtain ⟨f1, a1, e1⟩ := flag_parse_stale f a pre (v :: tail) hp h
        rw [if_pos e, e1]
        exact ⟨_, _, _, rfl⟩
      · rw [if_neg e]
        rw [List.map_cons, List.mem_cons] at hv
        rcases hv with hv | hv
        · exact absurd hv.symm e
        · obtain ⟨b, fs1, a1, e1⟩ := ih.2 hv
          rw [e1]
          exact ⟨_, _, _, rfl⟩

/-- The loop over the flags. -/
theorem parseFlags_holds (d : CDecl) (hd : d.names.Nodup) (line : List String) (fsuf : List (String × List String)) :
    ∀ (fpre : List (String × List String)) (done : List CItem) (a : Argv) (pre : List String) (w : String) (ws tail : List String),
    d.flags = fpre ++ fsuf → pre ≠ [] → CBegun d done → CLeads d line done (w :: ws) → done.flatMap CItem.words ++ w :: ws = line →
    ArgvHolds a pre (w :: ws) tail →
    (∃ b fs a1, parseFlags pre.length (fsuf.map (flagOf done)) a = some (false, b, fs, a1) ∧
      ∀ items, IsReading d line items → EndsInFlagName d items) ∨
    (∃ more todo1 tail1 a1, parseFlags pre.length (fsuf.map (flagOf done)) a
        = some (true, !more.isEmpty, fsuf.map (flagOf (done ++ more)), a1) ∧
      ArgvHolds a1 pre todo1 tail1 ∧ more.flatMap CItem.words ++ todo1 = w :: ws ∧ CBegun d (done ++ more) ∧
      CLeads d line (done ++ more) todo1 ∧ (∀ x ∈ more, x.left = [] ∧ x ≠ .help ∧ x.arg? = none) ∧
      (∀ n ∈ more.filterMap CItem.flagName?, n ∈ fsuf.map (·.1)) ∧
      (more = [] → w ∉ fsuf.map (·.1) ∧ a1 = a ∧ tail1 = tail) ∧ (todo1 = [] → ¬ EndsInFlagName d (done ++ more))) := by
  induction fsuf with
  | nil =>
    intro fpre done a pre w ws tail _ hp hb hl hw h
    refine Or.inr ⟨[], w :: ws, tail, a, rfl, h, rfl, by simpa using hb, by simpa using hl, by simp, by simp, by simp, by simp⟩
  | cons f fsuf ih =>
    intro fpre done a pre w ws tail hf hp hb hl hw h
    obtain ⟨n, ns⟩ := f
    have hmem : (n, ns) ∈ d.flags := by rw [hf]; simp
    have hnd : (fpre.map (·.1) ++ n :: fsuf.map (·.1)).Nodup := by
      have := hd; rw [CDecl.names, hf, List.map_append, List.map_cons] at this; exact this
    have hns : n ∉ fsuf.map (·.1) := by
      have := (List.nodup_append.1 hnd).2.1
      exact (List.nodup_cons.1 this).1
    rw [List.map_cons, parseFlags, h.get, Option.bind_some, flagOf_name]
    by_cases e : n = w
    · subst e
      rw [if_pos rfl]
      by_cases hg : n ∈ done.filterMap CItem.flagName?
      · -- given twice
        refine Or.inl ?_
        obtain ⟨x, hx, hxn⟩ := List.mem_filterMap.1 hg
        have : (flagOf done (n, ns)).parsed = true := by
          cases x with
          | flag m vs =>
            simp only [CItem.flagName?, Option.some.injEq] at hxn
            subst hxn
            rw [flagOf, flagValues_some hb.once hx]
          | _ => simp [CItem.flagName?] at hxn
        refine ⟨false, _, _, by rw [CFlag.parse, if_pos this]; rfl, ?_⟩
        intro items hi
        obtain ⟨vs, rest, rfl, -, -⟩ := hl.flag hd hmem hi
        have := hi.once
        rw [List.filterMap_append, List.nodup_append] at this
        exact absurd rfl (this.2.2 n hg n (by simp [CItem.flagName?]))
      · have hfr : flagOf done (n, ns) = CFlag.fresh n ns := by rw [flagOf, flagValues_none hg]
        rw [hfr]
        by_cases hs : ws.length < ns.length
        · -- too few words
          refine Or.inl ?_
          obtain ⟨f1, a1, e1⟩ := flag_parse_short n ns a pre ws tail hs h
          rw [e1]
          refine ⟨false, _, _, rfl, ?_⟩
          intro items hi
          obtain ⟨vs, rest, -, h1, h2⟩ := hl.flag hd hmem hi
          rw [← h2, List.length_append] at hs
          omega
        · -- the flag takes its words
          obtain ⟨vs, ws2, rfl, hlen⟩ : ∃ vs ws2, ws = vs ++ ws2 ∧ vs.length = ns.length :=
            ⟨ws.take ns.length, ws.drop ns.length, (List.take_append_drop _ _).symm, by rw [List.length_take]; omega⟩
          obtain ⟨a1, tail1, e1, h1, ht⟩ := flag_parse_ok n ns a pre vs ws2 tail hlen h
          rw [e1, Option.bind_some]
          simp only [if_true]
          have hb1 := hb.append_flag hmem hlen hg
          have hl1 : CLeads d line (done ++ [.flag n vs]) ws2 := by
            intro items hi
            obtain ⟨vs', rest, rfl, h2, h3⟩ := hl.flag hd hmem hi
            obtain ⟨rfl, h4⟩ := List.append_inj h3 (by rw [h2, hlen])
            exact ⟨rest, by simp, h4⟩
          have hw1 : (done ++ [CItem.flag n vs]).flatMap CItem.words ++ ws2 = line := by
            rw [← hw]; simp [CItem.words]
          have hmap : fsuf.map (flagOf done) = fsuf.map (flagOf (done ++ [.flag n vs])) := by
            apply List.map_congr_left
            intro g hg'
            have : g.1 ≠ n := fun e => hns (List.mem_map.2 ⟨g, hg', e⟩)
            rw [flagOf, flagOf, flagValues_append]
            have : flagValues [CItem.flag n vs] g.1 = none := flagValues_none (by simpa [CItem.flagName?] using this)
            rw [this, Option.or_none]
          have hval : ∀ more : List CItem, (∀ m ∈ more.filterMap CItem.flagName?, m ∈ fsuf.map (·.1)) →
              flagOf (done ++ [.flag n vs] ++ more) (n, ns) = ⟨n, true, fillArgs ns vs⟩ := by
            intro more hm
            have : flagValues (done ++ [.flag n vs] ++ more) n = some vs := by
              rw [flagValues_append, flagValues_append, flagValues_none hg]
              simp [flagValues]
            rw [flagOf, this]
          have hrev : done ++ [CItem.flag n vs] = done ++ ([.flag n vs] ++ []) := by simp
          cases ws2 with
          | nil =>
            obtain ⟨v, hv⟩ : ∃ v, (n :: vs).getLast? = some v := ⟨_, List.getLast?_eq_some_getLast (by simp)⟩
            have htl := ht rfl
            rw [hv] at htl
            obtain ⟨t2, rfl⟩ : ∃ t2, tail1 = v :: t2 := by
              cases tail1 with
              | nil => simp at htl
              | cons y t2 => exact ⟨t2, by simpa using htl⟩
            have hst := parseFlags_stale (fsuf.map (flagOf done)) a1 pre t2 v hp h1
            have hnm : (fsuf.map (flagOf done)).map CFlag.name = fsuf.map (·.1) := by
              rw [List.map_map]; apply List.map_congr_left; intro g _; exact flagOf_name done g
            rw [hnm] at hst
            by_cases hvm : v ∈ fsuf.map (·.1)
            · refine Or.inl ?_
              obtain ⟨b, fs1, a2, e2⟩ := hst.2 hvm
              rw [e2]
              refine ⟨_, _, _, rfl, ?_⟩
              intro items hi
              obtain ⟨rest, rfl, e3⟩ := hl1 items hi
              rw [words_nil e3, List.append_nil]
              have hvl : vs.getLast? = some v := by
                cases vs with
                | nil => simp at hv; subst hv; exact absurd hvm hns
                | cons y vs => rwa [List.getLast?_cons_cons] at hv
              refine ⟨n, vs, v, by simp, hvl, ?_⟩
              rw [CDecl.names, hf, List.map_append, List.map_cons]
              exact (sublist_pair _ _ hnd).2 hvm
            · refine Or.inr ⟨[.flag n vs], [], v :: t2, a1, ?_, h1, by simp [CItem.words], hb1, hl1, by simp [CItem.left, CItem.arg?],
                by simp [CItem.flagName?], by simp, ?_⟩
              · rw [hst.1 hvm, hmap]
                have := hval [] (by simp)
                rw [List.append_nil] at this
                simp only [Option.map_some, List.map_cons, this]
                rfl
              · rintro - ⟨n', vs', v', g1, g2, g3⟩
                rw [List.getLast?_append] at g1
                simp at g1
                obtain ⟨rfl, rfl⟩ := g1
                rw [CDecl.names, hf, List.map_append, List.map_cons] at g3
                have g4 := (sublist_pair _ _ hnd).1 g3
                cases vs with
                | nil => simp at g2
                | cons y vs =>
                  rw [List.getLast?_cons_cons, g2] at hv
                  rw [Option.some.injEq] at hv
                  subst hv
                  exact hvm g4
          | cons w2 ws2 =>
            have := ih (fpre ++ [(n, ns)]) (done ++ [.flag n vs]) a1 pre w2 ws2 tail1 (by rw [hf]; simp) hp hb1 hl1 hw1 h1
            rw [hmap]
            rcases this with ⟨b, fs, a2, e2, h2⟩ | ⟨more, todo1, tail2, a2, e2, h2, h3, h4, h5, h6, h7, h8, h9⟩
            · exact Or.inl ⟨_, _, _, by rw [e2]; rfl, h2⟩
            · refine Or.inr ⟨.flag n vs :: more, todo1, tail2, a2, ?_, h2, ?_, by simpa using h4, by simpa using h5, ?_, ?_, by simp,
                by simpa using h9⟩
              · rw [e2]
                have := hval more h7
                simp only [Option.map_some, List.map_cons]
                rw [show done ++ CItem.flag n vs :: more = done ++ [CItem.flag n vs] ++ more by simp, this]
                rfl
              · rw [List.flatMap_cons, List.append_assoc, h3]; rfl
              · intro x hx
                rcases List.mem_cons.1 hx with rfl | hx
                · simp [CItem.left, CItem.arg?]
                · exact h6 x hx
              · intro m hm
                rw [List.filterMap_cons] at hm
                simp only [CItem.flagName?] at hm
                rcases List.mem_cons.1 hm with rfl | hm
                · simp
                · exact List.mem_cons_of_mem _ (h7 m hm)
    · rw [if_neg e]
      have := ih (fpre ++ [(n, ns)]) done a pre w ws tail (by rw [hf]; simp) hp hb hl hw h
      rcases this with ⟨b, fs, a2, e2, h2⟩ | ⟨more, todo1, tail2, a2, e2, h2, h3, h4, h5, h6, h7, h8, h9⟩
      · exact Or.inl ⟨_, _, _, by rw [e2]; rfl, h2⟩
      · refine Or.inr ⟨more, todo1, tail2, a2, ?_, h2, h3, h4, h5, h6, fun m hm => List.mem_cons_of_mem _ (h7 m hm), ?_, h9⟩
        · rw [e2]
          have : flagOf (done ++ more) (n, ns) = flagOf done (n, ns) := by
            have : flagValues more n = none := flagValues_none (fun hm => hns (h7 n hm))
            rw [flagOf, flagOf, flagValues_append, this, Option.or_none]
          simp only [Option.map_some, List.map_cons, this]
        · intro hm
          obtain ⟨g1, g2⟩ := h8 hm
          refine ⟨?_, g2⟩
          rw [List.map_cons, List.mem_cons, not_or]
          exact ⟨fun h => e h.symm, g1⟩

end OmegaH
