import Verif.Lemmas.Tags
/-!
# C74: named data on a mesh are a store, and derived data are of now
-/
namespace OmegaH
open Spec
variable {V : Type}

/-- Adding data succeeds exactly when the entities exist, the name is not empty, an array that exists has the right size and, for a new
name, the number of components and the number of names are in range. Then the data are there, what is derived from them is gone unless the
call is internal, and everything else is as before. The call is undefined exactly for a dimension outside 0 to 3. -/
theorem C74_add {m : TaggedMesh V} (h : GoodTags m) (d : Int) (t : NamedTag V) (internal : Bool) :
    ((∃ m', m.addTag d t.name t.ncomps t.typ t.arr internal = .ok m') ↔
      ∃ k : Nat, d = k ∧ EntsExist m k ∧ t.name ≠ "" ∧ (∀ a, t.arr = some a → (a.length : Int) = m.nents k * t.ncomps) ∧
        (stored m k t.name = none → 0 ≤ t.ncomps ∧ t.ncomps ≤ 127 ∧ (m.tags k).length < 127)) ∧
    (∀ m' : TaggedMesh V, ∀ k : Nat, d = k → m.addTag d t.name t.ncomps t.typ t.arr internal = .ok m' →
      m'.dim = m.dim ∧ m'.nents = m.nents ∧ GoodTags m' ∧ PutThere m.dim k t internal (stored m) (stored m')) ∧
    (m.addTag d t.name t.ncomps t.typ t.arr internal = .ub ↔ ¬ (0 ≤ d ∧ d < 4)) := by
  have hfit : ∀ (size : Int) (arr : Option (List V)), arrayFits size arr ↔ ∀ a, arr = some a → (a.length : Int) = size := by
    intro size arr
    cases arr with
    | none => exact ⟨fun _ _ hx => (by cases hx), fun _ => trivial⟩
    | some x => exact ⟨fun hx a ha => (by obtain rfl := Option.some.inj ha; exact hx), fun hx => hx x rfl⟩
  refine ⟨⟨?_, ?_⟩, ?_, add_ub h _ _ _ _ _ _⟩
  · rintro ⟨m', hr⟩
    obtain ⟨k, hk, g1, g2, g3, g4⟩ := add_only h hr
    exact ⟨k, hk, g1, g2, (hfit _ _).1 g3, g4⟩
  · rintro ⟨k, rfl, g1, g2, g3, g4⟩
    obtain ⟨m', r, _⟩ := add_ok h (k := k) (t := t) ⟨g1, g2, (hfit _ _).2 g3, g4⟩ internal
    exact ⟨m', r⟩
  · rintro m' k rfl hr
    obtain ⟨k', hk', hf⟩ := add_only h hr
    obtain rfl : k = k' := by omega
    obtain ⟨m2, r1, r2, r3, r4⟩ := add_ok h (t := t) hf internal
    obtain rfl : m2 = m' := Res.ok.inj (r1.symm.trans hr)
    exact ⟨r2.1, r2.2, r3, r4⟩

/-- Setting data is adding them with the number of components that the size of the array gives. It succeeds exactly when there are
entities, their number divides the size and the rest is as for adding. It is never undefined. -/
theorem C74_set {m : TaggedMesh V} (h : GoodTags m) (d : Int) (name : String) (typ : TagType) (a : List V) (internal : Bool) :
    ((∃ m', m.setTag d name typ a internal = .ok m') ↔
      ∃ k : Nat, d = k ∧ EntsExist m k ∧ m.nents k ≠ 0 ∧ (a.length : Int) % m.nents k = 0 ∧ name ≠ "" ∧
        (stored m k name = none → (a.length : Int) / m.nents k ≤ 127 ∧ (m.tags k).length < 127)) ∧
    (∀ m' : TaggedMesh V, ∀ k : Nat, d = k → m.setTag d name typ a internal = .ok m' →
      m'.dim = m.dim ∧ m'.nents = m.nents ∧ GoodTags m' ∧
      ∃ ncomps : Int, (a.length : Int) = m.nents k * ncomps ∧ PutThere m.dim k ⟨name, ncomps, typ, some a⟩ internal (stored m) (stored m')) ∧
    m.setTag d name typ a internal ≠ .ub := by
  refine ⟨⟨?_, ?_⟩, ?_, set_no_ub h _ _ _ _ _⟩
  · rintro ⟨m', hr⟩
    obtain ⟨k, hk, g⟩ := set_only h hr
    exact ⟨k, hk, g⟩
  · rintro ⟨k, rfl, g⟩
    have g' : SetFits m k name a := g
    obtain ⟨m', r, _⟩ := add_ok h (setFits_add typ g') internal
    exact ⟨m', (set_eq g' typ internal).trans r⟩
  · rintro m' k rfl hr
    obtain ⟨k', hk', g⟩ := set_only h hr
    obtain rfl : k = k' := by omega
    have hf := setFits_add typ g
    obtain ⟨m2, r1, r2, r3, r4⟩ := add_ok h hf internal
    obtain rfl : m2 = m' := Res.ok.inj (r1.symm.trans ((set_eq g typ internal).symm.trans hr))
    exact ⟨r2.1, r2.2, r3, _, hf.2.2.1, r4⟩

/-- Removing takes away just what has the name, whether or not there is any, and fails exactly for a dimension the mesh does not have. -/
theorem C74_remove {m : TaggedMesh V} (h : GoodTags m) (d : Int) (n : String) :
    (∀ k : Nat, d = k → (k : Int) ≤ m.dim →
      ∃ m', m.removeTag d n = .ok m' ∧ m'.dim = m.dim ∧ m'.nents = m.nents ∧ GoodTags m' ∧ TakenAway k n (stored m) (stored m')) ∧
    (¬ (0 ≤ d ∧ d ≤ m.dim) → m.removeTag d n = .fail) := by
  refine ⟨?_, fun hd => remove_fails hd n⟩
  rintro k rfl hk
  obtain ⟨m', r1, r2, r3, r4⟩ := remove_spec h hk n
  exact ⟨m', r1, r2.1, r2.2, r3, r4⟩

/-- What is stored is what is read: whether there are data, the data themselves, and their array under the right type only. -/
theorem C74_read {m : TaggedMesh V} (h : GoodTags m) (k : Nat) (n : String) :
    ((k : Int) ≤ m.dim → m.hasTag k n = .ok (stored m k n).isSome) ∧
    (∀ t, m.getTagBase k n = .ok t ↔ stored m k n = some t) ∧
    (∀ typ a, m.getArray typ k n = .ok a ↔ ∃ t, stored m k n = some t ∧ t.typ = typ ∧ t.arr = a) ∧
    (m.getTagBase k n ≠ .ub ∧ ∀ typ, m.getArray typ k n ≠ .ub) := by
  refine ⟨fun hk => hasTag_spec h hk n, ?_, ?_, ?_⟩
  · intro t
    refine ⟨?_, getTagBase_ok h⟩
    intro hr
    cases hs : stored m k n with
    | none => rw [getTagBase_fail h hs] at hr; cases hr
    | some x => rw [getTagBase_ok h hs] at hr; exact congrArg some (Res.ok.inj hr)
  · intro typ a
    refine ⟨getArray_eq h, ?_⟩
    rintro ⟨t, hs, rfl, rfl⟩
    exact getArray_ok h hs
  · cases hs : stored m k n with
    | none =>
      refine ⟨(by rw [getTagBase_fail h hs]; intro hx; cases hx), fun typ => ?_⟩
      unfold TaggedMesh.getArray
      rw [getTagBase_fail h hs]; intro hx; cases hx
    | some t =>
      refine ⟨(by rw [getTagBase_ok h hs]; intro hx; cases hx), fun typ => ?_⟩
      unfold TaggedMesh.getArray
      rw [getTagBase_ok h hs, Res.bind_ok]
      split <;> (intro hx; cases hx)

/-- The positions below the number of tags list what is stored, each exactly once. What is missing: the number itself is accepted as a
position, see `C74_position_refuted`. -/
theorem C74_positions_partial {m : TaggedMesh V} (h : GoodTags m) {k : Nat} (hk : EntsExist m k) :
    ∃ N : Nat, m.ntags k = .ok (N : Int) ∧ (∀ i : Int, i < 0 ∨ (N : Int) < i → m.getTagAt k i = .fail) ∧
      (∀ i : Nat, i < N → ∃ t, m.getTagAt k i = .ok t ∧ stored m k t.name = some t) ∧
      (∀ n t, stored m k n = some t → ∃ i : Nat, i < N ∧ m.getTagAt k i = .ok t ∧ ∀ j : Nat, j < N → m.getTagAt k j = .ok t → j = i) := by
  have hc : m.checkDim2 k = .ok () := by
    rcases checkDim2_cases m k with ⟨_, _, _, hc⟩ | ⟨hc, _⟩
    · exact hc
    · exact absurd hk (hc k rfl)
  have hn : m.ntags k = .ok ((m.tags k).length : Int) := by
    unfold TaggedMesh.ntags
    rw [hc, Res.bind_ok, tagVector_ok m h.dim.2 hk.1, Res.bind_ok]
  have hat : ∀ i : Nat, i < (m.tags k).length → m.getTagAt k i = Res.ofOption (m.tags k)[i]? := by
    intro i hi
    unfold TaggedMesh.getTagAt
    rw [hc, Res.bind_ok, if_pos (by omega), hn, Res.bind_ok, if_pos (by omega), tagVector_ok m h.dim.2 hk.1, Res.bind_ok, Int.toNat_natCast]
  have hgo : ∀ (i : Nat) (hi : i < (m.tags k).length), m.getTagAt k i = .ok (m.tags k)[i] := by
    intro i hi
    rw [hat i hi, List.getElem?_eq_getElem hi]; rfl
  have huniq : ∀ (i j : Nat) (hi : i < (m.tags k).length) (hj : j < (m.tags k).length), ((m.tags k)[i]).name = ((m.tags k)[j]).name → i = j := by
    intro i j hi hj e
    have hnd := h.names k
    refine (List.getElem_inj (i := i) (j := j) (h₀ := by rw [List.length_map]; exact hi) (h₁ := by rw [List.length_map]; exact hj) hnd).1 ?_
    rw [List.getElem_map, List.getElem_map]; exact e
  refine ⟨(m.tags k).length, hn, ?_, ?_, ?_⟩
  · intro i hi
    unfold TaggedMesh.getTagAt
    rw [hc, Res.bind_ok]
    rcases hi with hi | hi
    · rw [if_neg (by omega)]
    · rw [if_pos (by omega), hn, Res.bind_ok, if_neg (by omega)]
  · intro i hi
    refine ⟨_, hgo i hi, ?_⟩
    rcases tagIter_find (m.tags k) (m.tags k)[i].name with ⟨j, x, g1, g2, g3, g4, g5⟩ | ⟨_, _, g3⟩
    · obtain ⟨hj, hx⟩ := List.getElem?_eq_some_iff.1 g2
      have : j = i := huniq j i hj hi (by rw [hx]; exact g4)
      subst this
      show (m.tags k).find? _ = _
      rw [g3, hx]
    · exact absurd (List.mem_map.2 ⟨_, List.getElem_mem hi, rfl⟩) g3
  · intro n t hs
    rcases tagIter_find (m.tags k) n with ⟨j, x, g1, g2, g3, g4, g5⟩ | ⟨_, g2, _⟩
    · obtain rfl : x = t := Option.some.inj (g3.symm.trans hs)
      obtain ⟨hj, hx⟩ := List.getElem?_eq_some_iff.1 g2
      refine ⟨j, hj, by rw [hgo j hj, hx], ?_⟩
      intro j' hj' hr
      rw [hgo j' hj'] at hr
      exact huniq j' j hj' hj (by rw [Res.ok.inj hr, hx])
    · exact absurd (hs.symm.trans g2) (by simp)

/-! ## Histories -/

theorem ask_calls {M : TagMeasures V} {m m' : TaggedMesh V} (h : GoodTags m) :
    (∀ v, m.askLengths M = .ok (m', v) → ∃ measure, m.askMeasured (1 : Nat) "length" measure = .ok (m', v) ∧ ∀ x : TaggedMesh V,
      measure x = x.measureMetric M.lengths true 1) ∧
    (∀ v, m.askQualities M = .ok (m', v) → ∃ measure, m.askMeasured (m.dim.toNat : Nat) "quality" measure = .ok (m', v) ∧
      ∀ x : TaggedMesh V, measure x = x.measureMetric M.qualities (decide (m.dim ≠ 1)) m.dim) ∧
    (∀ v, m.askSizes M = .ok (m', v) → ∃ measure, m.askMeasured (m.dim.toNat : Nat) "size" measure = .ok (m', v) ∧
      ∀ x : TaggedMesh V, measure x = x.measureSizes M) := by
  have hd : ((m.dim.toNat : Nat) : Int) = m.dim := by have := h.dim; omega
  refine ⟨fun v hr => ⟨_, hr, fun _ => rfl⟩, fun v hr => ⟨_, ?_, fun _ => rfl⟩, fun v hr => ⟨_, ?_, fun _ => rfl⟩⟩
  · rw [hd]; exact hr
  · rw [hd]; exact hr

/-- What one call does to what it does not touch. -/
theorem call_effect {M : TagMeasures V} {m m' : TaggedMesh V} (h : GoodTags m) {c : TagCall V} (hr : m.call M c = .ok m') :
    SameEnts m m' ∧ GoodTags m' ∧ ∀ d n, ¬ TagTouches m.dim d n c →
      stored m' d n = stored m d n ∨ stored m d n = none ∧ DerivedPlace m.dim d n := by
  have hdim := h.dim
  have hD : ((m.dim.toNat : Nat) : Int) = m.dim := by omega
  cases c with
  | add d name ncomps typ arr internal =>
    have hr' : m.addTag d name ncomps typ arr internal = .ok m' := hr
    obtain ⟨k, rfl, hf⟩ := add_only h hr'
    obtain ⟨m2, r1, r2, r3, r4⟩ := add_ok h hf internal
    obtain rfl : m2 = m' := Res.ok.inj (r1.symm.trans hr')
    refine ⟨r2, r3, fun d' n' ht => Or.inl ((r4 d' n').2.2 ?_ ?_)⟩
    · rintro ⟨rfl, rfl⟩; exact ht (Or.inl ⟨rfl, rfl⟩)
    · rintro ⟨h1, h2, h3⟩; exact ht (Or.inr ⟨h1, by omega, h3⟩)
  | set d name typ a internal =>
    have hr' : m.setTag d name typ a internal = .ok m' := hr
    obtain ⟨k, rfl, g⟩ := set_only h hr'
    obtain ⟨m2, r1, r2, r3, r4⟩ := add_ok h (setFits_add typ g) internal
    obtain rfl : m2 = m' := Res.ok.inj (r1.symm.trans ((set_eq g typ internal).symm.trans hr'))
    refine ⟨r2, r3, fun d' n' ht => Or.inl ((r4 d' n').2.2 ?_ ?_)⟩
    · rintro ⟨rfl, rfl⟩; exact ht (Or.inl ⟨rfl, rfl⟩)
    · rintro ⟨h1, h2, h3⟩; exact ht (Or.inr ⟨h1, by omega, h3⟩)
  | remove d name =>
    have hr' : m.removeTag d name = .ok m' := hr
    by_cases hd : 0 ≤ d ∧ d ≤ m.dim
    · obtain ⟨k, rfl⟩ := Int.eq_ofNat_of_zero_le hd.1
      obtain ⟨m2, r1, r2, r3, r4⟩ := remove_spec h hd.2 name
      obtain rfl : m2 = m' := Res.ok.inj (r1.symm.trans hr')
      refine ⟨r2, r3, fun d' n' ht => Or.inl ((r4 d' n').2 ?_)⟩
      rintro ⟨rfl, rfl⟩; exact ht ⟨rfl, rfl⟩
    · rw [remove_fails hd] at hr'; cases hr'
  | askLengths =>
    obtain ⟨⟨m1, v⟩, g1, g2⟩ := Res.bind_eq_ok.1 hr
    obtain rfl : m1 = m' := Res.ok.inj g2
    obtain ⟨f, g3, _⟩ := (ask_calls h).1 v g1
    obtain ⟨e1, e2, e3, t, e5, _, _, e4⟩ := ask_effect h (by omega) (by omega) g3
    refine ⟨e1, e2, fun d' n' _ => ?_⟩
    by_cases hx : d' = 1 ∧ n' = "length"
    · obtain ⟨rfl, rfl⟩ := hx
      rcases e4 with e4 | ⟨e4, _⟩
      · left; rw [e4]; exact e5
      · exact Or.inr ⟨e4, Or.inl ⟨rfl, rfl⟩⟩
    · exact Or.inl (e3 d' n' hx)
  | askQualities =>
    obtain ⟨⟨m1, v⟩, g1, g2⟩ := Res.bind_eq_ok.1 hr
    obtain rfl : m1 = m' := Res.ok.inj g2
    obtain ⟨f, g3, _⟩ := (ask_calls h).2.1 v g1
    obtain ⟨e1, e2, e3, t, e5, _, _, e4⟩ := ask_effect h (by omega) (by omega) g3
    refine ⟨e1, e2, fun d' n' _ => ?_⟩
    by_cases hx : d' = m.dim.toNat ∧ n' = "quality"
    · obtain ⟨rfl, rfl⟩ := hx
      rcases e4 with e4 | ⟨e4, _⟩
      · left; rw [e4]; exact e5
      · exact Or.inr ⟨e4, Or.inr ⟨hD, Or.inl rfl⟩⟩
    · exact Or.inl (e3 d' n' hx)
  | askSizes =>
    obtain ⟨⟨m1, v⟩, g1, g2⟩ := Res.bind_eq_ok.1 hr
    obtain rfl : m1 = m' := Res.ok.inj g2
    obtain ⟨f, g3, _⟩ := (ask_calls h).2.2 v g1
    obtain ⟨e1, e2, e3, t, e5, _, _, e4⟩ := ask_effect h (by omega) (by omega) g3
    refine ⟨e1, e2, fun d' n' _ => ?_⟩
    by_cases hx : d' = m.dim.toNat ∧ n' = "size"
    · obtain ⟨rfl, rfl⟩ := hx
      rcases e4 with e4 | ⟨e4, _⟩
      · left; rw [e4]; exact e5
      · exact Or.inr ⟨e4, Or.inr ⟨hD, Or.inr rfl⟩⟩
    · exact Or.inl (e3 d' n' hx)

theorem calls_effect {M : TagMeasures V} (cs : List (TagCall V)) : ∀ {m m' : TaggedMesh V}, GoodTags m → m.calls M cs = .ok m' →
    SameEnts m m' ∧ GoodTags m' ∧ ∀ d n, (∀ c ∈ cs, ¬ TagTouches m.dim d n c) →
      (∀ t, stored m d n = some t → stored m' d n = some t) ∧
      (stored m d n = none → ¬ DerivedPlace m.dim d n → stored m' d n = none) := by
  induction cs with
  | nil =>
    intro m m' h hr
    obtain rfl : m = m' := Res.ok.inj hr
    exact ⟨⟨rfl, rfl⟩, h, fun d n _ => ⟨fun t ht => ht, fun hs _ => hs⟩⟩
  | cons c cs ih =>
    intro m m' h hr
    obtain ⟨m1, g1, g2⟩ := Res.bind_eq_ok.1 hr
    obtain ⟨a1, a2, a3⟩ := call_effect h g1
    obtain ⟨b1, b2, b3⟩ := ih a2 g2
    refine ⟨⟨b1.1.trans a1.1, b1.2.trans a1.2⟩, b2, fun d n hc => ?_⟩
    have A := a3 d n (hc c List.mem_cons_self)
    have B := b3 d n (fun c' hc' => by rw [a1.1]; exact hc c' (List.mem_cons_of_mem _ hc'))
    rw [a1.1] at B
    constructor
    · intro t ht
      rcases A with A | ⟨A, _⟩
      · exact B.1 t (A.trans ht)
      · rw [A] at ht; cases ht
    · intro hs hd
      rcases A with A | ⟨_, A⟩
      · exact B.2 (A.trans hs) hd
      · exact absurd A hd

/-- Whatever was done before and after: data that were added, and that no later call wrote, removed or dropped, are there and are
read back. Data that were removed and not touched again are not there, unless they are derived data that were asked for. -/
theorem C74_last {M : TagMeasures V} {m0 m : TaggedMesh V} (h : GoodTags m0) (before after : List (TagCall V)) (k : Nat) :
    (∀ (t : NamedTag V) (internal : Bool), m0.calls M (before ++ .add k t.name t.ncomps t.typ t.arr internal :: after) = .ok m →
      (∀ c ∈ after, ¬ TagTouches m0.dim k t.name c) →
      m.hasTag k t.name = .ok true ∧ m.getTagBase k t.name = .ok t ∧ m.getArray t.typ k t.name = .ok t.arr) ∧
    (∀ n : String, m0.calls M (before ++ .remove k n :: after) = .ok m → (∀ c ∈ after, ¬ TagTouches m0.dim k n c) →
      ¬ DerivedPlace m0.dim k n → m.hasTag k n = .ok false ∧ m.getTagBase k n = .fail) := by
  have split : ∀ (cs ds : List (TagCall V)) (x : TaggedMesh V), x.calls M (cs ++ ds) = (x.calls M cs).bind (fun y => y.calls M ds) := by
    intro cs ds
    induction cs with
    | nil => intro x; rfl
    | cons c cs ih =>
      intro x
      show (x.call M c).bind _ = ((x.call M c).bind _).bind _
      cases x.call M c with
      | ok y => exact ih y
      | fail => rfl
      | ub => rfl
  constructor
  · intro t internal hr hc
    rw [split] at hr
    obtain ⟨m1, g1, g2⟩ := Res.bind_eq_ok.1 hr
    obtain ⟨m2, g3, g4⟩ := Res.bind_eq_ok.1 g2
    obtain ⟨a1, a2, _⟩ := calls_effect before h g1
    have g3' : m1.addTag k t.name t.ncomps t.typ t.arr internal = .ok m2 := g3
    obtain ⟨k', hk', hf⟩ := add_only a2 g3'
    obtain rfl : k = k' := by omega
    obtain ⟨m3, r1, r2, r3, r4⟩ := add_ok a2 (t := t) hf internal
    obtain rfl : m3 = m2 := Res.ok.inj (r1.symm.trans g3')
    obtain ⟨b1, b2, b3⟩ := calls_effect after r3 g4
    have hs := (b3 k t.name (fun c hx => by rw [r2.1, a1.1]; exact hc c hx)).1 t ((r4 k t.name).1 ⟨rfl, rfl⟩)
    have hk : (k : Int) ≤ m.dim := by rw [b1.1, r2.1]; exact hf.1.1
    exact ⟨by rw [hasTag_spec b2 hk, hs]; rfl, getTagBase_ok b2 hs, getArray_ok b2 hs⟩
  · intro n hr hc hd
    rw [split] at hr
    obtain ⟨m1, g1, g2⟩ := Res.bind_eq_ok.1 hr
    obtain ⟨m2, g3, g4⟩ := Res.bind_eq_ok.1 g2
    obtain ⟨a1, a2, _⟩ := calls_effect before h g1
    have g3' : m1.removeTag k n = .ok m2 := g3
    by_cases hk : (k : Int) ≤ m1.dim
    · obtain ⟨m3, r1, r2, r3, r4⟩ := remove_spec a2 hk n
      obtain rfl : m3 = m2 := Res.ok.inj (r1.symm.trans g3')
      obtain ⟨b1, b2, b3⟩ := calls_effect after r3 g4
      have hs := (b3 k n (fun c hx => by rw [r2.1, a1.1]; exact hc c hx)).2 ((r4 k n).1 ⟨rfl, rfl⟩) (by rw [r2.1, a1.1]; exact hd)
      exact ⟨by rw [hasTag_spec b2 (by rw [b1.1, r2.1]; exact hk), hs]; rfl, getTagBase_fail b2 hs⟩
    · rw [remove_fails (by omega)] at g3'; cases g3'

/-! ## Derived data -/

/-- What is stored there is what `measure` gives. -/
def FreshAt (k : Nat) (n : String) (measure : TaggedMesh V → Res (List V)) (m : TaggedMesh V) : Prop :=
  ∀ t, stored m k n = some t → ∃ l, t = ⟨n, 1, .f64, some l⟩ ∧ measure m = .ok l

/-- A measure of the vertices' data called `inputs`. -/
def MeasureOf (inputs : List String) (measure : TaggedMesh V → Res (List V)) : Prop :=
  ∀ x y : TaggedMesh V, GoodTags x → GoodTags y → SameEnts x y → (∀ i ∈ inputs, stored y 0 i = stored x 0 i) → measure y = measure x

theorem derived_pos {dim : Int} (hdim : 1 ≤ dim) {k : Nat} {n : String} (h : DerivedPlace dim k n) : 1 ≤ k := by
  rcases h with ⟨h, _⟩ | ⟨h, _⟩ <;> omega

theorem derivedFrom_pos {dim : Int} (hdim : 1 ≤ dim) {name : String} {k : Nat} {n : String} (h : DerivedFrom dim name k n) : 1 ≤ k := by
  rcases h with ⟨_, ⟨h, _⟩ | ⟨h, _⟩⟩ | ⟨_, h, _⟩ <;> omega

/-- Putting data that is not derived keeps derived data fresh. -/
theorem fresh_put {m m' : TaggedMesh V} (h : GoodTags m) (h' : GoodTags m') (hs : SameEnts m m') {d : Nat} {t : NamedTag V} {internal : Bool}
    (hput : PutThere m.dim d t internal (stored m) (stored m'))
    (hint : d = 0 → t.name = "coordinates" ∨ t.name = "metric" → internal = false)
    {k : Nat} {n : String} (hne : ¬ (d = k ∧ t.name = n)) {inputs : List String} {measure : TaggedMesh V → Res (List V)}
    (hin : ∀ i ∈ inputs, (i = "coordinates" ∨ i = "metric") ∧ DerivedFrom m.dim i k n) (hm : MeasureOf inputs measure)
    (hf : FreshAt k n measure m) : FreshAt k n measure m' := by
  have hdim := h.dim
  intro x hx
  have P := hput k n
  have hne' : ¬ (k = d ∧ n = t.name) := fun e => hne ⟨e.1.symm, e.2.symm⟩
  by_cases hd : internal = false ∧ d = 0 ∧ DerivedFrom m.dim t.name k n
  · rw [P.2.1 hne' hd] at hx; cases hx
  · rw [P.2.2 hne' hd] at hx
    obtain ⟨l, e1, e2⟩ := hf x hx
    refine ⟨l, e1, (hm m m' h h' hs ?_).trans e2⟩
    intro i hi
    obtain ⟨h1, h2⟩ := hin i hi
    refine (hput 0 i).2.2 ?_ ?_
    · rintro ⟨e, rfl⟩
      exact hd ⟨hint e.symm h1, e.symm, h2⟩
    · rintro ⟨_, _, hx⟩
      have := derivedFrom_pos hdim.1 hx
      omega

theorem fresh_remove {m m' : TaggedMesh V} (h : GoodTags m) (h' : GoodTags m') (hs : SameEnts m m') {d : Nat} {name : String}
    (hrem : TakenAway d name (stored m) (stored m')) (hpol : ¬ (d = 0 ∧ (name = "coordinates" ∨ name = "metric")))
    {k : Nat} {n : String} {inputs : List String} {measure : TaggedMesh V → Res (List V)}
    (hin : ∀ i ∈ inputs, i = "coordinates" ∨ i = "metric") (hm : MeasureOf inputs measure)
    (hf : FreshAt k n measure m) : FreshAt k n measure m' := by
  intro x hx
  by_cases hd : k = d ∧ n = name
  · rw [(hrem k n).1 hd] at hx; cases hx
  · rw [(hrem k n).2 hd] at hx
    obtain ⟨l, e1, e2⟩ := hf x hx
    refine ⟨l, e1, (hm m m' h h' hs ?_).trans e2⟩
    intro i hi
    refine (hrem 0 i).2 ?_
    rintro ⟨e, rfl⟩
    exact hpol ⟨e.symm, hin i hi⟩

theorem fresh_ask {m m' : TaggedMesh V} (h : GoodTags m) {k' : Nat} (h1 : 1 ≤ k') (hk' : (k' : Int) ≤ m.dim) {n' : String}
    {f : TaggedMesh V → Res (List V)} {v : Option (List V)} (hr : m.askMeasured k' n' f = .ok (m', v))
    {k : Nat} {n : String} {inputs : List String} {measure : TaggedMesh V → Res (List V)}
    (hsame : k = k' → n = n' → f m = measure m) (hm : MeasureOf inputs measure)
    (hf : FreshAt k n measure m) : FreshAt k n measure m' := by
  obtain ⟨e1, e2, e3, t, e5, _, _, e4⟩ := ask_effect h h1 hk' hr
  have hin : measure m' = measure m := hm m m' h e2 e1 (fun i _ => e3 0 i (by omega))
  intro x hx
  by_cases hd : k = k' ∧ n = n'
  · obtain ⟨rfl, rfl⟩ := hd
    obtain rfl : t = x := Option.some.inj (e5.symm.trans hx)
    rcases e4 with e4 | ⟨_, a, e6, rfl⟩
    · obtain ⟨l, g1, g2⟩ := hf t e4
      exact ⟨l, g1, hin.trans g2⟩
    · exact ⟨a, rfl, hin.trans ((hsame rfl rfl).symm.trans e6)⟩
  · rw [e3 k n hd] at hx
    obtain ⟨l, g1, g2⟩ := hf x hx
    exact ⟨l, g1, hin.trans g2⟩

/-- The three kinds of derived data are fresh. -/
def AllFresh (M : TagMeasures V) (m : TaggedMesh V) : Prop :=
  FreshAt 1 "length" (fun x => x.measureMetric M.lengths true 1) m ∧
  FreshAt m.dim.toNat "quality" (fun x => x.measureMetric M.qualities (decide (m.dim ≠ 1)) m.dim) m ∧
  FreshAt m.dim.toNat "size" (fun x => x.measureSizes M) m

theorem measureOf_metric (f : List V → List V → Option (List V)) (b : Bool) (d : Int) :
    MeasureOf ["coordinates", "metric"] (fun x : TaggedMesh V => x.measureMetric f b d) :=
  fun _ _ h h' hs hi => metric_congr h h' hs (hi _ (by simp)) (hi _ (by simp)) f b d

theorem measureOf_sizes (M : TagMeasures V) : MeasureOf ["coordinates"] (fun x : TaggedMesh V => x.measureSizes M) :=
  fun _ _ h h' hs hi => sizes_congr h h' hs (hi _ (by simp)) M

theorem fresh_call {M : TagMeasures V} {m m' : TaggedMesh V} (h : GoodTags m) {c : TagCall V} (hp : Polite m.dim c)
    (hr : m.call M c = .ok m') (hf : AllFresh M m) : AllFresh M m' := by
  have hdim := h.dim
  have hD : ((m.dim.toNat : Nat) : Int) = m.dim := by omega
  obtain ⟨hs, h', _⟩ := call_effect h hr
  have in1 : ∀ i ∈ ["coordinates", "metric"], (i = "coordinates" ∨ i = "metric") ∧ DerivedFrom m.dim i 1 "length" := by
    intro i hi
    simp only [List.mem_cons, List.not_mem_nil, or_false] at hi
    exact ⟨hi, Or.inl ⟨hi, Or.inl ⟨rfl, rfl⟩⟩⟩
  have in2 : ∀ i ∈ ["coordinates", "metric"], (i = "coordinates" ∨ i = "metric") ∧ DerivedFrom m.dim i m.dim.toNat "quality" := by
    intro i hi
    simp only [List.mem_cons, List.not_mem_nil, or_false] at hi
    exact ⟨hi, Or.inl ⟨hi, Or.inr ⟨hD, rfl⟩⟩⟩
  have in3 : ∀ i ∈ ["coordinates"], (i = "coordinates" ∨ i = "metric") ∧ DerivedFrom m.dim i m.dim.toNat "size" := by
    intro i hi
    simp only [List.mem_cons, List.not_mem_nil, or_false] at hi
    exact ⟨Or.inl hi, Or.inr ⟨hi, hD, rfl⟩⟩
  have mo1 := measureOf_metric M.lengths true 1
  have mo2 := measureOf_metric M.qualities (decide (m.dim ≠ 1)) m.dim
  have mo3 := measureOf_sizes M
  obtain ⟨f1, f2, f3⟩ := hf
  unfold AllFresh
  rw [hs.1]
  have put : ∀ (k : Nat) (t : NamedTag V) (internal : Bool), PutThere m.dim k t internal (stored m) (stored m') →
      (k = 0 → t.name = "coordinates" ∨ t.name = "metric" → internal = false) → ¬ (k = 1 ∧ t.name = "length") →
      ¬ ((k : Int) = m.dim ∧ (t.name = "quality" ∨ t.name = "size")) →
      FreshAt 1 "length" (fun x => x.measureMetric M.lengths true 1) m' ∧
      FreshAt m.dim.toNat "quality" (fun x => x.measureMetric M.qualities (decide (m.dim ≠ 1)) m.dim) m' ∧
      FreshAt m.dim.toNat "size" (fun x => x.measureSizes M) m' := by
    intro k t internal hput q1 q2 q3
    exact ⟨fresh_put h h' hs hput q1 q2 in1 mo1 f1,
      fresh_put h h' hs hput q1 (fun e => q3 ⟨by omega, Or.inl e.2⟩) in2 mo2 f2,
      fresh_put h h' hs hput q1 (fun e => q3 ⟨by omega, Or.inr e.2⟩) in3 mo3 f3⟩
  cases c with
  | add d name ncomps typ arr internal =>
    have hr' : m.addTag d name ncomps typ arr internal = .ok m' := hr
    obtain ⟨k, rfl, hfit⟩ := add_only h hr'
    obtain ⟨m2, r1, _, _, r4⟩ := add_ok h hfit internal
    obtain rfl : m2 = m' := Res.ok.inj (r1.symm.trans hr')
    obtain ⟨q1, q2, q3⟩ := hp
    exact put k _ internal r4 (fun e => q1 (by omega)) (fun e => q2 ⟨by omega, e.2⟩) q3
  | set d name typ a internal =>
    have hr' : m.setTag d name typ a internal = .ok m' := hr
    obtain ⟨k, rfl, g⟩ := set_only h hr'
    obtain ⟨m2, r1, _, _, r4⟩ := add_ok h (setFits_add typ g) internal
    obtain rfl : m2 = m' := Res.ok.inj (r1.symm.trans ((set_eq g typ internal).symm.trans hr'))
    obtain ⟨q1, q2, q3⟩ := hp
    exact put k _ internal r4 (fun e => q1 (by omega)) (fun e => q2 ⟨by omega, e.2⟩) q3
  | remove d name =>
    have hr' : m.removeTag d name = .ok m' := hr
    by_cases hd : 0 ≤ d ∧ d ≤ m.dim
    · obtain ⟨k, rfl⟩ := Int.eq_ofNat_of_zero_le hd.1
      obtain ⟨m2, r1, _, _, r4⟩ := remove_spec h hd.2 name
      obtain rfl : m2 = m' := Res.ok.inj (r1.symm.trans hr')
      have hp' : ¬ (k = 0 ∧ (name = "coordinates" ∨ name = "metric")) := fun e => hp ⟨by omega, e.2⟩
      exact ⟨fresh_remove h h' hs r4 hp' (fun i hi => (in1 i hi).1) mo1 f1,
        fresh_remove h h' hs r4 hp' (fun i hi => (in2 i hi).1) mo2 f2, fresh_remove h h' hs r4 hp' (fun i hi => (in3 i hi).1) mo3 f3⟩
    · rw [remove_fails hd] at hr'; cases hr'
  | askLengths =>
    obtain ⟨⟨m1, v⟩, g1, g2⟩ := Res.bind_eq_ok.1 hr
    obtain rfl : m1 = m' := Res.ok.inj g2
    obtain ⟨f, g3, g4⟩ := (ask_calls h).1 v g1
    exact ⟨fresh_ask h (by omega) (by omega) g3 (fun _ _ => g4 m) mo1 f1, fresh_ask h (by omega) (by omega) g3 (fun _ e => by simp at e) mo2 f2,
      fresh_ask h (by omega) (by omega) g3 (fun _ e => by simp at e) mo3 f3⟩
  | askQualities =>
    obtain ⟨⟨m1, v⟩, g1, g2⟩ := Res.bind_eq_ok.1 hr
    obtain rfl : m1 = m' := Res.ok.inj g2
    obtain ⟨f, g3, g4⟩ := (ask_calls h).2.1 v g1
    exact ⟨fresh_ask h (by omega) (by omega) g3 (fun _ e => by simp at e) mo1 f1, fresh_ask h (by omega) (by omega) g3 (fun _ _ => g4 m) mo2 f2,
      fresh_ask h (by omega) (by omega) g3 (fun _ e => by simp at e) mo3 f3⟩
  | askSizes =>
    obtain ⟨⟨m1, v⟩, g1, g2⟩ := Res.bind_eq_ok.1 hr
    obtain rfl : m1 = m' := Res.ok.inj g2
    obtain ⟨f, g3, g4⟩ := (ask_calls h).2.2 v g1
    exact ⟨fresh_ask h (by omega) (by omega) g3 (fun _ e => by simp at e) mo1 f1, fresh_ask h (by omega) (by omega) g3 (fun _ e => by simp at e) mo2 f2,
      fresh_ask h (by omega) (by omega) g3 (fun _ _ => g4 m) mo3 f3⟩

theorem fresh_calls {M : TagMeasures V} (cs : List (TagCall V)) : ∀ {m m' : TaggedMesh V}, GoodTags m → (∀ c ∈ cs, Polite m.dim c) →
    m.calls M cs = .ok m' → AllFresh M m → GoodTags m' ∧ AllFresh M m' := by
  induction cs with
  | nil =>
    intro m m' h _ hr hf
    obtain rfl : m = m' := Res.ok.inj hr
    exact ⟨h, hf⟩
  | cons c cs ih =>
    intro m m' h hp hr hf
    obtain ⟨m1, g1, g2⟩ := Res.bind_eq_ok.1 hr
    obtain ⟨a1, a2, _⟩ := call_effect h g1
    exact ih a2 (fun c' hc' => by rw [a1.1]; exact hp c' (List.mem_cons_of_mem _ hc')) g2 (fresh_call h (hp c List.mem_cons_self) g1 hf)

theorem vertData_iff {m : TaggedMesh V} (h : GoodTags m) (n : String) (a : List V) :
    VertData m n a ↔ m.getArray .f64 0 n = .ok (some a) := by
  constructor
  · rintro ⟨t, h1, h2, h3⟩
    have := getArray_ok h h1
    rw [h2, h3] at this
    exact this
  · intro hr
    obtain ⟨t, h1, h2, h3⟩ := getArray_eq (k := 0) h hr
    exact ⟨t, h1, h2, h3⟩

theorem existing_ok {a : Option (List V)} {l : List V} (h : existing a = .ok l) : a = some l := by
  cases a with
  | none => cases h
  | some x => exact congrArg some (Res.ok.inj h)

theorem measured_ok {a : Option (List V)} {l : List V} (h : measured a = .ok l) : a = some l := by
  cases a with
  | none => cases h
  | some x => exact congrArg some (Res.ok.inj h)

theorem metric_now {m : TaggedMesh V} (h : GoodTags m) {f : List V → List V → Option (List V)} {b : Bool} {k : Nat} {l : List V}
    (hr : m.measureMetric f b k = .ok l) : EntsExist m k ∧ (m.nents k = 0 → l = []) ∧
      (m.nents k ≠ 0 → ∃ coords metric, (if b then VertData m "coordinates" coords else coords = []) ∧ VertData m "metric" metric ∧
        f coords metric = some l) := by
  unfold TaggedMesh.measureMetric at hr
  obtain ⟨a, g1, g2⟩ := Res.bind_eq_ok.1 hr
  rcases numEnts_cases m k with ⟨k', hk', hex, hn⟩ | ⟨_, hn⟩
  · obtain rfl : k = k' := by omega
    rw [hn, Res.bind_ok] at g2
    refine ⟨hex, ?_, ?_⟩
    · intro h0
      rw [if_pos h0] at g2
      exact (Res.ok.inj g2).symm
    · intro h0
      rw [if_neg h0] at g2
      obtain ⟨metric, g3, g4⟩ := Res.bind_eq_ok.1 g2
      rw [existing_ok g3] at g1
      cases b with
      | true =>
        rw [if_pos rfl] at g4
        obtain ⟨c, g5, g6⟩ := Res.bind_eq_ok.1 g4
        obtain ⟨coords, g7, g8⟩ := Res.bind_eq_ok.1 g6
        rw [existing_ok g7] at g5
        exact ⟨coords, metric, (vertData_iff h _ _).2 g5, (vertData_iff h _ _).2 g1, measured_ok g8⟩
      | false =>
        rw [if_neg (by simp)] at g4
        exact ⟨[], metric, rfl, (vertData_iff h _ _).2 g1, measured_ok g4⟩
  · rw [hn] at g2; cases g2

theorem metric_ok {m : TaggedMesh V} (h : GoodTags m) {f : List V → List V → Option (List V)} {b : Bool} {k : Nat} {l : List V}
    (hex : EntsExist m k) (h0 : m.nents k ≠ 0) {coords metric : List V} (hc : if b then VertData m "coordinates" coords else coords = [])
    (hm : VertData m "metric" metric) (hf : f coords metric = some l) : m.measureMetric f b k = .ok l := by
  unfold TaggedMesh.measureMetric
  rcases numEnts_cases m k with ⟨k', hk', _, hn⟩ | ⟨hn, _⟩
  · obtain rfl : k = k' := by omega
    rw [(vertData_iff h _ _).1 hm, Res.bind_ok, hn, Res.bind_ok, if_neg h0]
    show (Res.ok metric).bind _ = _
    rw [Res.bind_ok]
    cases b with
    | true =>
      have hc' : VertData m "coordinates" coords := hc
      rw [if_pos rfl, (vertData_iff h _ _).1 hc', Res.bind_ok]
      show (Res.ok coords).bind _ = _
      rw [Res.bind_ok, hf]; rfl
    | false =>
      have hc' : coords = [] := hc
      subst hc'
      rw [if_neg (by simp), hf]; rfl
  · exact absurd hex (hn k rfl)

theorem sizes_now {M : TagMeasures V} {m : TaggedMesh V} (h : GoodTags m) {l : List V} (hr : m.measureSizes M = .ok l) : SizesNow M m l := by
  have hD : ((m.dim.toNat : Nat) : Int) = m.dim := by have := h.dim; omega
  unfold TaggedMesh.measureSizes at hr
  rw [← hD] at hr
  rcases numEnts_cases m (m.dim.toNat : Nat) with ⟨k', hk', hex, hn⟩ | ⟨_, hn⟩
  · obtain rfl : m.dim.toNat = k' := by omega
    rw [hn, Res.bind_ok] at hr
    obtain ⟨c, g1, g2⟩ := Res.bind_eq_ok.1 hr
    refine ⟨?_, ?_⟩
    · intro h0
      rw [if_pos h0] at g2
      exact (Res.ok.inj g2).symm
    · intro h0
      rw [if_neg h0] at g2
      obtain ⟨coords, g3, g4⟩ := Res.bind_eq_ok.1 g2
      rw [existing_ok g3] at g1
      exact ⟨coords, (vertData_iff h _ _).2 g1, measured_ok g4⟩
  · rw [hn] at hr; cases hr

theorem sizes_ok {M : TagMeasures V} {m : TaggedMesh V} (h : GoodTags m) {l : List V} (hex : EntsExist m m.dim.toNat)
    (h0 : m.nents m.dim.toNat ≠ 0) (hs : SizesNow M m l) : m.measureSizes M = .ok l := by
  have hD : ((m.dim.toNat : Nat) : Int) = m.dim := by have := h.dim; omega
  obtain ⟨coords, g1, g2⟩ := hs.2 h0
  unfold TaggedMesh.measureSizes
  rw [← hD]
  rcases numEnts_cases m (m.dim.toNat : Nat) with ⟨k', hk', _, hn⟩ | ⟨hn, _⟩
  · obtain rfl : m.dim.toNat = k' := by omega
    rw [hn, Res.bind_ok, (vertData_iff h _ _).1 g1, Res.bind_ok, if_neg h0]
    show (Res.ok coords).bind _ = _
    rw [Res.bind_ok, g2]; rfl
  · exact absurd hex (hn _ rfl)

theorem fresh_answer {m m' : TaggedMesh V} (h : GoodTags m) {k : Nat} (h1 : 1 ≤ k) (hk : (k : Int) ≤ m.dim) {n : String}
    {f : TaggedMesh V → Res (List V)} {v : Option (List V)} (hr : m.askMeasured k n f = .ok (m', v)) (hf : FreshAt k n f m) :
    ∃ l, v = some l ∧ f m = .ok l := by
  obtain ⟨_, _, _, t, _, _, rfl, e4⟩ := ask_effect h h1 hk hr
  rcases e4 with e4 | ⟨_, a, e6, rfl⟩
  · obtain ⟨l, rfl, g2⟩ := hf t e4
    exact ⟨l, rfl, g2⟩
  · exact ⟨a, rfl, e6⟩

/-- Lengths, qualities and sizes are never stale: after any calls that leave derived data to the mesh, asking for them answers with
what the coordinates and metric of now give. What is missing: removing coordinates or metric, or writing them as internal, see
`C74_stale_refuted`. -/
theorem C74_fresh_partial {M : TagMeasures V} {m0 m : TaggedMesh V} (h : GoodTags m0) (hnone : ∀ d n, DerivedPlace m0.dim d n → stored m0 d n = none)
    (cs : List (TagCall V)) (hp : ∀ c ∈ cs, Polite m0.dim c) (hr : m0.calls M cs = .ok m) :
    (∀ m' v, m.askLengths M = .ok (m', v) → ∃ l, v = some l ∧ LengthsNow M m l) ∧
    (∀ m' v, m.askQualities M = .ok (m', v) → ∃ l, v = some l ∧ QualitiesNow M m l) ∧
    (∀ m' v, m.askSizes M = .ok (m', v) → ∃ l, v = some l ∧ SizesNow M m l) ∧
    (∀ l, EntsExist m 1 → LengthsNow M m l → 0 < m.nents 1 → (l.length : Int) = m.nents 1 → (m.tags 1).length < 127 →
      ∃ m', m.askLengths M = .ok (m', some l)) ∧
    (∀ l, EntsExist m m.dim.toNat → QualitiesNow M m l → 0 < m.nents m.dim.toNat → (l.length : Int) = m.nents m.dim.toNat →
      (m.tags m.dim.toNat).length < 127 → ∃ m', m.askQualities M = .ok (m', some l)) ∧
    (∀ l, EntsExist m m.dim.toNat → SizesNow M m l → 0 < m.nents m.dim.toNat → (l.length : Int) = m.nents m.dim.toNat →
      (m.tags m.dim.toNat).length < 127 → ∃ m', m.askSizes M = .ok (m', some l)) := by
  have h0 : AllFresh M m0 := by
    have hD : ((m0.dim.toNat : Nat) : Int) = m0.dim := by have := h.dim; omega
    refine ⟨fun t ht => ?_, fun t ht => ?_, fun t ht => ?_⟩
    · rw [hnone 1 "length" (Or.inl ⟨rfl, rfl⟩)] at ht; cases ht
    · rw [hnone m0.dim.toNat "quality" (Or.inr ⟨hD, Or.inl rfl⟩)] at ht; cases ht
    · rw [hnone m0.dim.toNat "size" (Or.inr ⟨hD, Or.inr rfl⟩)] at ht; cases ht
  obtain ⟨hg, f1, f2, f3⟩ := fresh_calls cs h hp hr h0
  have hdim := hg.dim
  have hD : ((m.dim.toNat : Nat) : Int) = m.dim := by omega
  have only : ∀ {k : Nat} {n : String} {f : TaggedMesh V → Res (List V)} {l : List V}, FreshAt k n f m → f m = .ok l →
      ∀ t, stored m k n = some t → t = ⟨n, 1, .f64, some l⟩ := by
    intro k n f l hf hl t ht
    obtain ⟨l', rfl, g⟩ := hf t ht
    rw [Res.ok.inj (g.symm.trans hl)]
  have hq : ∀ l, QualitiesNow M m l → m.nents m.dim.toNat ≠ 0 → EntsExist m m.dim.toNat →
      m.measureMetric M.qualities (decide (m.dim ≠ 1)) (m.dim.toNat : Nat) = .ok l := by
    intro l hl hn hex
    obtain ⟨coords, metric, q1, q2, q3⟩ := hl.2 hn
    refine metric_ok hg hex hn ?_ q2 q3
    by_cases e : m.dim = 1
    · rw [if_pos e] at q1
      simpa [e] using q1
    · rw [if_neg e] at q1
      simpa [e] using q1
  refine ⟨?_, ?_, ?_, ?_, ?_, ?_⟩
  · intro m' v ha
    have ha' : m.askMeasured (1 : Nat) "length" (fun x => x.measureMetric M.lengths true 1) = .ok (m', v) := ha
    obtain ⟨l, e1, e2⟩ := fresh_answer hg (by omega) (by omega) ha' f1
    obtain ⟨_, g1, g2⟩ := metric_now (k := 1) hg e2
    exact ⟨l, e1, g1, fun hn => by obtain ⟨c, x, y⟩ := g2 hn; exact ⟨c, x, by simpa using y⟩⟩
  · intro m' v ha
    have ha' : m.askMeasured (m.dim.toNat : Nat) "quality" (fun x => x.measureMetric M.qualities (decide (m.dim ≠ 1)) m.dim) = .ok (m', v) := by
      rw [hD]; exact ha
    obtain ⟨l, e1, e2⟩ := fresh_answer hg (by omega) (by omega) ha' f2
    have e2' : m.measureMetric M.qualities (decide (m.dim ≠ 1)) (m.dim.toNat : Nat) = .ok l := by rw [hD]; exact e2
    obtain ⟨_, g1, g2⟩ := metric_now hg e2'
    refine ⟨l, e1, g1, fun hn => ?_⟩
    obtain ⟨coords, metric, q1, q2, q3⟩ := g2 hn
    refine ⟨coords, metric, ?_, q2, q3⟩
    by_cases e : m.dim = 1
    · rw [if_pos e]
      simpa [e] using q1
    · rw [if_neg e]
      simpa [e] using q1
  · intro m' v ha
    have ha' : m.askMeasured (m.dim.toNat : Nat) "size" (fun x => x.measureSizes M) = .ok (m', v) := by
      rw [hD]; exact ha
    obtain ⟨l, e1, e2⟩ := fresh_answer hg (by omega) (by omega) ha' f3
    exact ⟨l, e1, sizes_now hg e2⟩
  · intro l hex hl hn hlen hroom
    obtain ⟨coords, metric, q1, q2, q3⟩ := hl.2 (by omega)
    have hm : m.measureMetric M.lengths true (1 : Nat) = .ok l := metric_ok hg hex (by omega) q1 q2 q3
    exact ask_ok (k := 1) hg hex (by decide) hm hlen hroom (only f1 hm)
  · intro l hex hl hn hlen hroom
    have hm := hq l hl (by omega) hex
    rw [hD] at hm
    have := ask_ok (k := m.dim.toNat) (measure := fun x => x.measureMetric M.qualities (decide (m.dim ≠ 1)) m.dim) (name := "quality")
      hg hex (by decide) hm hlen hroom (only f2 hm)
    rw [hD] at this
    exact this
  · intro l hex hl hn hlen hroom
    have hm := sizes_ok hg hex (by omega) hl
    have := ask_ok (k := m.dim.toNat) (measure := fun x => x.measureSizes M) (name := "size")
      hg hex (by decide) hm hlen hroom (only f3 hm)
    rw [hD] at this
    exact this

/-! ## A concrete mesh, and what does not hold -/

/-- Two vertices and an edge, without data. -/
def bareLine : TaggedMesh Int := ⟨1, fun d => if d = 0 then 2 else if d = 1 then 1 else -1, fun _ => []⟩

/-- The length is the difference of coordinates times the metric at the first vertex. -/
def lineMeasures : TagMeasures Int where
  lengths := fun c x => match c, x with
    | [a, b], [y, _] => some [(b - a) * y]
    | _, _ => none
  qualities := fun _ x => match x with
    | [y, _] => some [y + 100]
    | _ => none
  sizes := fun c => match c with
    | [a, b] => some [b - a]
    | _ => none

theorem bareLine_good : GoodTags bareLine :=
  ⟨by decide, fun _ => List.nodup_nil, fun _ _ h => (by cases h), fun _ _ h => (by cases h), fun _ => Nat.zero_le _, fun _ h => absurd rfl h⟩

/-- Coordinates, metric, all three measures, then new coordinates. -/
def lineCalls : List (TagCall Int) :=
  [.add 0 "coordinates" 1 .f64 (some [0, 3]) false, .set 0 "metric" .f64 [1, 1] false, .askLengths, .askQualities, .askSizes,
   .add 1 "material" 1 .i32 (some [7]) false, .set 0 "coordinates" .f64 [0, 5] false]

/-- What an answer holds, without the mesh. -/
def answerOf (r : Res (TaggedMesh Int × Option (List Int))) : Option (Option (List Int)) :=
  match r with
  | .ok x => some x.2
  | _ => none

/-- Non-vacuity of `C74_fresh_partial`: the calls are polite and succeed, the answers before and after the change differ. -/
example : (∀ c ∈ lineCalls, Polite 1 c) ∧ (∀ d n, stored bareLine d n = none) ∧
    answerOf ((bareLine.calls lineMeasures (lineCalls.take 5)).bind (fun m => m.askLengths lineMeasures)) = some (some [3]) ∧
    answerOf ((bareLine.calls lineMeasures lineCalls).bind (fun m => m.askLengths lineMeasures)) = some (some [5]) ∧
    answerOf ((bareLine.calls lineMeasures lineCalls).bind (fun m => m.askQualities lineMeasures)) = some (some [101]) ∧
    answerOf ((bareLine.calls lineMeasures (lineCalls.take 5)).bind (fun m => m.askSizes lineMeasures)) = some (some [3]) ∧
    answerOf ((bareLine.calls lineMeasures lineCalls).bind (fun m => m.askSizes lineMeasures)) = some (some [5]) := by
  refine ⟨?_, fun _ _ => rfl, by decide +kernel, by decide +kernel, by decide +kernel, by decide +kernel, by decide +kernel⟩
  intro c hc
  simp only [lineCalls, List.mem_cons, List.not_mem_nil, or_false] at hc
  rcases hc with rfl | rfl | rfl | rfl | rfl | rfl | rfl <;> simp [Polite]

/-- Non-vacuity of `C74_last`: the data called `material` are added, then coordinates change, and they are read back. -/
example : ∃ m, bareLine.calls lineMeasures lineCalls = .ok m ∧ m.getArray .i32 1 "material" = .ok (some [7]) ∧
    m.hasTag 1 "length" = .ok false ∧ m.getArray .f64 0 "metric" = .ok (some [1, 1]) := by
  refine ⟨_, rfl, ?_, ?_, ?_⟩ <;> decide +kernel

/-- Non-vacuity of `C74_add` and `C74_set`, and failures: a size that is wrong, a name that is empty, 128 components. -/
example : (∃ m, bareLine.addTag 1 "a" 2 .f64 (some [1, 2]) false = .ok m) ∧ bareLine.addTag 1 "a" 2 .f64 (some [1]) false = .fail ∧
    bareLine.addTag 1 "" 1 .f64 none false = .fail ∧ bareLine.addTag 1 "a" 128 .f64 none false = .fail ∧
    bareLine.addTag 2 "a" 1 .f64 none false = .fail ∧ bareLine.addTag 4 "a" 1 .f64 none false = .ub ∧
    (∃ m, bareLine.setTag 0 "a" .f64 [1, 2, 3, 4] false = .ok m) ∧ bareLine.setTag 0 "a" .f64 [1, 2, 3] false = .fail :=
  ⟨⟨_, rfl⟩, rfl, rfl, rfl, rfl, rfl, ⟨_, rfl⟩, rfl⟩

/-- The full claim of `C74_positions_partial` would be that every other position is refused. It is false: the number of tags itself is
accepted, and the program reads past the end of the vector. The check is `i <= ntags(ent_dim)`: src/Omega_h_mesh.cpp:219. -/
theorem C74_position_refuted : ¬ ∀ (m : TaggedMesh Int) (k N : Nat), GoodTags m → EntsExist m k → m.ntags k = .ok (N : Int) →
    ∀ i : Int, ¬ (0 ≤ i ∧ i < N) → m.getTagAt k i = .fail := by
  intro hall
  have := hall bareLine 1 0 bareLine_good ⟨by decide, by decide⟩ rfl 0 (by decide)
  have h2 : bareLine.getTagAt 1 0 = .ub := rfl
  rw [show (((1 : Nat) : Int)) = 1 from rfl, h2] at this
  cases this

/-- A user would expect that data have between 0 and 127 components, as new names are refused otherwise and files store the number in
a byte. It is false: replacing data does not check it again: src/Omega_h_mesh.cpp:137-145. -/
theorem C74_components_refuted : ¬ ∀ (m m' : TaggedMesh Int) (cs : List (TagCall Int)), GoodTags m → (∀ d, m.tags d = []) →
    m.calls lineMeasures cs = .ok m' → ∀ d, ∀ t ∈ m'.tags d, 0 ≤ t.ncomps ∧ t.ncomps ≤ 127 := by
  intro hall
  have h1 : bareLine.calls lineMeasures [.add 1 "a" 1 .f64 none true, .add 1 "a" 128 .f64 none true] =
      .ok ⟨1, bareLine.nents, fun d' => if d' = 1 then [⟨"a", 128, .f64, none⟩] else
        if d' = 1 then [⟨"a", 1, .f64, none⟩] else []⟩ := by rfl
  have := (hall bareLine _ _ bareLine_good (fun _ => rfl) h1 1 ⟨"a", 128, .f64, none⟩ List.mem_cons_self).2
  exact absurd this (by show ¬ ((128 : Int) ≤ 127); decide)

/-- `C74_fresh_partial` without its conditions on the calls is false. After `remove_tag` of the metric, and after writing it with the
argument `internal`, lengths of before are still answered: src/Omega_h_mesh.cpp:156-158, 199-203. -/
theorem C74_stale_refuted : ¬ ∀ (m0 m m' : TaggedMesh Int) (cs : List (TagCall Int)) (v : Option (List Int)), GoodTags m0 →
    (∀ d, m0.tags d = []) → m0.calls lineMeasures cs = .ok m → m.askLengths lineMeasures = .ok (m', v) →
    ∃ l, v = some l ∧ LengthsNow lineMeasures m l := by
  intro hall
  have key : ∃ m m' : TaggedMesh Int, bareLine.calls lineMeasures
        [.add 0 "coordinates" 1 .f64 (some [0, 3]) false, .set 0 "metric" .f64 [1, 1] false, .askLengths, .remove 0 "metric"] = .ok m ∧
      m.askLengths lineMeasures = .ok (m', some [3]) ∧ stored m 0 "metric" = none ∧ m.nents 1 ≠ 0 :=
    ⟨_, _, rfl, rfl, rfl, by decide⟩
  obtain ⟨m, m', h1, h2, h3, h4⟩ := key
  obtain ⟨l, _, hl⟩ := hall bareLine m m' _ _ bareLine_good (fun _ => rfl) h1 h2
  obtain ⟨_, _, _, ⟨t, ht, _⟩, _⟩ := hl.2 h4
  rw [h3] at ht; cases ht

/-- The same by `internal`: the metric is doubled, the length is the old one. -/
example : answerOf ((bareLine.calls lineMeasures
    [.add 0 "coordinates" 1 .f64 (some [0, 3]) false, .set 0 "metric" .f64 [1, 1] false, .askLengths, .set 0 "metric" .f64 [2, 2] true]).bind
      (fun m => m.askLengths lineMeasures)) = some (some [3]) := by decide +kernel

/-- A user would expect that data of the right size can be set. It is false where the mesh, or this rank's part of it, has no entities:
the number of components cannot be found and the program ends: src/Omega_h_mesh.cpp:163, src/Omega_h_scalar.hpp:280. -/
theorem C74_empty_refuted : ¬ ∀ (m : TaggedMesh Int) (k : Nat) (name : String) (a : List Int), GoodTags m → EntsExist m k → name ≠ "" →
    m.tags k = [] → (a.length : Int) = m.nents k → ∃ m', m.setTag k name .f64 a false = .ok m' := by
  intro hall
  have hg : GoodTags (⟨1, fun _ => 0, fun _ => []⟩ : TaggedMesh Int) :=
    ⟨by decide, fun _ => List.nodup_nil, fun _ _ h => (by cases h), fun _ _ h => (by cases h), fun _ => Nat.zero_le _, fun _ h => absurd rfl h⟩
  obtain ⟨m', h⟩ := hall ⟨1, fun _ => 0, fun _ => []⟩ 0 "metric" [] hg ⟨by decide, by decide⟩ (by decide) rfl rfl
  have h2 : (⟨1, fun _ => 0, fun _ => []⟩ : TaggedMesh Int).setTag 0 "metric" .f64 [] false = .fail := rfl
  rw [show (((0 : Nat) : Int)) = 0 from rfl, h2] at h
  cases h

end OmegaH
