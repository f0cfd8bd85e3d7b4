import Verif.Props.C56
/-!
# C56 — which edges are collapsed: all ranks together
-/
namespace OmegaH
open Spec

/-! ## The same computation on every rank -/

theorem onRanks_spec {α β : Type} [Inhabited β] {n : Nat} (f : Nat → α) (g : Nat → α → Option β) (Q : Nat → β → Prop)
    (h : ∀ r, r < n → ∃ x, g r (f r) = some x ∧ Q r x) :
    ∃ out, onRanks (world n f) g = some (world n out) ∧ ∀ r, r < n → Q r (out r) := by
  unfold onRanks
  rw [world_length]
  refine choose_world _ Q ?_
  intro r hr
  rw [world_get _ hr, Option.bind_some]
  exact h r hr

theorem remotes_dest {nents : Nat → Nat} {owner : Nat → Nat → Nat × Nat} {r i : Nat} (hi : i < nents r) :
    destOf (remotesOf nents owner) r i = some ((owner r i).1, (owner r i).2) := by
  rw [destOf_eq]
  constructor <;> simp [remotesOf, hi]

theorem remotes_ok {n : Nat} {shared : Bool} {nents : Nat → Nat} {owner : Nat → Nat → Nat × Nat} (hn : n ≤ 2147483648)
    (h : OwnersFine n shared nents owner) : DestsOk n (remotesOf nents owner) nents where
  size := hn
  rank := by
    intro r hr p hp
    obtain ⟨i, hi, rfl⟩ := List.mem_map.1 hp
    exact (h.valid r i hr (List.mem_range.1 hi)).1
  len := by intro r _; simp [remotesOf]
  idx := by
    intro r hr i p x h1 h2
    have hi : i < nents r := by simpa [remotesOf] using (List.getElem?_eq_some_iff.1 h1).1
    have := remotes_dest (owner := owner) hi
    obtain ⟨e1, e2⟩ := destOf_eq.1 this
    obtain rfl := Option.some.inj (h1.symm.trans e1)
    obtain rfl := Option.some.inj (h2.symm.trans e2)
    exact (h.valid r i hr hi).2.1

/-- Synchronising gives every copy the row of its owner. -/
theorem syncValues_spec {α : Type} {n : Nat} {shared : Bool} {nents : Nat → Nat} {owner : Nat → Nat → Nat × Nat}
    (hn : n ≤ 2147483648) (h : OwnersFine n shared nents owner) (s : Nat → Nat → Sched) (w : Nat) (hw : 0 < w)
    (data : Nat → List α) (hl : ∀ r, r < n → (data r).length = nents r * w) :
    ∃ out, syncValues s (ownersArg n shared nents owner) w (world n data) = some (world n out) ∧
      ∀ r, r < n → (out r).length = nents r * w ∧
        ∀ i, i < nents r → ∀ j, j < w → entry (out r) w i j = entry (data (owner r i).1) w (owner r i).2 j := by
  cases shared with
  | false =>
    refine ⟨data, rfl, fun r hr => ⟨hl r hr, fun i hi j _ => ?_⟩⟩
    rw [h.alone rfl r i hr hi]
  | true =>
    have hD := remotes_ok hn h
    obtain ⟨D, d1⟩ := C20_new s hD
    obtain ⟨D', order, fan, rfl, hC⟩ := copyDist_of hD d1
    obtain ⟨τ, t1, t2⟩ := exch_back hC (fun r k => s r (k + 10)) w hw data hl
    have hlen : ∀ r, (remotesOf nents owner r).ranks.length = nents r := fun r => by simp [remotesOf]
    refine ⟨τ, ?_, ?_⟩
    · show (newDist s (world n (remotesOf nents owner)) ((world n (remotesOf nents owner)).map (fun o => o.ranks.length))).bind _ = _
      rw [world_map, world_congr (f := fun r => (remotesOf nents owner r).ranks.length) (g := nents) (fun r _ => hlen r),
        d1, Option.bind_some, t1]
    · intro r hr
      obtain ⟨a, b⟩ := t2 r hr
      refine ⟨by rw [a, hlen], ?_⟩
      intro i hi j hj
      exact b i _ _ (remotes_dest hi) j hj

/-- Synchronising the rows of a subset: the row of the owner if it is in the subset, the default otherwise. -/
theorem syncSubset_spec {α : Type} {n : Nat} {shared : Bool} {nents : Nat → Nat} {owner : Nat → Nat → Nat × Nat}
    (hn : n ≤ 2147483648) (h : OwnersFine n shared nents owner) (s : Nat → Nat → Sched) (w : Nat) (hw : 0 < w) (dflt : α)
    (subset : Nat → List Nat) (hinj : ∀ r, r < n → Injective (subset r)) (hr : ∀ r, r < n → InRange (subset r) (nents r))
    (data : Nat → List α) (hl : ∀ r, r < n → (data r).length = (subset r).length * w) :
    ∃ out, syncSubset s (ownersArg n shared nents owner) (world n nents) (world n subset) dflt w (world n data) =
        some (world n out) ∧
      ∀ r, r < n → (out r).length = (subset r).length * w ∧
        ∀ k e : Nat, (subset r)[k]? = some e → ∀ j, j < w →
          (∀ k' : Nat, (subset (owner r e).1)[k']? = some (owner r e).2 →
            entry (out r) w k j = entry (data (owner r e).1) w k' j) ∧
          ((owner r e).2 ∉ subset (owner r e).1 → entry (out r) w k j = some dflt) := by
  cases shared with
  | false =>
    refine ⟨data, rfl, fun r hr' => ⟨hl r hr', fun k e hk j _ => ?_⟩⟩
    rw [h.alone rfl r e hr' (hr r hr' e (List.mem_of_getElem? hk))]
    refine ⟨fun k' hk' => ?_, fun hno => absurd (List.mem_of_getElem? hk) hno⟩
    rw [hinj r hr' k k' e hk hk']
  | true =>
    obtain ⟨full, f1, f2⟩ := onRanks_spec nents (fun r n' => ((world n data)[r]?).bind (fun d =>
        ((world n subset)[r]?).bind (fun a2e => mapOnto (s r 0) d a2e n' dflt w)))
      (fun r out => out.length = nents r * w ∧
        (∀ i b j, (subset r)[i]? = some b → j < w → entry out w b j = entry (data r) w i j) ∧
        (∀ b j, b < nents r → ¬ InImage (subset r) b → j < w → entry out w b j = some dflt)) (n := n) (by
      intro r hr'
      rw [world_get _ hr', Option.bind_some, world_get _ hr', Option.bind_some]
      refine C05_map_onto (s r 0) (data r) (subset r) (nents r) dflt w (hl r hr') ?_ (hr r hr') (hinj r hr')
      rw [hl r hr']
      have hnd : (subset r).Nodup := by
        rw [List.nodup_iff_injective_getElem]
        intro a b hab
        have hab : (subset r)[a.1] = (subset r)[b.1] := hab
        exact Fin.ext (hinj r hr' a b _ (List.getElem?_eq_getElem a.2) (by rw [hab]; exact List.getElem?_eq_getElem b.2))
      have : (subset r).length ≤ nents r := by
        have := (hnd.subperm (l₂ := List.range (nents r)) (fun x hx => List.mem_range.2 (hr r hr' x hx))).length_le
        simpa using this
      exact Nat.mul_le_mul_right _ this)
    obtain ⟨syn, y1, y2⟩ := syncValues_spec hn h (fun r k => s r (k + 1)) w hw full (fun r hr' => (f2 r hr').1)
    obtain ⟨out, o1, o2⟩ := onRanks_spec nents (fun r _ => ((world n syn)[r]?).bind (fun d =>
        ((world n subset)[r]?).bind (fun a2e => unmap (s r 40) a2e d w)))
      (fun r out => out.length = (subset r).length * w ∧
        ∀ i b j, (subset r)[i]? = some b → j < w → entry out w i j = entry (syn r) w b j) (n := n) (by
      intro r hr'
      rw [world_get _ hr', Option.bind_some, world_get _ hr', Option.bind_some]
      exact C05_unmap (s r 40) (subset r) (syn r) w (nents r) (by rw [(y2 r hr').1]) (hr r hr'))
    refine ⟨out, ?_, ?_⟩
    · show (onRanks (world n nents) _).bind _ = _
      rw [f1, Option.bind_some]
      rw [y1]
      exact o1
    · intro r hr'
      refine ⟨(o2 r hr').1, ?_⟩
      intro k e hk j hj
      have he := hr r hr' e (List.mem_of_getElem? hk)
      obtain ⟨v1, v2, _⟩ := h.valid r e hr' he
      rw [(o2 r hr').2 k e j hk hj, (y2 r hr').2 e he j hj]
      constructor
      · intro k' hk'
        exact (f2 _ v1).2.1 k' _ j hk' hj
      · intro hno
        refine (f2 _ v1).2.2 _ j v2 ?_ hj
        rintro ⟨a, ha⟩
        exact hno (List.mem_of_getElem? ha)

/-! ## Candidates -/

/-- `cands` are the edges with a direction in `B`, perhaps with others, and `codes` are their directions. -/
structure Cands (ne : Nat) (cands codes : List Nat) (B : Nat → Nat → Prop) : Prop where
  inj : Injective cands
  range : InRange cands ne
  len : codes.length = cands.length
  lt : ∀ c ∈ codes, c < 4
  bits : ∀ k e c : Nat, cands[k]? = some e → codes[k]? = some c → ∀ i, i < 2 → (c.testBit i = true ↔ B e i)
  all : ∀ e i, e < ne → i < 2 → B e i → e ∈ cands

/-- The candidates of all ranks. The copies of an edge have the same directions. -/
structure CandsW (n : Nat) (ne : Nat → Nat) (owner : Nat → Nat → Nat × Nat) (st : Nat → List Nat × List Nat)
    (B : Nat → Nat → Nat → Prop) : Prop where
  per : ∀ r, r < n → Cands (ne r) (st r).1 (st r).2 (B r)
  agree : ∀ r e i, r < n → e < ne r → i < 2 → (B r e i ↔ B (owner r e).1 (owner r e).2 i)

theorem candKernel_spec (s : Sched) (ne : Nat) (f : Nat → Nat → Option Nat) (P : Nat → Nat → Prop) (cands codes : List Nat)
    (hr : InRange cands ne) (hlen : codes.length = cands.length) (hlt : ∀ c ∈ codes, c < 4)
    (hf : ∀ e c, e < ne → c < 4 → ∃ c', f e c = some c' ∧ Restricts (P e) c c') :
    ∃ out, candKernel s f cands codes = some out ∧ out.length = cands.length ∧
      ∀ k e c : Nat, cands[k]? = some e → codes[k]? = some c → ∃ c', out[k]? = some c' ∧ Restricts (P e) c c' := by
  obtain ⟨out, o1, o2, o3⟩ := parVals_spec s cands.length (fun cand => (codes[cand]?).bind (fun code =>
      (cands[cand]?).bind (fun e => (f e code).map (fun c => [(cand, c)]))))
    (fun k c' => ∃ e c : Nat, cands[k]? = some e ∧ codes[k]? = some c ∧ Restricts (P e) c c') (Mem.alloc cands.length)
    List.length_replicate (by
      intro k hk
      obtain ⟨e, g1⟩ : ∃ e, cands[k]? = some e := ⟨_, List.getElem?_eq_getElem hk⟩
      obtain ⟨c, g2⟩ : ∃ c, codes[k]? = some c := ⟨_, List.getElem?_eq_getElem (by omega)⟩
      obtain ⟨c', h1, h2⟩ := hf e c (hr e (List.mem_of_getElem? g1)) (hlt c (List.mem_of_getElem? g2))
      exact ⟨c', by rw [g2, Option.bind_some, g1, Option.bind_some, h1]; rfl, e, c, g1, g2, h2⟩)
  refine ⟨out, o1, o2, ?_⟩
  intro k e c h1 h2
  obtain ⟨c', x1, e', c'', y1, y2, y3⟩ := o3 k (List.getElem?_eq_some_iff.1 h1).1
  obtain rfl := Option.some.inj (h1.symm.trans y1)
  obtain rfl := Option.some.inj (h2.symm.trans y2)
  exact ⟨c', x1, y3⟩

section
variable {K : Type}

theorem checkCands_spec {n : Nat} {shared : Bool} {owner : Nat → Nat → Nat × Nat} (ranks : Nat → CollapseRank K)
    (hn : n ≤ 2147483648) (h : OwnersFine n shared (fun r => (ranks r).nedges) owner) (s : Nat → Nat → Sched)
    (f : CollapseRank K → Nat → Nat → Option Nat) (P : Nat → Nat → Nat → Prop)
    (hf : ∀ r, r < n → ∀ e c, e < (ranks r).nedges → c < 4 → ∃ c', f (ranks r) e c = some c' ∧ Restricts (P r e) c c')
    (st : Nat → List Nat × List Nat) (B : Nat → Nat → Nat → Prop)
    (hst : CandsW n (fun r => (ranks r).nedges) owner st B) :
    ∃ st', checkCands s (ownersArg n shared (fun r => (ranks r).nedges) owner) (world n ranks) f (world n st) =
        some (world n st') ∧
      CandsW n (fun r => (ranks r).nedges) owner st'
        (fun r e i => B r e i ∧ P (owner r e).1 (owner r e).2 i) := by
  obtain ⟨codes, c1, c2⟩ := onRanks_spec ranks (fun r m => ((world n st)[r]?).bind (fun c =>
      candKernel (s r 0) (f m) c.1 c.2))
    (fun r out => out.length = (st r).1.length ∧ ∀ k e c : Nat, (st r).1[k]? = some e → (st r).2[k]? = some c →
      ∃ c', out[k]? = some c' ∧ Restricts (P r e) c c') (n := n) (by
    intro r hr
    have hc := hst.per r hr
    rw [world_get _ hr, Option.bind_some]
    exact candKernel_spec (s r 0) (ranks r).nedges (f (ranks r)) (P r) _ _ hc.range hc.len hc.lt (hf r hr))
  obtain ⟨syn, y1, y2⟩ := syncSubset_spec hn h (fun r k => s r (k + 1)) 1 (by omega) 0 (fun r => (st r).1)
    (fun r hr => (hst.per r hr).inj) (fun r hr => (hst.per r hr).range) codes
    (fun r hr => by rw [(c2 r hr).1, Nat.mul_one])
  refine ⟨fun r => ((st r).1, syn r), ?_, ?_, ?_⟩
  · unfold checkCands
    simp only [bind, c1, Option.bind_some, world_map]
    rw [y1, Option.bind_some]
    unfold onRanks
    rw [world_length]
    refine mapM_range_some n _ _ ?_
    intro r hr
    rw [world_get _ hr, Option.bind_some]
    dsimp only
    rw [world_get _ hr]
    rfl
  · intro r hr
    have hc := hst.per r hr
    -- the code after synchronisation
    have key : ∀ k e : Nat, (st r).1[k]? = some e → ∃ c, (syn r)[k]? = some c ∧ c < 4 ∧
        ∀ i, i < 2 → (c.testBit i = true ↔ B r e i ∧ P (owner r e).1 (owner r e).2 i) := by
      intro k e hk
      have he := hc.range e (List.mem_of_getElem? hk)
      obtain ⟨v1, v2, v3⟩ := h.valid r e hr he
      have hp := hst.per (owner r e).1 v1
      obtain ⟨z1, z2⟩ := (y2 r hr).2 k e hk 0 (by omega)
      rw [entry_one] at z1 z2
      by_cases hin : (owner r e).2 ∈ (st (owner r e).1).1
      · obtain ⟨k', hk'⟩ := List.getElem?_of_mem hin
        obtain ⟨c, hc'⟩ : ∃ c, (st (owner r e).1).2[k']? = some c :=
          ⟨_, List.getElem?_eq_getElem (by rw [hp.len]; exact (List.getElem?_eq_some_iff.1 hk').1)⟩
        obtain ⟨c', x1, x2⟩ := (c2 _ v1).2 k' _ c hk' hc'
        refine ⟨c', ?_, x2.1, ?_⟩
        · rw [z1 k' hk', entry_one]; exact x1
        · intro i hi
          rw [x2.2 i hi, hp.bits k' _ c hk' hc' i hi, hst.agree r e i hr he hi]
      · refine ⟨0, z2 hin, by omega, ?_⟩
        intro i hi
        rw [Nat.zero_testBit]
        refine iff_of_false (by decide) ?_
        rintro ⟨hB, _⟩
        exact hin (hp.all _ i v2 hi ((hst.agree r e i hr he hi).1 hB))
    have hl : (syn r).length = (st r).1.length := by rw [(y2 r hr).1, Nat.mul_one]
    refine ⟨hc.inj, hc.range, hl, ?_, ?_, ?_⟩
    · intro c hcm
      obtain ⟨k, hk⟩ := List.getElem?_of_mem hcm
      have hkl : k < (syn r).length := (List.getElem?_eq_some_iff.1 hk).1
      obtain ⟨c', x1, x2, _⟩ := key k _ (List.getElem?_eq_getElem (by omega))
      obtain rfl := Option.some.inj (hk.symm.trans x1)
      exact x2
    · intro k e c h1 h2
      obtain ⟨c', x1, _, x3⟩ := key k e h1
      obtain rfl := Option.some.inj (h2.symm.trans x1)
      exact x3
    · intro e i he hi hB
      exact hc.all e i he hi hB.1
  · intro r e i hr he hi
    obtain ⟨v1, v2, v3⟩ := h.valid r e hr he
    rw [v3, ← hst.agree r e i hr he hi]

end

/-! ## Filters -/

theorem collected_of {marks : List Int} {out : List Nat} (h : IsCollected marks out) :
    Injective out ∧ InRange out marks.length ∧ ∀ i, i ∈ out ↔ marks[i]? = some 1 := by
  obtain ⟨h1, h2⟩ := h
  refine ⟨?_, fun b hb => (List.getElem?_eq_some_iff.1 ((h2 b).1 hb)).1, h2⟩
  intro i j b hi hj
  obtain ⟨i1, i2⟩ := List.getElem?_eq_some_iff.1 hi
  obtain ⟨j1, j2⟩ := List.getElem?_eq_some_iff.1 hj
  rw [List.pairwise_iff_getElem] at h1
  rcases Nat.lt_trichotomy i j with c | c | c
  · have := h1 i j i1 j1 c; omega
  · exact c
  · have := h1 j i j1 i1 c; omega

theorem filterCands_spec (s : Nat → Sched) {ne : Nat} {cands codes : List Nat} {B : Nat → Nat → Prop}
    (h : Cands ne cands codes B) :
    ∃ n2o cands' codes', filterCands s cands codes = some (n2o, cands', codes') ∧ Cands ne cands' codes' B ∧
      (∀ c ∈ codes', c ≠ 0) ∧ n2o.length = cands'.length ∧ InRange n2o cands.length ∧
      ∀ k old : Nat, n2o[k]? = some old → cands'[k]? = cands[old]? := by
  obtain ⟨n2o, m1, m2⟩ := C03_collect_marked (s 1) (codes.map (fun c => b2i (decide (c ≠ 0)))) (by
    intro m hm
    obtain ⟨c, _, rfl⟩ := List.mem_map.1 hm
    by_cases hc : c = 0 <;> simp [hc, b2i])
  obtain ⟨i1, i2, i3⟩ := collected_of m2
  rw [List.length_map] at i2
  have i3' : ∀ k, k ∈ n2o ↔ ∃ c, codes[k]? = some c ∧ c ≠ 0 := by
    intro k
    rw [i3, List.getElem?_map]
    cases hk : codes[k]? with
    | none => simp
    | some c => by_cases hc : c = 0 <;> simp [hc, b2i]
  obtain ⟨cands', c1, c2, c3⟩ := C05_unmap (s 2) n2o cands 1 cands.length (by omega) (by rw [← h.len]; exact i2)
  obtain ⟨codes', d1, d2, d3⟩ := C05_unmap (s 3) n2o codes 1 codes.length (by omega) i2
  rw [Nat.mul_one] at c2 d2
  have c3' : ∀ k old : Nat, n2o[k]? = some old → cands'[k]? = cands[old]? := by
    intro k old hk
    have := c3 k old 0 hk (by omega)
    rwa [entry_one, entry_one] at this
  have d3' : ∀ k old : Nat, n2o[k]? = some old → codes'[k]? = codes[old]? := by
    intro k old hk
    have := d3 k old 0 hk (by omega)
    rwa [entry_one, entry_one] at this
  have hold : ∀ k : Nat, k < n2o.length → ∃ old e c, n2o[k]? = some old ∧ cands[old]? = some e ∧ codes[old]? = some c ∧
      c ≠ 0 ∧ cands'[k]? = some e ∧ codes'[k]? = some c := by
    intro k hk
    obtain ⟨old, ho⟩ : ∃ old, n2o[k]? = some old := ⟨_, List.getElem?_eq_getElem hk⟩
    obtain ⟨c, hc, hc0⟩ := (i3' old).1 (List.mem_of_getElem? ho)
    obtain ⟨e, he⟩ : ∃ e, cands[old]? = some e :=
      ⟨_, List.getElem?_eq_getElem (by rw [← h.len]; exact (List.getElem?_eq_some_iff.1 hc).1)⟩
    exact ⟨old, e, c, ho, he, hc, hc0, (c3' k old ho).trans he, (d3' k old ho).trans hc⟩
  refine ⟨n2o, cands', codes', ?_, ⟨?_, ?_, by omega, ?_, ?_, ?_⟩, ?_, by omega, by rw [← h.len]; exact i2, c3'⟩
  · unfold filterCands
    rw [mapEach_eq (s 0) _ (fun c => b2i (decide (c ≠ 0))) codes (fun _ _ => rfl)]
    simp only [bind, Option.bind_some, m1, c1, d1, pure]
  · intro a b e ha hb
    have hal := (List.getElem?_eq_some_iff.1 ha).1
    have hbl := (List.getElem?_eq_some_iff.1 hb).1
    obtain ⟨oa, ea, _, a1, a2, _, _, a3, _⟩ := hold a (by omega)
    obtain ⟨ob, eb, _, b1, b2, _, _, b3, _⟩ := hold b (by omega)
    obtain rfl := Option.some.inj (ha.symm.trans a3)
    obtain rfl := Option.some.inj (hb.symm.trans b3)
    have := h.inj oa ob _ a2 b2
    subst this
    exact i1 a b oa a1 b1
  · intro e he
    obtain ⟨k, hk⟩ := List.getElem?_of_mem he
    obtain ⟨_, e', _, _, a2, _, _, a3, _⟩ := hold k (by have := (List.getElem?_eq_some_iff.1 hk).1; omega)
    obtain rfl := Option.some.inj (hk.symm.trans a3)
    exact h.range _ (List.mem_of_getElem? a2)
  · intro c hc
    obtain ⟨k, hk⟩ := List.getElem?_of_mem hc
    obtain ⟨_, _, c', _, _, a2, _, _, a3⟩ := hold k (by have := (List.getElem?_eq_some_iff.1 hk).1; omega)
    obtain rfl := Option.some.inj (hk.symm.trans a3)
    exact h.lt _ (List.mem_of_getElem? a2)
  · intro k e c h1 h2
    obtain ⟨old, e', c', a1, a2, a3, _, a4, a5⟩ := hold k (by have := (List.getElem?_eq_some_iff.1 h1).1; omega)
    obtain rfl := Option.some.inj (h1.symm.trans a4)
    obtain rfl := Option.some.inj (h2.symm.trans a5)
    exact h.bits old _ _ a2 a3
  · intro e i he hi hB
    obtain ⟨old, ho⟩ := List.getElem?_of_mem (h.all e i he hi hB)
    obtain ⟨c, hc⟩ : ∃ c, codes[old]? = some c :=
      ⟨_, List.getElem?_eq_getElem (by rw [h.len]; exact (List.getElem?_eq_some_iff.1 ho).1)⟩
    have hc0 : c ≠ 0 := by
      rintro rfl
      have := (h.bits old e 0 ho hc i hi).2 hB
      simp at this
    obtain ⟨k, hk⟩ := List.getElem?_of_mem ((i3' old).2 ⟨c, hc, hc0⟩)
    exact List.mem_of_getElem? ((c3' k old hk).trans ho)
  · intro c hc
    obtain ⟨k, hk⟩ := List.getElem?_of_mem hc
    obtain ⟨_, _, c', _, _, _, a2, _, a3⟩ := hold k (by have := (List.getElem?_eq_some_iff.1 hk).1; omega)
    obtain rfl := Option.some.inj (hk.symm.trans a3)
    exact a2

theorem filterAll_spec (s : Nat → Nat → Sched) {n : Nat} {ne : Nat → Nat} {owner : Nat → Nat → Nat × Nat}
    {st : Nat → List Nat × List Nat} {B : Nat → Nat → Nat → Prop} (h : CandsW n ne owner st B) :
    ∃ st', filterAll s (world n st) = some (world n st') ∧ CandsW n ne owner st' B ∧
      ∀ r, r < n → ∀ c ∈ (st' r).2, c ≠ 0 := by
  obtain ⟨st', a1, a2⟩ := onRanks_spec st (fun r c => (filterCands (s r) c.1 c.2).map (fun x => x.2))
    (fun r x => Cands (ne r) x.1 x.2 (B r) ∧ ∀ c ∈ x.2, c ≠ 0) (n := n) (by
    intro r hr
    obtain ⟨n2o, c', d', b1, b2, b3, _⟩ := filterCands_spec (s r) (h.per r hr)
    exact ⟨(c', d'), by rw [b1]; rfl, b2, b3⟩)
  exact ⟨st', a1, ⟨fun r hr => (a2 r hr).1, h.agree⟩, fun r hr => (a2 r hr).2⟩

theorem empty_iff {ne : Nat} {cands codes : List Nat} {B : Nat → Nat → Prop} (h : Cands ne cands codes B)
    (h0 : ∀ c ∈ codes, c ≠ 0) : cands = [] ↔ ∀ e i, e < ne → i < 2 → ¬ B e i := by
  constructor
  · rintro rfl e i he hi hB
    have := h.all e i he hi hB
    simp at this
  · intro hno
    cases cands with
    | nil => rfl
    | cons e l =>
      exfalso
      obtain ⟨c, hc⟩ : ∃ c, codes[0]? = some c := ⟨_, List.getElem?_eq_getElem (by rw [h.len]; simp)⟩
      have hcm := List.mem_of_getElem? hc
      refine h0 c hcm ((code_zero_iff (h.lt c hcm)).2 ?_)
      intro i hi
      rw [Bool.eq_false_iff]
      intro hb
      exact hno e i (h.range e (by simp)) hi ((h.bits 0 e c rfl hc i hi).1 hb)

theorem cands_congr {ne : Nat} {cands codes : List Nat} {B C : Nat → Nat → Prop} (h : Cands ne cands codes B)
    (hBC : ∀ e i, e < ne → i < 2 → (B e i ↔ C e i)) : Cands ne cands codes C :=
  ⟨h.inj, h.range, h.len, h.lt, fun k e c h1 h2 i hi => by
    rw [h.bits k e c h1 h2 i hi, hBC e i (h.range e (List.mem_of_getElem? h1)) hi],
    fun e i he hi hC => h.all e i he hi ((hBC e i he hi).2 hC)⟩

theorem dirsFilter_spec (s : Sched) {ne : Nat} {cands codes : List Nat} {B : Nat → Nat → Prop} (h : Cands ne cands codes B)
    (keep : List Int) (C : Nat → Nat → Prop)
    (hk : ∀ k e i : Nat, cands[k]? = some e → i < 2 → ∃ z, keep[k * 2 + i]? = some z ∧ (B e i → (z ≠ 0 ↔ C e i))) :
    ∃ codes', filterCoarsenDirs s codes keep = some codes' ∧ Cands ne cands codes' (fun e i => B e i ∧ C e i) := by
  obtain ⟨out, o1, o2, o3⟩ := parVals_spec s codes.length (fun cand => (codes[cand]?).bind (fun code =>
      ([0, 1].foldlM (fun code dir => (keep[cand * 2 + dir]?).map (fun k =>
        if k = 0 then dontCollapse code dir else code)) code).map (fun c => [(cand, c)])))
    (fun k c' => ∃ e c : Nat, cands[k]? = some e ∧ codes[k]? = some c ∧
      Restricts (fun i => keep[k * 2 + i]? ≠ some 0) c c') (Mem.alloc codes.length)
    List.length_replicate (by
      intro k hkl
      obtain ⟨c, g2⟩ : ∃ c, codes[k]? = some c := ⟨_, List.getElem?_eq_getElem hkl⟩
      obtain ⟨e, g1⟩ : ∃ e, cands[k]? = some e := ⟨_, List.getElem?_eq_getElem (by rw [← h.len]; exact hkl)⟩
      obtain ⟨c', d1, d2⟩ := dirs_spec (fun code dir => (keep[k * 2 + dir]?).map (fun k =>
        if k = 0 then dontCollapse code dir else code)) (fun i => keep[k * 2 + i]? ≠ some 0) c
        (h.lt c (List.mem_of_getElem? g2)) (by
          intro col hcol c hc
          obtain ⟨z, z1, _⟩ := hk k e col g1 hcol
          rw [z1, Option.map_some]
          by_cases hz : z = 0
          · rw [if_pos hz]
            exact ⟨_, rfl, restricts_dont hc (by rw [z1, hz]; exact fun hh => hh rfl)⟩
          · rw [if_neg hz]
            refine ⟨_, rfl, restricts_keep hc (fun _ => ?_)⟩
            rw [z1]
            exact fun hh => hz (Option.some.inj hh))
      exact ⟨c', by rw [g2, Option.bind_some, d1]; rfl, e, c, g1, g2, d2⟩)
  have o3' : ∀ k e : Nat, cands[k]? = some e → ∃ c', out[k]? = some c' ∧ c' < 4 ∧
      ∀ i, i < 2 → (c'.testBit i = true ↔ B e i ∧ C e i) := by
    intro k e he
    obtain ⟨c', x1, e', c, y1, y2, y3⟩ := o3 k (by rw [h.len]; exact (List.getElem?_eq_some_iff.1 he).1)
    obtain rfl := Option.some.inj (he.symm.trans y1)
    refine ⟨c', x1, y3.1, ?_⟩
    intro i hi
    obtain ⟨z, z1, z2⟩ := hk k _ i he hi
    rw [y3.2 i hi, h.bits k _ c he y2 i hi]
    refine and_congr_right (fun hB => ?_)
    dsimp only
    rw [z1]
    rw [← z2 hB]
    exact ⟨fun hh hz => hh (by rw [hz]), fun hh hz => hh (Option.some.inj hz)⟩
  refine ⟨out, o1, h.inj, h.range, by rw [o2, h.len], ?_, ?_, fun e i he hi hB => h.all e i he hi hB.1⟩
  · intro c hc
    obtain ⟨k, hk'⟩ := List.getElem?_of_mem hc
    have hkl := (List.getElem?_eq_some_iff.1 hk').1
    obtain ⟨c', x1, x2, _⟩ := o3' k _ (List.getElem?_eq_getElem (by rw [← h.len]; omega))
    obtain rfl := Option.some.inj (hk'.symm.trans x1)
    exact x2
  · intro k e c h1 h2
    obtain ⟨c', x1, _, x3⟩ := o3' k e h1
    obtain rfl := Option.some.inj (h2.symm.trans x1)
    exact x3

/-! ## Qualities -/

/-- The array of qualities holds the quality `Q e i` wherever direction `i` of edge `e` is in `B`. -/
def QualsFor {K : Type} (cands : List Nat) (B : Nat → Nat → Prop) (quals : List K) (Q : Nat → Nat → K → Prop) : Prop :=
  quals.length = cands.length * 2 ∧ ∀ k e i : Nat, cands[k]? = some e → i < 2 → B e i →
    ∃ q, quals[k * 2 + i]? = some q ∧ Q e i q

section
variable {K : Type} [LinearOrder K]

theorem coarsenQualities_spec (s : Sched) {m : CollapseRank K} {D : Nat} {nents : Nat → Nat} {R : Nat → Nat → List Nat}
    (h : CollapseMesh m D nents R) (one minusOne : K) {cands codes : List Nat} {B : Nat → Nat → Prop}
    (hc : Cands (nents 1) cands codes B) :
    ∃ quals, coarsenQualities s m one minusOne D cands codes = some quals ∧
      QualsFor cands B quals (WorstQuality m one D nents R) := by
  let Q : Nat → Nat → Option K := fun e i => (m.ev2v[e * 2 + i]?).bind (fun vCol =>
    (m.ev2v[e * 2 + (1 - i)]?).bind (fun vOnto => collapseQuality m one D vCol vOnto))
  have hQ : ∀ e i, e < nents 1 → i < 2 → ∃ q, Q e i = some q ∧ WorstQuality m one D nents R e i q := by
    intro e i he hi
    obtain ⟨v, t, q, h1, h2, h3, h4⟩ := collapseQuality_spec h one e he i hi
    refine ⟨q, ?_, h4⟩
    show (m.ev2v[e * 2 + i]?).bind _ = _
    rw [h1, Option.bind_some, h2, Option.bind_some, h3]
  obtain ⟨out, o1, o2, o3, _⟩ := parScatter_ontoR s cands.length (fun cand => do
      let e ← cands[cand]?
      let code ← codes[cand]?
      let rows ← [0, 1].mapM (fun col =>
        if collapses code col then do
          let vCol ← m.ev2v[e * 2 + col]?
          let vOnto ← m.ev2v[e * 2 + (1 - col)]?
          let q ← collapseQuality m one D vCol vOnto
          pure [(cand * 2 + col, q)]
        else pure [])
      pure rows.flatten)
    (fun k p v => ∃ e c i : Nat, cands[k]? = some e ∧ codes[k]? = some c ∧ i < 2 ∧ c.testBit i = true ∧ p = k * 2 + i ∧
      Q e i = some v)
    (fun p => (cands[p / 2]?).bind (fun e => Q e (p % 2))) (List.replicate (cands.length * 2) minusOne)
    (by
      intro k hk
      obtain ⟨e, g1⟩ : ∃ e, cands[k]? = some e := ⟨_, List.getElem?_eq_getElem hk⟩
      obtain ⟨c, g2⟩ : ∃ c, codes[k]? = some c := ⟨_, List.getElem?_eq_getElem (by rw [hc.len]; exact hk)⟩
      have he := hc.range e (List.mem_of_getElem? g1)
      have hone : ∀ col, col < 2 → ∃ ws, (if collapses c col then do
          let vCol ← m.ev2v[e * 2 + col]?
          let vOnto ← m.ev2v[e * 2 + (1 - col)]?
          let q ← collapseQuality m one D vCol vOnto
          pure [(k * 2 + col, q)]
        else pure []) = some ws ∧ ∀ p v, (p, v) ∈ ws ↔ c.testBit col = true ∧ p = k * 2 + col ∧ Q e col = some v := by
        intro col hcol
        obtain ⟨v, t, q, h1, h2, h3, h4⟩ := collapseQuality_spec h one e he col hcol
        have hq : Q e col = some q := by
          show (m.ev2v[e * 2 + col]?).bind _ = _
          rw [h1, Option.bind_some, h2, Option.bind_some, h3]
        by_cases hb : collapses c col = true
        · rw [if_pos hb]
          simp only [bind, h1, h2, h3, Option.bind_some, pure]
          refine ⟨_, rfl, ?_⟩
          intro p v
          rw [List.mem_singleton, Prod.mk.injEq, hq]
          constructor
          · rintro ⟨rfl, rfl⟩; exact ⟨hb, rfl, rfl⟩
          · rintro ⟨_, rfl, e2⟩; exact ⟨rfl, (Option.some.inj e2).symm⟩
        · rw [if_neg hb]
          refine ⟨[], rfl, ?_⟩
          intro p v
          refine iff_of_false (by simp) ?_
          rintro ⟨hb', _⟩; exact hb hb'
      obtain ⟨w0, a1, a2⟩ := hone 0 (by omega)
      obtain ⟨w1, b1, b2⟩ := hone 1 (by omega)
      refine ⟨w0 ++ w1, ?_, ?_⟩
      · simp only [bind, g1, g2, Option.bind_some, List.mapM_cons, List.mapM_nil] at a1 b1 ⊢
        rw [a1, b1]
        simp [pure]
      · intro p v
        rw [List.mem_append, a2, b2]
        constructor
        · rintro (⟨x1, x2, x3⟩ | ⟨x1, x2, x3⟩)
          · exact ⟨e, c, 0, g1, g2, by omega, x1, x2, x3⟩
          · exact ⟨e, c, 1, g1, g2, by omega, x1, x2, x3⟩
        · rintro ⟨e', c', i, y1, y2, y3, y4, y5, y6⟩
          obtain rfl := Option.some.inj (g1.symm.trans y1)
          obtain rfl := Option.some.inj (g2.symm.trans y2)
          have : i = 0 ∨ i = 1 := by omega
          rcases this with rfl | rfl
          · exact Or.inl ⟨y4, y5, y6⟩
          · exact Or.inr ⟨y4, y5, y6⟩)
    (by
      rintro k hk p v ⟨e, c, i, y1, y2, y3, y4, y5, y6⟩
      have hkl := (List.getElem?_eq_some_iff.1 y1).1
      refine ⟨by rw [List.length_replicate]; omega, ?_⟩
      rw [show p / 2 = k by omega, show p % 2 = i by omega, y1]
      exact y6)
  refine ⟨out, ?_, by rw [o2, List.length_replicate], ?_⟩
  · unfold coarsenQualities
    rw [Mem.filled_eq]
    exact o1
  · intro k e i hk hi hB
    have hkl := (List.getElem?_eq_some_iff.1 hk).1
    obtain ⟨c, g2⟩ : ∃ c, codes[k]? = some c := ⟨_, List.getElem?_eq_getElem (by rw [hc.len]; exact hkl)⟩
    obtain ⟨q, q1, q2⟩ := hQ e i (hc.range e (List.mem_of_getElem? hk)) hi
    exact ⟨q, o3 k hkl (k * 2 + i) q ⟨e, c, i, hk, g2, hi, (hc.bits k e c hk g2 i hi).2 hB, rfl, q1⟩, q2⟩

theorem filterMinQual_spec (s1 s2 : Sched) {ne : Nat} {cands codes : List Nat} {B : Nat → Nat → Prop}
    (h : Cands ne cands codes B) {quals : List K} {Q : Nat → Nat → K → Prop} (hq : QualsFor cands B quals Q)
    (hQ : ∀ e i q q', Q e i q → Q e i q' → q = q') (minQual : K) :
    ∃ codes', filterMinQual s1 s2 codes quals minQual = some codes' ∧
      Cands ne cands codes' (fun e i => B e i ∧ ∃ q, Q e i q ∧ minQual ≤ q) := by
  unfold filterMinQual
  rw [mapEach_eq s1 _ (fun q => b2i (decide (minQual ≤ q))) quals (fun _ _ => rfl), Option.bind_some]
  refine dirsFilter_spec s2 h _ _ ?_
  intro k e i hk hi
  have hkl := (List.getElem?_eq_some_iff.1 hk).1
  obtain ⟨q, h1⟩ : ∃ q, quals[k * 2 + i]? = some q := ⟨_, List.getElem?_eq_getElem (by rw [hq.1]; omega)⟩
  refine ⟨b2i (decide (minQual ≤ q)), by rw [List.getElem?_map, h1]; rfl, ?_⟩
  intro hB
  obtain ⟨q', h2, h3⟩ := hq.2 k e i hk hi hB
  obtain rfl := Option.some.inj (h1.symm.trans h2)
  by_cases hle : minQual ≤ q
  · simp only [hle, decide_true, b2i]
    exact iff_of_true (by decide) ⟨q, h3, hle⟩
  · simp only [hle, decide_false, b2i]
    refine iff_of_false (by decide) ?_
    rintro ⟨q', h4, h5⟩
    rw [hQ e i q q' h3 h4] at hle
    exact hle h5

theorem foldl_min_lt (l : List K) (top q : K) : l.foldl min top < q ↔ top < q ∨ ∃ x ∈ l, x < q := by
  induction l generalizing top with
  | nil => simp
  | cons a l ih =>
    rw [List.foldl_cons, ih]
    simp only [min_lt_iff, List.mem_cons]
    constructor
    · rintro ((h | h) | ⟨x, h1, h2⟩)
      · exact Or.inl h
      · exact Or.inr ⟨a, Or.inl rfl, h⟩
      · exact Or.inr ⟨x, Or.inr h1, h2⟩
    · rintro (h | ⟨x, rfl | h1, h2⟩)
      · exact Or.inl (Or.inl h)
      · exact Or.inl (Or.inr h2)
      · exact Or.inr ⟨x, h1, h2⟩

theorem vertOldQuals_spec (s1 s2 : Sched) {m : CollapseRank K} {D : Nat} {nents : Nat → Nat} {R : Nat → Nat → List Nat}
    (h : CollapseMesh m D nents R) (top : K) :
    ∃ out, vertOldQuals s1 s2 top m = some out ∧ out.length = nents 0 ∧
      ∀ v, v < nents 0 → ∃ x, out[v]? = some x ∧ ∀ q, q ≤ top → (x < q ↔
        ∃ c old, c < nents D ∧ v ∈ R D c ∧ m.elemQuals[c]? = some old ∧ old < q) := by
  obtain ⟨f1, f2, f3, f4⟩ := h.vertCellsFan
  obtain ⟨ab, a1, a2, a3⟩ := C05_unmap s1 m.v2c.ab2b m.elemQuals 1 (nents D) (by rw [h.quals]; omega) f4
  obtain ⟨out, o1, o2, o3⟩ := C06_fan_reduce s2 (minFunctorK top) m.v2c.a2ab ab 1 _ f1 f3 a2
  refine ⟨out, ?_, ?_, ?_⟩
  · unfold vertOldQuals
    rw [a1, Option.bind_some, o1]
  · rw [o2, f2]; omega
  · intro v hv
    obtain ⟨L, ⟨codes, lo, hi, l1, l2, l3, l4, l5⟩, l6, l7⟩ := h.vertCells v hv
    obtain ⟨_, g2⟩ := o3 v lo hi 0 l2 l3 (by omega)
    rw [entry_one] at g2
    refine ⟨_, g2, ?_⟩
    intro q hq
    have hvals : ∀ y, y ∈ fanValues ab 1 lo hi 0 ↔ ∃ x ∈ L, m.elemQuals[x.1]? = some y := by
      intro y
      unfold fanValues
      rw [List.mem_filterMap]
      constructor
      · rintro ⟨b, hb, hy⟩
        rw [List.mem_range'_1] at hb
        obtain ⟨x, hx⟩ : ∃ x, L[b - lo]? = some x := ⟨_, List.getElem?_eq_getElem (by omega)⟩
        obtain ⟨x1, _⟩ := l5 _ x hx
        rw [show lo + (b - lo) = b by omega] at x1
        refine ⟨x, List.mem_of_getElem? hx, ?_⟩
        have := a3 b x.1 0 x1 (by omega)
        rw [this, entry_one] at hy
        exact hy
      · rintro ⟨x, hx, hy⟩
        obtain ⟨j, hj⟩ := List.getElem?_of_mem hx
        have hjl := (List.getElem?_eq_some_iff.1 hj).1
        obtain ⟨x1, _⟩ := l5 _ x hj
        refine ⟨lo + j, by rw [List.mem_range'_1]; omega, ?_⟩
        rw [a3 _ x.1 0 x1 (by omega), entry_one]
        exact hy
    show List.foldl (fun r x => min r x) top _ < q ↔ _
    rw [show (fun r x : K => min r x) = min from rfl, foldl_min_lt]
    constructor
    · rintro (hlt | ⟨y, hy, hlt⟩)
      · exact absurd hlt (not_lt.2 hq)
      · obtain ⟨x, x1, x2⟩ := (hvals y).1 hy
        obtain ⟨z1, i, z2, z3⟩ := l6 x x1
        exact ⟨x.1, y, z1, List.mem_of_getElem? z3, x2, hlt⟩
    · rintro ⟨c, old, c1, c2, c3, c4⟩
      obtain ⟨code, hcode⟩ := l7 c c1 c2
      exact Or.inr ⟨old, (hvals old).2 ⟨_, hcode, c3⟩, c4⟩

theorem filterImprove_spec (s : Nat → Sched) {m : CollapseRank K} {D : Nat} {nents : Nat → Nat} {R : Nat → Nat → List Nat}
    (hm : CollapseMesh m D nents R) {cands codes : List Nat} {B : Nat → Nat → Prop}
    (h : Cands (nents 1) cands codes B) {quals : List K} {Q : Nat → Nat → K → Prop} (hq : QualsFor cands B quals Q)
    (hQ : ∀ e i q q', Q e i q → Q e i q' → q = q') (vertOld : List K) (hl : vertOld.length = nents 0) :
    ∃ codes', filterImprove s m cands codes quals vertOld = some codes' ∧
      Cands (nents 1) cands codes' (fun e i => B e i ∧ ∃ q v x, Q e i q ∧ (R 1 e)[i]? = some v ∧ vertOld[v]? = some x ∧ x < q) := by
  have hev : InRange m.ev2v (nents 0) := by
    intro v hv
    obtain ⟨k, hk⟩ := List.getElem?_of_mem hv
    have hkl := (List.getElem?_eq_some_iff.1 hk).1
    rw [hm.edgeVertsLen] at hkl
    obtain ⟨v', t, _, _, e1, _, _, e2, _⟩ := edge_ends hm (k / 2) (by omega) (k % 2) (by omega)
    rw [show k / 2 * 2 + k % 2 = k by omega] at e1
    obtain rfl := Option.some.inj (hk.symm.trans e1)
    exact e2
  obtain ⟨eo, a1, a2, a3⟩ := C05_unmap (s 0) m.ev2v vertOld 1 (nents 0) (by omega) hev
  rw [Nat.mul_one, hm.edgeVertsLen] at a2
  obtain ⟨co, b1, b2, b3⟩ := C05_unmap (s 1) cands eo 2 (nents 1) (by omega) h.range
  have hco : ∀ k e i : Nat, cands[k]? = some e → i < 2 → ∃ v x, (R 1 e)[i]? = some v ∧ vertOld[v]? = some x ∧
      co[k * 2 + i]? = some x := by
    intro k e i hk hi
    obtain ⟨v, t, e1, _, e2, _, _, e3, _⟩ := edge_ends hm e (h.range e (List.mem_of_getElem? hk)) i hi
    obtain ⟨x, hx⟩ : ∃ x, vertOld[v]? = some x := ⟨_, List.getElem?_eq_getElem (by omega)⟩
    refine ⟨v, x, e1, hx, ?_⟩
    have c1 := b3 k e i hk hi
    have c2 := a3 (e * 2 + i) v 0 e2 (by omega)
    rw [entry_one, entry_one] at c2
    unfold entry at c1
    rw [c1, c2, hx]
  have hz : zipEach (s 2) (fun q o => some (b2i (decide (o < q)))) quals co =
      some (List.zipWith (fun q o => b2i (decide (o < q))) quals co) :=
    zipEach_eq (s 2) _ _ quals co (by rw [hq.1, b2]) (fun _ _ _ _ _ => rfl)
  obtain ⟨codes', d1, d2⟩ := dirsFilter_spec (s 3) h (List.zipWith (fun q o => b2i (decide (o < q))) quals co)
    (fun e i => ∃ q v x, Q e i q ∧ (R 1 e)[i]? = some v ∧ vertOld[v]? = some x ∧ x < q) (by
    intro k e i hk hi
    have hkl := (List.getElem?_eq_some_iff.1 hk).1
    obtain ⟨q, h1⟩ : ∃ q, quals[k * 2 + i]? = some q := ⟨_, List.getElem?_eq_getElem (by rw [hq.1]; omega)⟩
    obtain ⟨v, x, h2, h3, h4⟩ := hco k e i hk hi
    refine ⟨b2i (decide (x < q)), by rw [List.getElem?_zipWith, h1, h4], ?_⟩
    intro hB
    obtain ⟨q', h5, h6⟩ := hq.2 k e i hk hi hB
    obtain rfl := Option.some.inj (h1.symm.trans h5)
    by_cases hlt : x < q
    · simp only [hlt, decide_true, b2i]
      exact iff_of_true (by decide) ⟨q, v, x, h6, h2, h3, hlt⟩
    · simp only [hlt, decide_false, b2i]
      refine iff_of_false (by decide) ?_
      rintro ⟨q', v', x', g1, g2, g3, g4⟩
      obtain rfl := Option.some.inj (h2.symm.trans g2)
      obtain rfl := Option.some.inj (h3.symm.trans g3)
      rw [hQ e i q q' h6 g1] at hlt
      exact hlt g4)
  refine ⟨codes', ?_, d2⟩
  unfold filterImprove
  simp only [bind, a1, b1, hz, Option.bind_some]
  exact d1

end
end OmegaH
