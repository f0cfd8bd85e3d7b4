import Verif.Lemmas.SwapMeasure
import Verif.Props.C56World
/-!
# The edges to swap: all ranks together
-/
namespace OmegaH
open Spec

section
variable {K : Type} [Ring K] [LinearOrder K]

theorem swapQualities_spec (s : Nat → Sched) (measure : SwapRank K → Nat → Option (Int × K)) (r : Nat) (m : SwapRank K) (cands : List Nat)
    (own : Nat → Nat) (hown : m.ownerRanks = (List.range m.nedges).map own) (hr : InRange cands m.nedges) (val : Nat → Int × K)
    (hval : ∀ e ∈ cands, own e = r → measure m e = some (val e)) :
    ∃ out, swapQualities s measure r m cands = some out ∧ out.length = cands.length ∧
      ∀ k e : Nat, cands[k]? = some e → own e = r → out[k]? = some (val e) := by
  unfold swapQualities
  rw [mapEach_eq (s 0) _ (fun x => b2i (decide (x = r))) m.ownerRanks (fun _ _ => rfl), Option.bind_some]
  obtain ⟨out, o1, o2, o3⟩ := parVals_spec (s 1) cands.length (fun cand => (cands[cand]?).bind (fun e =>
      ((m.ownerRanks.map (fun x => b2i (decide (x = r))))[e]?).bind (fun o =>
        (if o = 0 then some (-1, -1) else measure m e).map (fun x => [(cand, x)]))))
    (fun k x => ∀ e : Nat, cands[k]? = some e → own e = r → x = val e) (Mem.alloc cands.length) List.length_replicate (by
      intro k hk
      have hk' := List.getElem?_eq_getElem hk
      have he := hr _ (List.getElem_mem hk)
      rw [hk', Option.bind_some]
      rw [hown, List.getElem?_map, List.getElem?_map, List.getElem?_range he]
      simp only [Option.map_some, Option.bind_some]
      by_cases ho : own cands[k] = r
      · rw [if_neg (by simp [ho, b2i]), hval _ (List.getElem_mem hk) ho]
        refine ⟨_, rfl, ?_⟩
        intro e h1 _
        obtain rfl := Option.some.inj h1
        rfl
      · rw [if_pos (by simp [ho, b2i])]
        refine ⟨_, rfl, ?_⟩
        intro e h1 h2
        obtain rfl := Option.some.inj h1
        exact absurd h2 ho)
  refine ⟨out, o1, o2, ?_⟩
  intro k e h1 h2
  obtain ⟨x, x1, x2⟩ := o3 k (List.getElem?_eq_some_iff.1 h1).1
  rw [x1, x2 e h1 h2]

theorem edgeOldQuals_spec (s1 s2 : Sched) (m : SwapRank K) (top : K) (ncells : Nat)
    (h : IsFan m.up.a2ab ∧ m.up.a2ab.length = m.nedges + 1 ∧ m.up.a2ab.getLast? = some m.up.ab2b.length ∧
      (∀ c ∈ m.up.ab2b, c < ncells) ∧ m.elemQuals.length = ncells) :
    ∃ out, edgeOldQuals s1 s2 top m = some out ∧ out.length = m.nedges ∧
      ∀ e L, AdjRow m.up e L → ∃ x, out[e]? = some x ∧ ∀ q, q ≤ top → (x < q ↔ ∃ old, OldQuality m e old ∧ old < q) := by
  obtain ⟨f1, f2, f3, f4, f5⟩ := h
  obtain ⟨ab, a1, a2, a3⟩ := C05_unmap s1 m.up.ab2b m.elemQuals 1 ncells (by omega) f4
  obtain ⟨out, o1, o2, o3⟩ := C06_fan_reduce s2 (minFunctorK top) m.up.a2ab ab 1 _ f1 f3 a2
  refine ⟨out, ?_, ?_, ?_⟩
  · unfold edgeOldQuals
    rw [a1, Option.bind_some, o1]
  · rw [o2, f2]; omega
  · intro e L hL
    obtain ⟨codes, lo, hi, l1, l2, l3, l4, l5⟩ := id hL
    obtain ⟨_, g2⟩ := o3 e lo hi 0 l2 l3 (by omega)
    rw [entry_one] at g2
    refine ⟨_, g2, ?_⟩
    intro q hq
    have hvals : ∀ y, y ∈ fanValues ab 1 lo hi 0 ↔ ∃ x ∈ L, m.elemQuals[x.1]? = some y := by
      intro y
      unfold fanValues
      rw [List.mem_filterMap]
      constructor
      · rintro ⟨b, hb, hy⟩
        rw [List.mem_range'_1] at hb
        obtain ⟨x, hx⟩ : ∃ x, L[b - lo]? = some x := ⟨_, List.getElem?_eq_getElem (by omega)⟩
        obtain ⟨x1, _⟩ := l5 _ x hx
        rw [show lo + (b - lo) = b by omega] at x1
        refine ⟨x, List.mem_of_getElem? hx, ?_⟩
        have := a3 b x.1 0 x1 (by omega)
        rw [this, entry_one] at hy
        exact hy
      · rintro ⟨x, hx, hy⟩
        obtain ⟨j, hj⟩ := List.getElem?_of_mem hx
        have hjl := (List.getElem?_eq_some_iff.1 hj).1
        obtain ⟨x1, _⟩ := l5 _ x hj
        refine ⟨lo + j, by rw [List.mem_range'_1]; omega, ?_⟩
        rw [a3 _ x.1 0 x1 (by omega), entry_one]
        exact hy
    show List.foldl (fun r x => min r x) top _ < q ↔ _
    rw [show (fun r x : K => min r x) = min from rfl, foldl_min_lt]
    constructor
    · rintro (hlt | ⟨y, hy, hlt⟩)
      · exact absurd hlt (not_lt.2 hq)
      · obtain ⟨x, x1, x2⟩ := (hvals y).1 hy
        exact ⟨y, ⟨L, x, hL, x1, x2⟩, hlt⟩
    · rintro ⟨old, ⟨L', x, hL', x1, x2⟩, hlt⟩
      refine Or.inr ⟨old, (hvals old).2 ?_, hlt⟩
      obtain ⟨codes', lo', hi', l1', l2', l3', l4', l5'⟩ := hL'
      obtain rfl := Option.some.inj (l2.symm.trans l2')
      obtain rfl := Option.some.inj (l3.symm.trans l3')
      obtain ⟨j, hj⟩ := List.getElem?_of_mem x1
      have hjl := (List.getElem?_eq_some_iff.1 hj).1
      obtain ⟨y, hy⟩ : ∃ y, L[j]? = some y := ⟨_, List.getElem?_eq_getElem (by omega)⟩
      refine ⟨y, List.mem_of_getElem? hy, ?_⟩
      have e1 := (l5' j x hj).1
      have e2 := (l5 j y hy).1
      rw [e1] at e2
      rw [← Option.some.inj e2]
      exact x2

omit [Ring K] in
theorem filterSwap_spec (s : Nat → Sched) (ne : Nat) (cands : List Nat) (vals : List (Int × K)) (old : List K)
    (hinj : Injective cands) (hr : InRange cands ne) (hv : vals.length = cands.length) (ho : old.length = ne) :
    ∃ cands' quals', filterSwap s cands vals old = some (cands', quals') ∧ quals'.length = cands'.length ∧ Injective cands' ∧
      (∀ e, e ∈ cands' ↔ ∃ (k : Nat) (v : Int × K) (o : K), cands[k]? = some e ∧ vals[k]? = some v ∧ old[e]? = some o ∧ o < v.2) ∧
      ∀ k' e : Nat, cands'[k']? = some e → ∃ (k : Nat) (v : Int × K), cands[k]? = some e ∧ vals[k]? = some v ∧ quals'[k']? = some v.2 := by
  obtain ⟨co, a1, a2, a3⟩ := C05_unmap (s 0) cands old 1 ne (by omega) hr
  rw [Nat.mul_one] at a2
  have a3' : ∀ k e : Nat, cands[k]? = some e → co[k]? = old[e]? := by
    intro k e hk
    have := a3 k e 0 hk (by omega)
    rwa [entry_one, entry_one] at this
  have hz := zipEach_eq (s 1) (fun (q o : K) => some (b2i (decide (o < q)))) (fun q o => b2i (decide (o < q))) (vals.map Prod.snd) co
    (by rw [List.length_map]; omega) (fun _ _ _ _ _ => rfl)
  obtain ⟨n2o, m1, m2⟩ := C03_collect_marked (s 2) (List.zipWith (fun q o => b2i (decide (o < q))) (vals.map Prod.snd) co) (by
    intro x hx
    obtain ⟨i, hi⟩ := List.getElem?_of_mem hx
    rw [List.getElem?_zipWith] at hi
    split at hi
    · obtain rfl := Option.some.inj hi
      rename_i q o _ _
      by_cases h : o < q <;> simp [h, b2i]
    · simp at hi)
  obtain ⟨i1, i2, i3⟩ := collected_of m2
  have hlen : (List.zipWith (fun q o => b2i (decide (o < q))) (vals.map Prod.snd) co).length = cands.length := by
    rw [List.length_zipWith, List.length_map]; omega
  rw [hlen] at i2
  have i3' : ∀ k : Nat, k ∈ n2o ↔ ∃ (e : Nat) (v : Int × K) (o : K), cands[k]? = some e ∧ vals[k]? = some v ∧ old[e]? = some o ∧ o < v.2 := by
    intro k
    rw [i3]
    constructor
    · intro hk
      have hkl := (List.getElem?_eq_some_iff.1 hk).1
      rw [hlen] at hkl
      obtain ⟨e, he⟩ : ∃ e, cands[k]? = some e := ⟨_, List.getElem?_eq_getElem hkl⟩
      obtain ⟨v, hv'⟩ : ∃ v, vals[k]? = some v := ⟨_, List.getElem?_eq_getElem (by omega)⟩
      obtain ⟨o, ho'⟩ : ∃ o, co[k]? = some o := ⟨_, List.getElem?_eq_getElem (by omega)⟩
      refine ⟨e, v, o, he, hv', by rw [← a3' k e he, ho'], ?_⟩
      rw [List.getElem?_zipWith, List.getElem?_map, hv', ho'] at hk
      simp only [Option.map_some, Option.some.injEq] at hk
      by_contra hn
      simp [hn, b2i] at hk
    · rintro ⟨e, v, o, h1, h2, h3, h4⟩
      rw [List.getElem?_zipWith, List.getElem?_map, h2, a3' k e h1, h3]
      simp [h4, b2i]
  obtain ⟨cands', c1, c2, c3⟩ := C05_unmap (s 3) n2o cands 1 cands.length (by omega) i2
  obtain ⟨quals', d1, d2, d3⟩ := C05_unmap (s 4) n2o (vals.map Prod.snd) 1 cands.length (by rw [List.length_map]; omega) i2
  rw [Nat.mul_one] at c2 d2
  have c3' : ∀ k old : Nat, n2o[k]? = some old → cands'[k]? = cands[old]? := by
    intro k old hk
    have := c3 k old 0 hk (by omega)
    rwa [entry_one, entry_one] at this
  have d3' : ∀ k old : Nat, n2o[k]? = some old → quals'[k]? = (vals[old]?).map Prod.snd := by
    intro k old hk
    have := d3 k old 0 hk (by omega)
    rwa [entry_one, entry_one, List.getElem?_map] at this
  have hold : ∀ k' e : Nat, cands'[k']? = some e → ∃ (k : Nat) (v : Int × K) (o : K), n2o[k']? = some k ∧ cands[k]? = some e ∧ vals[k]? = some v ∧
      old[e]? = some o ∧ o < v.2 ∧ quals'[k']? = some v.2 := by
    intro k' e hk'
    obtain ⟨k, hk⟩ : ∃ k, n2o[k']? = some k := ⟨_, List.getElem?_eq_getElem (by have := (List.getElem?_eq_some_iff.1 hk').1; omega)⟩
    obtain ⟨e', v, o, h1, h2, h3, h4⟩ := (i3' k).1 (List.mem_of_getElem? hk)
    rw [c3' k' k hk, h1] at hk'
    obtain rfl := Option.some.inj hk'
    exact ⟨k, v, o, hk, h1, h2, h3, h4, by rw [d3' k' k hk, h2]; rfl⟩
  refine ⟨cands', quals', ?_, by omega, ?_, ?_, ?_⟩
  · unfold filterSwap
    simp only [bind, a1, Option.bind_some, hz, m1, c1, d1, pure]
  · intro a b e ha hb
    obtain ⟨ka, _, _, x1, x2, _⟩ := hold a e ha
    obtain ⟨kb, _, _, y1, y2, _⟩ := hold b e hb
    obtain rfl := hinj ka kb e x2 y2
    exact i1 a b ka x1 y1
  · intro e
    constructor
    · intro he
      obtain ⟨k', hk'⟩ := List.getElem?_of_mem he
      obtain ⟨k, v, o, _, h1, h2, h3, h4, _⟩ := hold k' e hk'
      exact ⟨k, v, o, h1, h2, h3, h4⟩
    · rintro ⟨k, v, o, h1, h2, h3, h4⟩
      obtain ⟨k', hk'⟩ := List.getElem?_of_mem ((i3' k).2 ⟨e, v, o, h1, h2, h3, h4⟩)
      exact List.mem_of_getElem? (by rw [c3' k' k hk', h1])
  · intro k' e hk'
    obtain ⟨k, v, o, _, h1, h2, _, _, h5⟩ := hold k' e hk'
    exact ⟨k, v, h1, h2, h5⟩

theorem injective_length {l : List Nat} {n : Nat} (hinj : Injective l) (hr : InRange l n) : l.length ≤ n := by
  have hnd : l.Nodup := by
    rw [List.nodup_iff_injective_getElem]
    intro a b hab
    have hab : l[a.1] = l[b.1] := hab
    exact Fin.ext (hinj a b _ (List.getElem?_eq_getElem a.2) (by rw [hab]; exact List.getElem?_eq_getElem b.2))
  have := (hnd.subperm (l₂ := List.range n) (fun x hx => List.mem_range.2 (hr x hx))).length_le
  simpa using this

instance : Inhabited (SwapMarks K) := ⟨⟨[], [], []⟩⟩

/-- The edges to swap, given the values found for the edges that are offered, where they are owned. -/
theorem swapGhosted_spec {n : Nat} {shared : Bool} (W : SwapWorld K) (inside : SwapRank K → Nat → Prop) (hW : W.Ok n shared inside)
    (hadj : ∀ r e, inside (W.rank r) e → ∃ L, AdjRow (W.rank r).up e L)
    (s : Nat → Nat → Nat → Sched) (measure : SwapRank K → Nat → Option (Int × K)) (top : K) (val : Nat → Nat → Int × K)
    (hval : ∀ r e, r < n → e < (W.rank r).nedges → W.B r e → (W.owner r e).1 = r → measure (W.rank r) e = some (val r e))
    (htop : ∀ r e, r < n → e < (W.rank r).nedges → W.B r e → (W.owner r e).1 = r → (val r e).2 ≤ top)
    (A : Nat → Nat → Prop)
    (hA : ∀ r e, A r e ↔ W.B r e ∧ ∃ old, OldQuality (W.rank (W.owner r e).1) (W.owner r e).2 old ∧
      old < (val (W.owner r e).1 (W.owner r e).2).2) :
    ∃ out, swapGhosted s (ownersArg n shared (fun r => (W.rank r).nedges) W.owner) (world n W.rank) measure top (world n W.marks) = some out ∧
      ((out = none ∧ ∀ r e, r < n → e < (W.rank r).nedges → ¬ A r e) ∨
       ∃ res, out = some (world n res) ∧ (∃ r e, r < n ∧ e < (W.rank r).nedges ∧ A r e) ∧
        ∀ r e, r < n → e < (W.rank r).nedges →
          (A r e → (res r).marks[e]? = some 1 ∧ (res r).quals[e]? = some (val (W.owner r e).1 (W.owner r e).2).2 ∧
            (res r).configs[e]? = some (val (W.owner r e).1 (W.owner r e).2).1) ∧
          (¬ A r e → (res r).marks[e]? = some 0)) := by
  -- candidates
  obtain ⟨cands, k1, k2⟩ := onRanks_spec W.marks (fun r l => collectMarked (s 0 r 0) l)
    (fun r c => Injective c ∧ InRange c (W.rank r).nedges ∧ ∀ e, e ∈ c ↔ W.B r e) (n := n) (by
    intro r hr
    obtain ⟨c, c1, c2⟩ := C03_collect_marked (s 0 r 0) (W.marks r) (hW.marked r hr).2
    obtain ⟨d1, d2, d3⟩ := collected_of c2
    rw [(hW.marked r hr).1] at d2
    exact ⟨c, c1, d1, d2, d3⟩)
  -- values
  obtain ⟨vals0, v1, v2⟩ := onRanks_spec W.rank (fun r m => ((world n cands)[r]?).bind (fun c => swapQualities (s 1 r) measure r m c))
    (fun r out => out.length = (cands r).length ∧ ∀ k e : Nat, (cands r)[k]? = some e → (W.owner r e).1 = r → out[k]? = some (val r e)) (n := n) (by
    intro r hr
    rw [world_get _ hr, Option.bind_some]
    refine swapQualities_spec (s 1 r) measure r (W.rank r) (cands r) (fun e => (W.owner r e).1) (hW.ownerRanks r hr) (k2 r hr).2.1 (val r) ?_
    intro e he ho
    exact hval r e hr ((k2 r hr).2.1 e he) (((k2 r hr).2.2 e).1 he) ho)
  obtain ⟨vals, y1, y2⟩ := syncSubset_spec hW.size hW.owners (s 2) 1 (by omega) ((-1 : Int), (-1 : K)) cands
    (fun r hr => (k2 r hr).1) (fun r hr => (k2 r hr).2.1) vals0 (fun r hr => by rw [(v2 r hr).1, Nat.mul_one])
  have hvals : ∀ r, r < n → (vals r).length = (cands r).length ∧ ∀ k e : Nat, (cands r)[k]? = some e →
      (vals r)[k]? = some (val (W.owner r e).1 (W.owner r e).2) := by
    intro r hr
    refine ⟨by rw [(y2 r hr).1, Nat.mul_one], ?_⟩
    intro k e hk
    have he := (k2 r hr).2.1 e (List.mem_of_getElem? hk)
    obtain ⟨u1, u2, u3⟩ := hW.owners.valid r e hr he
    have hB := ((k2 r hr).2.2 e).1 (List.mem_of_getElem? hk)
    have hB' := (hW.agree r e hr he).1 hB
    obtain ⟨k', hk'⟩ := List.getElem?_of_mem (((k2 _ u1).2.2 _).2 hB')
    have := ((y2 r hr).2 k e hk 0 (by omega)).1 k' hk'
    rw [entry_one, entry_one] at this
    rw [this]
    exact (v2 _ u1).2 k' _ hk' (by rw [u3])
  -- configurations
  obtain ⟨configs, g1, g2⟩ := onRanks_spec W.rank (fun r m => ((world n cands)[r]?).bind (fun c => ((world n vals)[r]?).bind (fun v =>
      mapOnto (s 3 r 0) (v.map Prod.fst) c m.nedges (-1) 1)))
    (fun r out => ∀ e ∈ cands r, out[e]? = some (val (W.owner r e).1 (W.owner r e).2).1) (n := n) (by
    intro r hr
    rw [world_get _ hr, Option.bind_some, world_get _ hr, Option.bind_some]
    obtain ⟨a1, a2, _⟩ := k2 r hr
    obtain ⟨b1, b2⟩ := hvals r hr
    have hle := injective_length a1 a2
    obtain ⟨out, o1, o2, o3, o4⟩ := C05_map_onto (s 3 r 0) ((vals r).map Prod.fst) (cands r) (W.rank r).nedges (-1) 1
      (by rw [List.length_map]; omega) (by rw [List.length_map]; omega) a2 a1
    refine ⟨out, o1, ?_⟩
    intro e he
    obtain ⟨k, hk⟩ := List.getElem?_of_mem he
    have := o3 k e 0 hk (by omega)
    rw [entry_one, entry_one, List.getElem?_map, b2 k e hk] at this
    exact this)
  -- old qualities
  obtain ⟨old0, p1, p2⟩ := onRanks_spec W.rank (fun r m => edgeOldQuals (s 4 r 0) (s 4 r 1) top m)
    (fun r out => out.length = (W.rank r).nedges ∧ ∀ e L, AdjRow (W.rank r).up e L → ∃ x, out[e]? = some x ∧
      ∀ q, q ≤ top → (x < q ↔ ∃ old, OldQuality (W.rank r) e old ∧ old < q)) (n := n) (by
    intro r hr
    exact edgeOldQuals_spec (s 4 r 0) (s 4 r 1) (W.rank r) top (W.ncells r) (hW.fan r hr))
  obtain ⟨old, q1, q2⟩ := syncValues_spec hW.size hW.owners (s 5) 1 (by omega) old0 (fun r hr => by rw [(p2 r hr).1, Nat.mul_one])
  have hold : ∀ r e, r < n → e < (W.rank r).nedges → W.B r e → ∃ x, (old r)[e]? = some x ∧
      (x < (val (W.owner r e).1 (W.owner r e).2).2 ↔ ∃ old, OldQuality (W.rank (W.owner r e).1) (W.owner r e).2 old ∧
        old < (val (W.owner r e).1 (W.owner r e).2).2) := by
    intro r e hr he hB
    obtain ⟨u1, u2, u3⟩ := hW.owners.valid r e hr he
    have hB' := (hW.agree r e hr he).1 hB
    obtain ⟨L, hL⟩ := hadj _ _ (hW.inside _ _ u1 u2 hB' (by rw [u3]))
    obtain ⟨x, x1, x2⟩ := (p2 _ u1).2 _ L hL
    refine ⟨x, ?_, x2 _ (htop _ _ u1 u2 hB' (by rw [u3]))⟩
    have := (q2 r hr).2 e he 0 (by omega)
    rw [entry_one, entry_one] at this
    rw [this, x1]
  -- the filter
  obtain ⟨kept, w1, w2⟩ := onRanks_spec cands (fun r c => ((world n vals)[r]?).bind (fun v => ((world n old)[r]?).bind (fun o => filterSwap (s 6 r) c v o)))
    (fun r out => out.2.length = out.1.length ∧ Injective out.1 ∧ InRange out.1 (W.rank r).nedges ∧ (∀ e, e ∈ out.1 ↔ e < (W.rank r).nedges ∧ A r e) ∧
      ∀ k' e : Nat, out.1[k']? = some e → out.2[k']? = some (val (W.owner r e).1 (W.owner r e).2).2) (n := n) (by
    intro r hr
    rw [world_get _ hr, Option.bind_some, world_get _ hr, Option.bind_some]
    obtain ⟨a1, a2, a3⟩ := k2 r hr
    obtain ⟨b1, b2⟩ := hvals r hr
    obtain ⟨cands', quals', c1, c2, c3, c4, c5⟩ := filterSwap_spec (s 6 r) (W.rank r).nedges (cands r) (vals r) (old r) a1 a2 b1
      (by rw [(q2 r hr).1, Nat.mul_one])
    have hmem : ∀ e, e ∈ cands' ↔ e < (W.rank r).nedges ∧ A r e := by
      intro e
      rw [c4 e, hA]
      constructor
      · rintro ⟨k, v, o, h1, h2, h3, h4⟩
        have he := a2 e (List.mem_of_getElem? h1)
        have hB := (a3 e).1 (List.mem_of_getElem? h1)
        rw [b2 k e h1] at h2
        obtain rfl := Option.some.inj h2
        obtain ⟨x, x1, x2⟩ := hold r e hr he hB
        obtain rfl := Option.some.inj (h3.symm.trans x1)
        exact ⟨he, hB, x2.1 h4⟩
      · rintro ⟨he, hB, hlt⟩
        obtain ⟨k, hk⟩ := List.getElem?_of_mem ((a3 e).2 hB)
        obtain ⟨x, x1, x2⟩ := hold r e hr he hB
        exact ⟨k, _, x, hk, b2 k e hk, x1, x2.2 hlt⟩
    refine ⟨(cands', quals'), c1, c2, c3, fun e he => ((hmem e).1 he).1, hmem, ?_⟩
    intro k' e hk'
    obtain ⟨k, v, h1, h2, h3⟩ := c5 k' e hk'
    rw [b2 k e h1] at h2
    obtain rfl := Option.some.inj h2
    exact h3)
  -- the result
  obtain ⟨res, r1, r2⟩ := onRanks_spec W.rank (fun r m => ((world n kept)[r]?).bind (fun k => ((world n configs)[r]?).bind (fun cf =>
      (markImage (s 7 r 0) k.1 m.nedges).bind (fun mk =>
        (mapOnto (s 7 r 1) k.2 k.1 m.nedges (-1) 1).map (fun q => (⟨mk, q, cf⟩ : SwapMarks K))))))
    (fun r (out : SwapMarks K) => ∀ e, e < (W.rank r).nedges →
      (A r e → out.marks[e]? = some 1 ∧ out.quals[e]? = some (val (W.owner r e).1 (W.owner r e).2).2 ∧
        out.configs[e]? = some (val (W.owner r e).1 (W.owner r e).2).1) ∧ (¬ A r e → out.marks[e]? = some 0)) (n := n) (by
    intro r hr
    rw [world_get _ hr, Option.bind_some, world_get _ hr, Option.bind_some]
    obtain ⟨a1, a2, a3, a4, a5⟩ := w2 r hr
    have hle := injective_length a2 a3
    obtain ⟨mk, m1, m2, m3, m4⟩ := C03_mark_image (s 7 r 0) (kept r).1 (W.rank r).nedges a3
    obtain ⟨qs, o1, o2, o3, o4⟩ := C05_map_onto (s 7 r 1) (kept r).2 (kept r).1 (W.rank r).nedges (-1) 1
      (by omega) (by omega) a3 a2
    rw [m1, Option.bind_some, o1]
    refine ⟨_, rfl, ?_⟩
    intro e he
    dsimp only
    constructor
    · intro hAe
      have hmem := (a4 e).2 ⟨he, hAe⟩
      refine ⟨(m4 e).2 (List.getElem?_of_mem hmem), ?_, (g2 r hr) e (((k2 r hr).2.2 e).2 ((hA r e).1 hAe).1)⟩
      obtain ⟨k, hk⟩ := List.getElem?_of_mem hmem
      have := o3 k e 0 hk (by omega)
      rw [entry_one, entry_one] at this
      rw [this, a5 k e hk]
    · intro hAe
      obtain ⟨x, hx⟩ : ∃ x, mk[e]? = some x := ⟨_, List.getElem?_eq_getElem (by omega)⟩
      rcases m3 x (List.mem_of_getElem? hx) with rfl | rfl
      · exact hx
      · exact absurd ((a4 e).1 (let ⟨_, hk⟩ := (m4 e).1 hx; List.mem_of_getElem? hk)).2 hAe)
  have hall : ((world n kept).all (fun k => k.1.isEmpty)) = true ↔ ∀ r e, r < n → e < (W.rank r).nedges → ¬ A r e := by
    rw [List.all_eq_true]
    constructor
    · intro h r e hr he hAe
      have := h (kept r) (List.mem_of_getElem? (world_get _ hr))
      rw [List.isEmpty_iff] at this
      have hm := ((w2 r hr).2.2.2.1 e).2 ⟨he, hAe⟩
      rw [this] at hm
      simp at hm
    · intro h k hk
      obtain ⟨r, hr⟩ := List.getElem?_of_mem hk
      have hrn : r < n := by have := (List.getElem?_eq_some_iff.1 hr).1; rwa [world_length] at this
      rw [world_get _ hrn] at hr
      obtain rfl := Option.some.inj hr
      rw [List.isEmpty_iff]
      refine List.eq_nil_iff_forall_not_mem.2 ?_
      intro e he
      obtain ⟨h1, h2⟩ := ((w2 r hrn).2.2.2.1 e).1 he
      exact h r e hrn h1 h2
  unfold swapGhosted
  simp only [bind, k1, Option.bind_some, v1, world_map]
  rw [y1, Option.bind_some, g1, Option.bind_some, p1, Option.bind_some, q1, Option.bind_some, w1, Option.bind_some]
  by_cases hemp : ((world n kept).all (fun k => k.1.isEmpty)) = true
  · rw [if_pos hemp]
    exact ⟨none, rfl, Or.inl ⟨rfl, hall.1 hemp⟩⟩
  · rw [if_neg hemp, r1]
    refine ⟨some (world n res), rfl, Or.inr ⟨res, rfl, ?_, fun r e hr he => r2 r hr e he⟩⟩
    by_contra hno
    refine hemp (hall.2 ?_)
    intro r e hr he hAe
    exact hno ⟨r, e, hr, he, hAe⟩

end
end OmegaH
