import Verif.Lemmas.Bipart

/-! # C24 — bisection deals every row to one rank, evenly and in order -/

namespace OmegaH
open Spec

/-- The pattern of `bi_partition`. -/
theorem biPartition_spec (s : Nat → Nat → Sched) {h : Nat} (hh : 0 < h) (hh' : 2 * h ≤ 2147483648) {M : Nat → List Int}
    (hm : ∀ r, r < 2 * h → IsMarks (M r)) (hsz : blockOff M (2 * h) < 2 ^ 31 - 1) :
    ∃ (dests : Nat → Remotes) (nroots : Nat → Nat) (D : Nat → Dist) (order : Nat → List (Nat × Nat)) (fan : Nat → List Nat)
      (L0 L1 : Nat → List Nat),
      biPartition s (world (2 * h) M) = .ok (world (2 * h) D) ∧ CopyDist (2 * h) dests nroots D order fan ∧
      (∀ r, r < 2 * h → (dests r).ranks.length = (M r).length) ∧
      (∀ p, p < 2 * h → (order p).length = nroots p ∧ ∀ k r i : Nat, (order p)[k]? = some (r, i) → destOf dests r i = some (p, k)) ∧
      Dealt (2 * h) h 0 nroots L0 dests ∧ Dealt (2 * h) h h (fun q => nroots (h + q)) L1 dests ∧
      (∀ q q', q < h → q' < h → nroots q ≤ nroots q' + 1 ∧ nroots (h + q) ≤ nroots (h + q') + 1) ∧
      ∀ r, r < 2 * h → ((L0 r).Pairwise (· < ·) ∧ ∀ i, i ∈ L0 r ↔ (M r)[i]? = some 0) ∧
        ((L1 r).Pairwise (· < ·) ∧ ∀ i, i ∈ L1 r ↔ (M r)[i]? = some 1) := by
  let st : Nat → BipartState := fun r => ⟨M r, Mem.alloc (M r).length, Mem.alloc (M r).length, -1⟩
  obtain ⟨st0, size0, L0, e0, d0⟩ := round_spec s (n := 2 * h) (h := h) (rankStart := 0) hh (by omega) (st := st) hm
    (fun r _ => ⟨by simp [st, Mem.alloc], by simp [st, Mem.alloc]⟩) hsz
  have hsz0 : blockOff (fun r => (st0 r).marks) (2 * h) < 2 ^ 31 - 1 := by
    have : blockOff (fun r => (st0 r).marks) (2 * h) = blockOff M (2 * h) := by
      unfold blockOff
      congr 1
      apply List.map_congr_left
      intro r hr
      exact (d0.marks r (List.mem_range.1 hr)).1
    rw [this]; exact hsz
  obtain ⟨st1, size1, L1, e1, d1⟩ := round_spec (fun r k => s r (k + 6)) (n := 2 * h) (h := h) (rankStart := h) hh (by omega) (st := st0)
    (fun r hr => (d0.marks r hr).2.1)
    (fun r hr => by
      rw [(d0.len r hr).1, (d0.len r hr).2, (d0.marks r hr).1]
      exact ⟨by simp [st, Mem.alloc], by simp [st, Mem.alloc]⟩) hsz0
  have hM : ∀ (r i : Nat), r < 2 * h → i < (M r).length → ((M r)[i]? = some 0 ∨ (M r)[i]? = some 1) := by
    intro r i hr hi
    have e := List.getElem?_eq_getElem hi
    rcases hm r hr _ (List.mem_of_getElem? e) with h0 | h0
    · exact Or.inl (by rw [e, h0])
    · exact Or.inr (by rw [e, h0])
  have hL0 : ∀ r, r < 2 * h → (L0 r).Pairwise (· < ·) ∧ ∀ i, i ∈ L0 r ↔ (M r)[i]? = some 0 := by
    intro r hr
    rw [d0.marked r hr]
    have hc := markedList_collected (st0 r).marks
    refine ⟨hc.1, ?_⟩
    intro i
    rw [hc.2 i]
    constructor
    · intro hmk
      have hi : i < (M r).length := by
        have := (List.getElem?_eq_some_iff.1 hmk).1
        rw [(d0.marks r hr).1] at this
        exact this
      rcases hM r i hr hi with h0 | h0
      · exact h0
      · exact absurd h0 (((d0.marks r hr).2.2 i hi).1 hmk)
    · intro h0
      have hi := (List.getElem?_eq_some_iff.1 h0).1
      refine ((d0.marks r hr).2.2 i hi).2 ?_
      intro h1
      have h1 : (M r)[i]? = some 1 := h1
      rw [h0] at h1
      cases h1
  have hL1 : ∀ r, r < 2 * h → (L1 r).Pairwise (· < ·) ∧ ∀ i, i ∈ L1 r ↔ (M r)[i]? = some 1 := by
    intro r hr
    rw [d1.marked r hr]
    have hc := markedList_collected (st1 r).marks
    refine ⟨hc.1, ?_⟩
    intro i
    rw [hc.2 i]
    have hlen0 := (d0.marks r hr).1
    constructor
    · intro hmk
      have hi : i < (M r).length := by
        have := (List.getElem?_eq_some_iff.1 hmk).1
        rw [(d1.marks r hr).1, hlen0] at this
        exact this
      have := ((d1.marks r hr).2.2 i (by rw [hlen0]; exact hi)).1 hmk
      rcases hM r i hr hi with h0 | h0
      · exact absurd (((hL0 r hr).2 i).2 h0) (by
          rw [d0.marked r hr]
          exact fun hx => this (((markedList_collected (st0 r).marks).2 i).1 hx))
      · exact h0
    · intro h0
      have hi := (List.getElem?_eq_some_iff.1 h0).1
      refine ((d1.marks r hr).2.2 i (by rw [hlen0]; exact hi)).2 ?_
      intro h1
      exact (((d0.marks r hr).2.2 i hi).1 h1) h0
  have hcov : ∀ r i, r < 2 * h → i < (M r).length → i ∈ L0 r ∨ i ∈ L1 r := by
    intro r i hr hi
    rcases hM r i hr hi with h0 | h0
    · exact Or.inl (((hL0 r hr).2 i).2 h0)
    · exact Or.inr (((hL1 r hr).2 i).2 h0)
  have hdisj : ∀ r i, r < 2 * h → i ∈ L0 r → i ∉ L1 r := by
    intro r i hr h0 h1
    have h0 := ((hL0 r hr).2 i).1 h0
    have h1 := ((hL1 r hr).2 i).1 h1
    rw [h0] at h1
    cases h1
  let nroots : Nat → Nat := fun p => if p < h then size0 p else size1 (p - h)
  -- where an item goes
  have hitem : ∀ r i, r < 2 * h → i < (M r).length → ∃ p x : Nat, (st1 r).ranks[i]? = some (some (p : Int)) ∧ (st1 r).idxs[i]? = some (some (x : Int)) ∧
      p < 2 * h ∧ x < nroots p := by
    intro r i hr hi
    rcases hcov r i hr hi with hc | hc
    · obtain ⟨j, hj⟩ := List.getElem?_of_mem hc
      obtain ⟨q, x, q1, q2, q3, q4, q5⟩ := d0.hit r j i hr hj
      obtain ⟨m1, m2⟩ := d1.miss r i hr (hdisj r i hr hc)
      rw [Nat.zero_add] at q4
      exact ⟨q, x, m1.trans q4, m2.trans q5, by omega, by simp only [nroots, if_pos q1]; exact q2⟩
    · obtain ⟨j, hj⟩ := List.getElem?_of_mem hc
      obtain ⟨q, x, q1, q2, q3, q4, q5⟩ := d1.hit r j i hr hj
      refine ⟨h + q, x, q4, q5, by omega, ?_⟩
      simp only [nroots]
      rw [if_neg (by omega), Nat.add_sub_cancel_left]
      exact q2
  have hlens : ∀ r, r < 2 * h → (st1 r).ranks.length = (M r).length ∧ (st1 r).idxs.length = (M r).length := by
    intro r hr
    rw [(d1.len r hr).1, (d1.len r hr).2, (d0.len r hr).1, (d0.len r hr).2]
    exact ⟨by simp [st, Mem.alloc], by simp [st, Mem.alloc]⟩
  obtain ⟨dests, f1, f2⟩ := choose_world (n := 2 * h) (fun r => (st1 r).dests)
    (fun r (u : Remotes) => u.ranks.length = (M r).length ∧ u.idxs.length = (M r).length ∧
      ∀ (i p x : Nat), (st1 r).ranks[i]? = some (some (p : Int)) → (st1 r).idxs[i]? = some (some (x : Int)) →
        u.ranks[i]? = some p ∧ u.idxs[i]? = some x) (by
    intro r hr
    have read : ∀ m : Mem Int, m.length = (M r).length → (∀ i, i < (M r).length → ∃ p : Nat, m[i]? = some (some (p : Int))) →
        ∃ l : List Nat, (m.toArray?).bind toIndices? = some l ∧ l.length = (M r).length ∧
          ∀ (i p : Nat), m[i]? = some (some (p : Int)) → l[i]? = some p := by
      intro m hml hmi
      obtain ⟨out, o1, o2, o3⟩ := Mem.toArray?_spec m (fun i => (m[i]?).join) (by
        intro i hi
        obtain ⟨p, hp⟩ := hmi i (by omega)
        rw [hp]; exact ⟨rfl, rfl⟩)
      obtain ⟨l, l1, l2⟩ := toIndices?_of_nonneg out (by
        intro x hx
        obtain ⟨i, hi⟩ := List.getElem?_of_mem hx
        have hil := (List.getElem?_eq_some_iff.1 hi).1
        obtain ⟨p, hp⟩ := hmi i (by omega)
        rw [o3 i (by omega), hp] at hi
        obtain rfl := Option.some.inj hi
        omega)
      refine ⟨l, by rw [o1]; exact l1, ?_, ?_⟩
      · have := congrArg List.length l2
        rw [List.length_map] at this
        omega
      · intro i p hp
        have hil := (List.getElem?_eq_some_iff.1 hp).1
        have := o3 i hil
        rw [hp, l2, List.getElem?_map] at this
        cases hl : l[i]? with
        | none => rw [hl] at this; cases this
        | some y =>
          rw [hl] at this
          have := Option.some.inj this
          exact congrArg some (Int.ofNat.inj this)
    obtain ⟨lr, a1, a2, a3⟩ := read (st1 r).ranks (hlens r hr).1 (fun i hi => by
      obtain ⟨p, x, h1, _⟩ := hitem r i hr hi
      exact ⟨p, h1⟩)
    obtain ⟨li, b1, b2, b3⟩ := read (st1 r).idxs (hlens r hr).2 (fun i hi => by
      obtain ⟨p, x, _, h1, _⟩ := hitem r i hr hi
      exact ⟨x, h1⟩)
    refine ⟨⟨lr, li⟩, ?_, a2, b2, fun i p x hp hx => ⟨a3 i p hp, b3 i x hx⟩⟩
    unfold BipartState.dests
    cases ha : (st1 r).ranks.toArray? with
    | none => rw [ha] at a1; cases a1
    | some ra =>
      cases hb : (st1 r).idxs.toArray? with
      | none => rw [hb] at b1; cases b1
      | some rb =>
        rw [ha] at a1
        rw [hb] at b1
        have a1 : toIndices? ra = some lr := a1
        have b1 : toIndices? rb = some li := b1
        rw [Option.bind_some, a1, Option.bind_some, Option.bind_some, b1]; rfl)
  have hdest : ∀ (r i p x : Nat), r < 2 * h → (st1 r).ranks[i]? = some (some (p : Int)) → (st1 r).idxs[i]? = some (some (x : Int)) →
      destOf dests r i = some (p, x) := by
    intro r i p x hr h1 h2
    exact destOf_eq.2 ((f2 r hr).2.2 i p x h1 h2)
  have hitem' : ∀ (r i p x : Nat), r < 2 * h → (dests r).ranks[i]? = some p → (dests r).idxs[i]? = some x → p < 2 * h ∧ x < nroots p := by
    intro r i p x hr h1 h2
    have hi := (List.getElem?_eq_some_iff.1 h1).1
    rw [(f2 r hr).1] at hi
    obtain ⟨p', x', g1, g2, g3, g4⟩ := hitem r i hr hi
    obtain ⟨k1, k2⟩ := (f2 r hr).2.2 i p' x' g1 g2
    obtain rfl := Option.some.inj (h1.symm.trans k1)
    obtain rfl := Option.some.inj (h2.symm.trans k2)
    exact ⟨g3, g4⟩
  have hok : DestsOk (2 * h) dests nroots := by
    refine ⟨hh', ?_, ?_, ?_⟩
    · intro r hr p hp
      obtain ⟨i, hi⟩ := List.getElem?_of_mem hp
      have hil := (List.getElem?_eq_some_iff.1 hi).1
      have hx := List.getElem?_eq_getElem (show i < (dests r).idxs.length by rw [(f2 r hr).2.1, ← (f2 r hr).1]; exact hil)
      exact (hitem' r i p _ hr hi hx).1
    · intro r hr
      rw [(f2 r hr).1, (f2 r hr).2.1]
    · intro r hr i p x h1 h2
      exact (hitem' r i p x hr h1 h2).2
  have hsum0 : ∀ k, k ≤ h → ((List.range k).map nroots).sum = ((List.range k).map size0).sum := by
    intro k hk
    congr 1
    apply List.map_congr_left
    intro q hq
    have := List.mem_range.1 hq
    simp only [nroots]
    rw [if_pos (by omega)]
  have hn1 : (fun q => nroots (h + q)) = size1 := by
    funext q
    simp only [nroots]
    rw [if_neg (by omega), Nat.add_sub_cancel_left]
  have D0 : Dealt (2 * h) h 0 nroots L0 dests := by
    refine ⟨?_, by rw [hsum0 h (Nat.le_refl _)]; exact d0.total⟩
    intro r j i hr hj
    obtain ⟨q, x, q1, q2, q3, q4, q5⟩ := d0.hit r j i hr hj
    obtain ⟨m1, m2⟩ := d1.miss r i hr (hdisj r i hr (List.mem_of_getElem? hj))
    refine ⟨q, x, q1, by simp only [nroots, if_pos q1]; exact q2, ?_, hdest r i _ x hr (m1.trans q4) (m2.trans q5)⟩
    rw [q3]
    unfold globalOf
    rw [hsum0 q (by omega)]
  have D1 : Dealt (2 * h) h h (fun q => nroots (h + q)) L1 dests := by
    rw [hn1]
    refine ⟨?_, d1.total⟩
    intro r j i hr hj
    obtain ⟨q, x, q1, q2, q3, q4, q5⟩ := d1.hit r j i hr hj
    exact ⟨q, x, q1, q2, q3, hdest r i _ x hr q4 q5⟩
  obtain ⟨D, order, fan, c1, c2⟩ := newDist_spec (fun r k => s r (k + 12)) hok.size hok.rank hok.len hok.idx
  have C := c2.copyDist hok
  -- items for a rank come from the marks that choose its half
  have hside : ∀ r i p x, r < 2 * h → destOf dests r i = some (p, x) → (p < h → i ∈ L0 r) ∧ (h ≤ p → i ∈ L1 r) := by
    intro r i p x hr hd
    have hi := (List.getElem?_eq_some_iff.1 (destOf_eq.1 hd).1).1
    rw [(f2 r hr).1] at hi
    rcases hcov r i hr hi with hc | hc
    · refine ⟨fun _ => hc, fun hp => ?_⟩
      obtain ⟨j, hj⟩ := List.getElem?_of_mem hc
      obtain ⟨q, x', q1, _, _, q4⟩ := D0.hit r j i hr hj
      rw [hd, Option.some.injEq, Prod.mk.injEq] at q4
      omega
    · refine ⟨fun hp => ?_, fun _ => hc⟩
      obtain ⟨j, hj⟩ := List.getElem?_of_mem hc
      obtain ⟨q, x', q1, _, _, q4⟩ := D1.hit r j i hr hj
      rw [hd, Option.some.injEq, Prod.mk.injEq] at q4
      omega
  have hdir := direct_order C (by
      intro p x hp hx
      rcases Nat.lt_or_ge p h with hc | hc
      · obtain ⟨r, _, i, hr, _, hd, _⟩ := D0.onto hc hx
        rw [Nat.zero_add] at hd
        exact ⟨r, i, hr, hd⟩
      · obtain ⟨q, rfl⟩ : ∃ q, p = h + q := ⟨p - h, by omega⟩
        obtain ⟨r, _, i, hr, _, hd, _⟩ := D1.onto (q := q) (by omega) hx
        exact ⟨r, i, hr, hd⟩)
    (by
      intro r i r' i' p x hr hr' h1 h2
      rcases Nat.lt_or_ge p h with hc | hc
      · exact D0.inj hr hr' ((hside r i p x hr h1).1 hc) ((hside r' i' p x hr' h2).1 hc) h1 h2
      · exact D1.inj hr hr' ((hside r i p x hr h1).2 hc) ((hside r' i' p x hr' h2).2 hc) h1 h2)
  refine ⟨dests, nroots, D, order, fan, L0, L1, ?_, C, fun r hr => (f2 r hr).1, hdir, D0, D1, ?_, fun r hr => ⟨hL0 r hr, hL1 r hr⟩⟩
  · unfold biPartition
    rw [world_length, if_pos (by omega), show 2 * h / 2 = h by omega]
    dsimp only
    rw [show (world (2 * h) M).map (fun m => (⟨m, Mem.alloc m.length, Mem.alloc m.length, -1⟩ : BipartState)) = world (2 * h) st from
      world_map _ _ _]
    rw [e0, Option.bind_some, e1, Option.bind_some]
    have g1 : (world (2 * h) st1).mapM BipartState.dests = some (world (2 * h) dests) := by
      rw [← f1]
      unfold world
      rw [List.mapM_map]
      rfl
    have g2 : (world (2 * h) st1).mapM (fun st : BipartState => st.linsize.toNat?) = some (world (2 * h) nroots) := by
      apply mapM_world
      intro r hr
      rw [d1.sizes r hr, d0.sizes r hr]
      simp only [nroots]
      rcases Nat.lt_or_ge r h with hc | hc
      · rw [if_neg (by omega), if_pos (by omega), if_pos hc]; rfl
      · rw [if_pos (by omega), if_neg (by omega)]; rfl
    rw [g1, Option.bind_some, g2, Option.bind_some, c1]; rfl
  · intro q q' hq hq'
    refine ⟨?_, ?_⟩
    · simp only [nroots]
      rw [if_pos hq, if_pos hq']
      exact d0.even q q' hq hq'
    · have := d1.even q q' hq hq'
      rw [← hn1] at this
      exact this

theorem as_world {α : Type} (l : List α) (d : α) : l = world l.length (fun r => (l[r]?).getD d) := by
  apply List.ext_getElem?
  intro r
  rcases Nat.lt_or_ge r l.length with hr | hr
  · rw [world_get _ hr, List.getElem?_eq_getElem hr]; rfl
  · rw [List.getElem?_eq_none hr, List.getElem?_eq_none (by rw [world_length]; exact hr)]

theorem world_flatten {α : Type} (n : Nat) (f : Nat → List α) : (world n f).flatten = (List.range n).flatMap f := by
  unfold world
  exact List.flatMap_def.symm

theorem world_take {α : Type} (n k : Nat) (hk : k ≤ n) (f : Nat → α) : (world n f).take k = world k f := by
  unfold world
  rw [← List.map_take, List.take_range, Nat.min_eq_left hk]

theorem world_drop {α : Type} (n k : Nat) (f : Nat → α) : (world n f).drop k = world (n - k) (fun q => f (k + q)) := by
  apply List.ext_getElem?
  intro r
  rw [List.getElem?_drop]
  rcases Nat.lt_or_ge r (n - k) with hr | hr
  · rw [world_get _ hr, world_get _ (by omega)]
  · rw [List.getElem?_eq_none (by rw [world_length]; omega), List.getElem?_eq_none (by rw [world_length]; omega)]

theorem world_mem {α : Type} {n : Nat} {f : Nat → α} {x : α} : x ∈ world n f ↔ ∃ r, r < n ∧ f r = x := by
  unfold world
  simp [List.mem_map, List.mem_range]

/-- `bi_partition` on an even number of ranks: whatever rows the marks belong to, exchanging them by the pattern deals the unmarked rows
evenly and in order to the first half of the ranks, and the marked rows to the second half. -/
theorem C24_bi_partition (s : Nat → Nat → Sched) (marks : List (List Int)) (hn : 0 < marks.length) (heven : marks.length % 2 = 0)
    (hn' : marks.length ≤ 2147483648) (hm : ∀ ms ∈ marks, ∀ m ∈ ms, m = 0 ∨ m = 1) (hsz : marks.flatten.length < 2 ^ 31 - 1) :
    ∃ D, biPartition s marks = .ok D ∧ ∀ {α : Type} (s' : Nat → Nat → Sched) (data : List (List α)), MarksFor data marks →
      ∃ moved, Dist.exch s' D 1 data = some moved ∧ Halved marks data moved := by
  obtain ⟨h, hh⟩ : ∃ h, marks.length = 2 * h := ⟨marks.length / 2, by omega⟩
  let M : Nat → List Int := fun r => (marks[r]?).getD []
  have hM : marks = world (2 * h) M := by
    have := as_world marks []
    rw [hh] at this
    exact this
  have hMr : ∀ r, r < 2 * h → marks[r]? = some (M r) := by
    intro r hr
    conv_lhs => rw [hM]
    exact world_get _ hr
  obtain ⟨dests, nroots, D, order, fan, L0, L1, e1, C, hlen, hdir, D0, D1, hev, hL⟩ := biPartition_spec s (h := h) (by omega) (by omega) (M := M)
    (fun r hr m hmm => hm _ (List.mem_of_getElem? (hMr r hr)) m hmm) (by
      have : marks.flatten.length = blockOff M (2 * h) := by
        conv_lhs => rw [hM]
        rw [world_flatten, blocks_length]
      rw [← this]; exact hsz)
  refine ⟨world (2 * h) D, by rw [hM]; exact e1, ?_⟩
  intro α s' data hd
  have hdl : data.length = 2 * h := by rw [← hd.1, hh]
  let A : Nat → List α := fun r => (data[r]?).getD []
  have hA : data = world (2 * h) A := by
    have := as_world data []
    rw [hdl] at this
    exact this
  have hAr : ∀ r, r < 2 * h → data[r]? = some (A r) := by
    intro r hr
    conv_lhs => rw [hA]
    exact world_get _ hr
  have hAl : ∀ r, r < 2 * h → (M r).length = (A r).length := fun r hr => (hd.2 r _ _ (hAr r hr) (hMr r hr)).1
  obtain ⟨out, o1, o2⟩ := exch_spec s' C.ok (w := 1) (by omega) A (fun r hr => by rw [Nat.mul_one, ← hAl r hr, hlen r hr])
  obtain ⟨o2, o3⟩ := o2
  have hol : ∀ p, p < 2 * h → (out p).length = nroots p := by
    intro p hp
    rw [o2 p hp, Nat.mul_one]
    exact (hdir p hp).1
  have hget : ∀ p x r i : Nat, p < 2 * h → r < 2 * h → destOf dests r i = some (p, x) → (out p)[x]? = (A r)[i]? := by
    intro p x r i hp hr hdst
    obtain ⟨k, hk⟩ := List.getElem?_of_mem ((C.mem p hp r i).2 ⟨hr, (destOf_eq.1 hdst).1⟩)
    have := (hdir p hp).2 k r i hk
    rw [hdst, Option.some.injEq, Prod.mk.injEq] at this
    obtain rfl := this.2
    have := o3 r i i p x hr (by unfold RootOf; rw [C.froots r hr]) ((C.route r i p x hr hp).2 hk) 0 (by omega)
    rw [entry_one, entry_one] at this
    exact this
  have hsel : ∀ (m : Int) (L : Nat → List Nat), (∀ r, r < 2 * h → (L r).Pairwise (· < ·) ∧ ∀ i, i ∈ L r ↔ (M r)[i]? = some m) →
      (List.range (2 * h)).flatMap (fun r => (L r).filterMap (fun i => (A r)[i]?)) = allWithMark m marks data := by
    intro m L hLm
    unfold allWithMark
    have : (data.zip marks).map (fun x => withMark m x.2 x.1) = world (2 * h) (fun r => withMark m (M r) (A r)) := by
      rw [hA, hM, world_zip, world_map]
    rw [this, world_flatten]
    rw [List.flatMap_def, List.flatMap_def]
    congr 1
    apply List.map_congr_left
    intro r hr
    have hr := List.mem_range.1 hr
    exact (withMark_eq m (M r) (A r) (hAl r hr) (L r) (hLm r hr).1 (hLm r hr).2).symm
  have hbound : ∀ (m : Int) (L : Nat → List Nat), (∀ r, r < 2 * h → (L r).Pairwise (· < ·) ∧ ∀ i, i ∈ L r ↔ (M r)[i]? = some m) →
      ∀ r, r < 2 * h → ∀ i ∈ L r, i < (A r).length := by
    intro m L hLm r hr i hi
    rw [← hAl r hr]
    exact (List.getElem?_eq_some_iff.1 (((hLm r hr).2 i).1 hi)).1
  have f0 := D0.flat (data := A) (out := out) (fun q hq => by rw [Nat.zero_add]; exact hol q (by omega))
    (fun q x r i hq hr hdst => by rw [Nat.zero_add] at hdst ⊢; exact hget q x r i (by omega) hr hdst) (hbound 0 L0 (fun r hr => (hL r hr).1))
  have f1 := D1.flat (data := A) (out := out) (fun q hq => hol (h + q) (by omega))
    (fun q x r i hq hr hdst => hget (h + q) x r i (by omega) hr hdst) (hbound 1 L1 (fun r hr => (hL r hr).2))
  refine ⟨world (2 * h) out, by rw [hA]; exact o1, ⟨by rw [world_length, hdl], ?_, ?_, ?_, ?_⟩⟩
  · rw [hdl, show 2 * h / 2 = h by omega, world_take _ _ (by omega), world_flatten, ← hsel 0 L0 (fun r hr => (hL r hr).1), ← f0]
    simp only [Nat.zero_add]
  · rw [hdl, show 2 * h / 2 = h by omega, world_drop, show 2 * h - h = h by omega, world_flatten, ← hsel 1 L1 (fun r hr => (hL r hr).2), ← f1]
  · rw [hdl, show 2 * h / 2 = h by omega, world_take _ _ (by omega)]
    intro a ha b hb
    obtain ⟨q, hq, rfl⟩ := world_mem.1 ha
    obtain ⟨q', hq', rfl⟩ := world_mem.1 hb
    rw [hol q (by omega), hol q' (by omega)]
    exact (hev q q' hq hq').1
  · rw [hdl, show 2 * h / 2 = h by omega, world_drop, show 2 * h - h = h by omega]
    intro a ha b hb
    obtain ⟨q, hq, rfl⟩ := world_mem.1 ha
    obtain ⟨q', hq', rfl⟩ := world_mem.1 hb
    rw [hol _ (by omega), hol _ (by omega)]
    exact (hev q q' hq hq').2

/-- An odd number of ranks is reported. -/
theorem C24_odd (s : Nat → Nat → Sched) (marks : List (List Int)) (h : marks.length % 2 = 1) : biPartition s marks = .fail := by
  unfold biPartition
  rw [if_neg (by omega)]

theorem withMark_perm {α : Type} (marks : List Int) (rows : List α) (hl : marks.length = rows.length) (hm : ∀ m ∈ marks, m = 0 ∨ m = 1) :
    (withMark 0 marks rows ++ withMark 1 marks rows).Perm rows := by
  induction rows generalizing marks with
  | nil => simp [withMark]
  | cons a rows ih =>
    cases marks with
    | nil => simp at hl
    | cons m marks =>
      have := ih marks (by simpa using hl) (fun x hx => hm x (List.mem_cons_of_mem _ hx))
      rcases hm m List.mem_cons_self with rfl | rfl
      · have e0 : withMark 0 (0 :: marks) (a :: rows) = a :: withMark 0 marks rows := by simp [withMark]
        have e1 : withMark 1 (0 :: marks) (a :: rows) = withMark 1 marks rows := by simp [withMark]
        rw [e0, e1]
        exact this.cons a
      · have e0 : withMark 0 (1 :: marks) (a :: rows) = withMark 0 marks rows := by simp [withMark]
        have e1 : withMark 1 (1 :: marks) (a :: rows) = a :: withMark 1 marks rows := by simp [withMark]
        rw [e0, e1]
        exact List.perm_middle.trans (this.cons a)

theorem withMark_sublist {α : Type} (m : Int) (marks : List Int) (rows : List α) : (withMark m marks rows).Sublist rows := by
  unfold withMark
  refine (List.filter_sublist.map _).trans ?_
  induction rows generalizing marks with
  | nil => simp
  | cons a rows ih =>
    cases marks with
    | nil => simp
    | cons b marks => exact (ih marks).cons_cons a

theorem allWithMark_cons {α : Type} (m : Int) (ms : List Int) (marks : List (List Int)) (rows : List α) (data : List (List α)) :
    allWithMark m (ms :: marks) (rows :: data) = withMark m ms rows ++ allWithMark m marks data := by
  simp [allWithMark]

theorem allWithMark_perm {α : Type} {data : List (List α)} {marks : List (List Int)} (h : MarksFor data marks) :
    (allWithMark 0 marks data ++ allWithMark 1 marks data).Perm data.flatten := by
  induction data generalizing marks with
  | nil => simp [allWithMark]
  | cons rows data ih =>
    cases marks with
    | nil => have := h.1; simp at this
    | cons ms marks =>
      have h0 := h.2 0 rows ms rfl rfl
      have := ih (marks := marks) ⟨by simpa using h.1, fun r a b h1 h2 => h.2 (r + 1) a b (by simpa using h1) (by simpa using h2)⟩
      rw [allWithMark_cons, allWithMark_cons, List.flatten_cons]
      have p1 := withMark_perm ms rows h0.1 h0.2
      refine List.Perm.trans ?_ (p1.append this)
      simp only [List.append_assoc]
      refine List.Perm.append_left _ ?_
      rw [← List.append_assoc, ← List.append_assoc]
      exact List.Perm.append_right _ List.perm_append_comm

theorem allWithMark_sublist {α : Type} (m : Int) (marks : List (List Int)) (data : List (List α)) : (allWithMark m marks data).Sublist data.flatten := by
  induction data generalizing marks with
  | nil => simp [allWithMark]
  | cons rows data ih =>
    cases marks with
    | nil => simp [allWithMark]
    | cons ms marks =>
      rw [allWithMark_cons, List.flatten_cons]
      exact (withMark_sublist m ms rows).append (ih marks)

/-- Bisection loses and duplicates nothing. -/
theorem C24_preserves {α : Type} {data out : List (List α)} (h : Bisected data out) : out.length = data.length ∧ out.flatten.Perm data.flatten := by
  induction h with
  | alone rows => exact ⟨rfl, List.Perm.refl _⟩
  | halve marks hm hh hl hu ihl ihu =>
    rename_i data moved lower upper
    refine ⟨?_, ?_⟩
    · rw [List.length_append, ihl.1, ihu.1, ← List.length_append, List.take_append_drop, hh.size]
    · rw [List.flatten_append]
      refine (ihl.2.append ihu.2).trans ?_
      rw [hh.lower, hh.upper]
      exact allWithMark_perm hm

/-- Every rank keeps the rows it gets in the order that they had. -/
theorem C24_order {α : Type} {data out : List (List α)} (h : Bisected data out) : ∀ rows ∈ out, rows.Sublist data.flatten := by
  induction h with
  | alone rows => intro x hx; rw [List.mem_singleton.1 hx]; simp
  | halve marks hm hh hl hu ihl ihu =>
    intro x hx
    rcases List.mem_append.1 hx with hx | hx
    · refine (ihl x hx).trans ?_
      rw [hh.lower]
      exact allWithMark_sublist _ _ _
    · refine (ihu x hx).trans ?_
      rw [hh.upper]
      exact allWithMark_sublist _ _ _

theorem _root_.OmegaH.Spec.MarksFor.flatten_length {α : Type} {data : List (List α)} {marks : List (List Int)} (h : MarksFor data marks) :
    marks.flatten.length = data.flatten.length := by
  induction data generalizing marks with
  | nil => have := h.1; simp at this; simp [this]
  | cons rows data ih =>
    cases marks with
    | nil => have := h.1; simp at this
    | cons ms marks =>
      have h0 := h.2 0 rows ms rfl rfl
      have := ih (marks := marks) ⟨by simpa using h.1, fun r a b h1 h2 => h.2 (r + 1) a b (by simpa using h1) (by simpa using h2)⟩
      rw [List.flatten_cons, List.flatten_cons, List.length_append, List.length_append, this, h0.1]

/-- `recursively_bisect` on a number of ranks that is a power of two, whatever the marks. -/
theorem C24_bisect {α : Type} (s : List Bool → Nat → Nat → Sched) (mark : List Bool → List (List α) → List (List Int))
    (hmark : ∀ path data, MarksFor data (mark path data)) :
    ∀ (k : Nat), 2 ^ k ≤ 2147483648 → ∀ (path : List Bool) (data : List (List α)), data.length = 2 ^ k → data.flatten.length < 2 ^ 31 - 1 →
      ∃ out, recursivelyBisect s mark path (2 ^ k) data = .ok out ∧ Bisected data out := by
  intro k
  induction k with
  | zero =>
    intro _ path data hl _
    refine ⟨data, ?_, ?_⟩
    · unfold recursivelyBisect
      rw [if_pos (by simp)]
    · match data, hl with
      | [rows], _ => exact .alone rows
  | succ k ih =>
    intro hk path data hl hsz
    have hpow : 2 ^ (k + 1) = 2 * 2 ^ k := by rw [Nat.pow_succ, Nat.mul_comm]
    have hpos : 0 < 2 ^ k := Nat.pow_pos (by omega)
    have hm := hmark path data
    have hml : (mark path data).length = 2 * 2 ^ k := by rw [hm.1, hl, hpow]
    obtain ⟨D, d1, d2⟩ := C24_bi_partition (s path) (mark path data) (by omega) (by omega) (by omega)
      (by
        intro ms hms m hmm
        obtain ⟨r, hr⟩ := List.getElem?_of_mem hms
        have hrl := (List.getElem?_eq_some_iff.1 hr).1
        have hd := List.getElem?_eq_getElem (show r < data.length by rw [← hm.1]; exact hrl)
        exact (hm.2 r _ ms hd hr).2 m hmm)
      (by rw [hm.flatten_length]; exact hsz)
    obtain ⟨moved, m1, m2⟩ := d2 (fun r k => s path r (k + 30)) data hm
    have hhalf : data.length / 2 = 2 ^ k := by rw [hl, hpow]; omega
    have l0 := m2.lower
    have l1 := m2.upper
    rw [hhalf] at l0 l1
    obtain ⟨lo, lo1, lo2⟩ := ih (by omega) (path ++ [false]) (moved.take (2 ^ k)) (by rw [List.length_take, m2.size, hl]; omega)
      (Nat.lt_of_le_of_lt (by rw [l0]; exact (allWithMark_sublist _ _ _).length_le) hsz)
    obtain ⟨hi, hi1, hi2⟩ := ih (by omega) (path ++ [true]) (moved.drop (2 ^ k)) (by rw [List.length_drop, m2.size, hl]; omega)
      (Nat.lt_of_le_of_lt (by rw [l1]; exact (allWithMark_sublist _ _ _).length_le) hsz)
    refine ⟨lo ++ hi, ?_, .halve _ hm m2 (by rw [hhalf]; exact lo2) (by rw [hhalf]; exact hi2)⟩
    unfold recursivelyBisect
    rw [if_neg (by omega), d1, Res.bind_ok, m1]
    show Res.bind (Res.ok moved) _ = _
    rw [Res.bind_ok, show 2 ^ (k + 1) / 2 = 2 ^ k by omega, lo1, Res.bind_ok, hi1, Res.bind_ok]

/-- On any other number of ranks the bisection stops with a report. -/
theorem C24_not_power_of_two {α : Type} (s : List Bool → Nat → Nat → Sched) (mark : List Bool → List (List α) → List (List Int))
    (hmark : ∀ path data, MarksFor data (mark path data)) :
    ∀ (n : Nat), 0 < n → n ≤ 2147483648 → (∀ k, n ≠ 2 ^ k) → ∀ (path : List Bool) (data : List (List α)), data.length = n →
      data.flatten.length < 2 ^ 31 - 1 → recursivelyBisect s mark path n data = .fail := by
  intro n
  induction n using Nat.strongRecOn with
  | _ n ih =>
    intro hn hn' hp path data hl hsz
    have h1 : 1 < n := by
      have := hp 0
      omega
    have hm := hmark path data
    unfold recursivelyBisect
    rw [if_neg (by omega)]
    rcases Nat.mod_two_eq_zero_or_one n with h0 | h0
    · obtain ⟨D, d1, d2⟩ := C24_bi_partition (s path) (mark path data) (by rw [hm.1]; omega) (by rw [hm.1, hl]; exact h0) (by rw [hm.1]; omega)
        (by
          intro ms hms m hmm
          obtain ⟨r, hr⟩ := List.getElem?_of_mem hms
          have hrl := (List.getElem?_eq_some_iff.1 hr).1
          have hd := List.getElem?_eq_getElem (show r < data.length by rw [← hm.1]; exact hrl)
          exact (hm.2 r _ ms hd hr).2 m hmm)
        (by rw [hm.flatten_length]; exact hsz)
      obtain ⟨moved, m1, m2⟩ := d2 (fun r k => s path r (k + 30)) data hm
      have l0 := m2.lower
      rw [hl] at l0
      rw [d1, Res.bind_ok, m1]
      show Res.bind (Res.ok moved) _ = _
      rw [Res.bind_ok, ih (n / 2) (by omega) (by omega) (by omega) (by
          intro k hk
          apply hp (k + 1)
          rw [Nat.pow_succ]
          omega) (path ++ [false]) (moved.take (n / 2)) (by rw [List.length_take, m2.size, hl]; omega)
          (Nat.lt_of_le_of_lt (by rw [l0]; exact (allWithMark_sublist _ _ _).length_le) hsz)]
      rfl
    · rw [C24_odd _ _ (by rw [hm.1, hl]; exact h0)]
      rfl

/-! ## Examples -/

/-- Odd rows are marked. -/
def oddMarks (data : List (List Nat)) : List (List Int) := data.map (fun rows => rows.map (fun x => ((x % 2 : Nat) : Int)))

theorem oddMarks_for (data : List (List Nat)) : MarksFor data (oddMarks data) := by
  refine ⟨by simp [oddMarks], ?_⟩
  intro r rows ms h1 h2
  unfold oddMarks at h2
  rw [List.getElem?_map, h1] at h2
  obtain rfl := Option.some.inj h2
  refine ⟨by simp, ?_⟩
  intro m hm
  obtain ⟨x, _, rfl⟩ := List.mem_map.1 hm
  omega

example : biPartition (fun _ _ => Sched.reversed) (oddMarks [[5, 2, 3], [4, 7]]) ≠ .ub ∧
    (match biPartition (fun _ _ => Sched.reversed) (oddMarks [[5, 2, 3], [4, 7], [], [8, 8, 1]]) with
      | .ok D => Dist.exch (fun _ _ => Sched.serial) D 1 [[5, 2, 3], [4, 7], [], [8, 8, 1]]
      | _ => none) = some [[2, 4], [8, 8], [5, 3], [7, 1]] := by decide +kernel

example : ∃ out, recursivelyBisect (fun _ _ _ => Sched.serial) (fun path data => oddMarks (data.map (fun rows => rows.map (· / 2 ^ path.length))) )
    [] (2 ^ 2) [[5, 2, 3], [4, 7], [], [8, 8, 1]] = .ok out ∧ Bisected [[5, 2, 3], [4, 7], [], [8, 8, 1]] out :=
  C24_bisect _ _ (fun path data => by
    have := oddMarks_for (data.map (fun rows => rows.map (· / 2 ^ path.length)))
    refine ⟨by rw [this.1]; simp, ?_⟩
    intro r rows ms h1 h2
    have := this.2 r (rows.map (· / 2 ^ path.length)) ms (by rw [List.getElem?_map, h1]; rfl) h2
    exact ⟨by rw [this.1]; simp, this.2⟩) 2 (by decide) [] _ rfl (by decide)

example : recursivelyBisect (fun _ _ _ => Sched.serial) (fun _ data => oddMarks data) [] 6 [[1], [2], [3], [4], [5], [6]] = .fail :=
  C24_not_power_of_two _ _ (fun _ data => oddMarks_for data) 6 (by decide) (by decide) (by
    intro k hk
    have : k < 3 ∨ 3 ≤ k := by omega
    rcases this with h | h
    · have : k = 0 ∨ k = 1 ∨ k = 2 := by omega
      rcases this with rfl | rfl | rfl <;> simp at hk
    · have := Nat.pow_le_pow_right (show 0 < 2 by omega) h
      omega) [] _ rfl (by decide)

end OmegaH
