import Verif.Spec.Ledger

/-! # C44: the allocation ledger -/

namespace OmegaH

/-- The `(address, size)` pairs of the live objects. -/
def Ledger.live (L : Ledger) : List (Nat × Nat) := L.nodes.map (fun e => (e.1, e.2.size))

theorem Ledger.modify_spec {L L' : Ledger} {a : Nat} {f : LNode → LNode}
    (hf : ∀ n, (f n).size = n.size) (h : L.modify a f = .ok L') :
    L'.live = L.live ∧ L'.total = L.total ∧ L'.high = L.high := by
  obtain ⟨n, hn, h⟩ := Res.bind_eq_ok.1 h
  simp only [Res.ok.injEq] at h
  subst h
  refine ⟨?_, rfl, rfl⟩
  simp only [Ledger.live, List.map_map]
  apply List.map_congr_left
  rintro ⟨x, n⟩ _
  simp only [Function.comp]
  split <;> simp [hf]

theorem Ledger.deref_live {L : Ledger} {a : Nat} {n : LNode} (h : L.deref a = .ok n) :
    (L.live.find? (fun e => e.1 == a)) = some (a, n.size) := by
  unfold Ledger.deref at h
  unfold Ledger.live
  rw [List.find?_map]
  have : ((fun e : Nat × Nat => e.1 == a) ∘ fun e : Nat × LNode => (e.1, e.2.size)) =
      fun e : Nat × LNode => e.1 == a := rfl
  rw [this]
  cases hf : List.find? (fun e : Nat × LNode => e.1 == a) L.nodes with
  | none => rw [hf] at h; simp [Res.ofOption] at h
  | some e =>
    rw [hf] at h
    simp only [Option.map_some, Res.ofOption, Res.ok.injEq] at h
    have := List.find?_some hf
    simp only [beq_iff_eq] at this
    simp [h, this]

theorem Ledger.alloc_spec {L L' : Ledger} {a size : Nat} (h : L.alloc a size = .ok L') :
    L'.live = (a, size) :: L.live ∧ L'.total = L.total + size ∧
      L'.high = max L.high (L.total + size) := by
  unfold Ledger.alloc at h
  simp only at h
  obtain ⟨L1, h1, h⟩ := Res.bind_eq_ok.1 h
  have e1 : L1.live = (a, size) :: L.live ∧ L1.total = L.total ∧ L1.high = L.high := by
    split at h1
    · exact Ledger.modify_spec (by simp) h1
    · simp only [Res.ok.injEq] at h1
      subst h1
      exact ⟨rfl, rfl, rfl⟩
  obtain ⟨e1, e2, e3⟩ := e1
  split at h
  · obtain ⟨r, _, h⟩ := Res.bind_eq_ok.1 h
    simp only [Res.ok.injEq] at h
    subst h
    refine ⟨e1, by rw [← e2], ?_⟩
    simp only at *
    omega
  · simp only [Res.ok.injEq] at h
    subst h
    refine ⟨e1, by rw [← e2], ?_⟩
    simp only at *
    omega

theorem Ledger.free_spec {L L' : Ledger} {a : Nat} (h : L.free a = .ok L') :
    L'.live = L.live.filter (fun e => e.1 != a) ∧
      (∃ size, L.live.find? (fun e => e.1 == a) = some (a, size) ∧ L'.total = L.total - size) ∧
      L'.high = L.high := by
  unfold Ledger.free at h
  obtain ⟨n, hn, h⟩ := Res.bind_eq_ok.1 h
  obtain ⟨L1, h1, h⟩ := Res.bind_eq_ok.1 h
  obtain ⟨n1, hn1, h⟩ := Res.bind_eq_ok.1 h
  obtain ⟨L2, h2, h⟩ := Res.bind_eq_ok.1 h
  have e1 : L1.live = L.live ∧ L1.total = L.total ∧ L1.high = L.high := by
    split at h1
    · simp only [Res.ok.injEq] at h1
      subst h1
      exact ⟨rfl, rfl, rfl⟩
    · exact Ledger.modify_spec (by simp) h1
  have e2 : L2.live = L1.live ∧ L2.total = L1.total ∧ L2.high = L1.high := by
    split at h2
    · simp only [Res.ok.injEq] at h2
      subst h2
      exact ⟨rfl, rfl, rfl⟩
    · exact Ledger.modify_spec (by simp) h2
  simp only [Res.ok.injEq] at h
  subst h
  refine ⟨?_, ⟨n1.size, ?_, ?_⟩, ?_⟩
  · rw [← e1.1, ← e2.1]
    simp only [Ledger.live, List.filter_map]
    rfl
  · rw [← e1.1]; exact Ledger.deref_live hn1
  · simp only; rw [e2.2.1, e1.2.1]
  · simp only; rw [e2.2.2, e1.2.2]

theorem le_sum_of_mem' {l : List Nat} {x : Nat} (h : x ∈ l) : x ≤ l.sum := by
  induction l with
  | nil => simp at h
  | cons y t ih =>
    rw [List.sum_cons]
    rcases List.mem_cons.1 h with rfl | h
    · omega
    · have := ih h; omega

theorem bytes_filter {live : List (Nat × Nat)} {a size : Nat} (hnd : (live.map Prod.fst).Nodup)
    (h : live.find? (fun e => e.1 == a) = some (a, size)) :
    Spec.bytes (live.filter (fun e => e.1 != a)) = Spec.bytes live - size := by
  induction live with
  | nil => simp at h
  | cons e t ih =>
    obtain ⟨x, s⟩ := e
    simp only [List.map_cons, List.nodup_cons] at hnd
    by_cases hx : x = a
    · subst hx
      simp only [List.find?_cons, beq_self_eq_true, Option.some.injEq, Prod.mk.injEq, true_and] at h
      subst h
      have : t.filter (fun e => e.1 != x) = t := by
        apply List.filter_eq_self.2
        rintro ⟨y, s'⟩ hy
        simp only [bne_iff_ne, ne_eq]
        rintro rfl
        exact hnd.1 (List.mem_map.2 ⟨_, hy, rfl⟩)
      simp [this, Spec.bytes]
    · have hb : ((x, s).1 == a) = false := by simp [hx]
      rw [List.find?_cons, hb] at h
      have hle : size ≤ Spec.bytes t := by
        have hm := List.mem_of_find?_eq_some h
        have := List.mem_map_of_mem (f := Prod.snd) hm
        unfold Spec.bytes
        exact le_sum_of_mem' this
      have := ih hnd.2 h
      simp only [Spec.bytes, List.filter_cons, bne_iff_ne, ne_eq, hx, not_false_eq_true,
        if_true, List.map_cons, List.sum_cons] at *
      omega

/-- **C44 (partial).** As long as the ledger is not corrupted, after any proper history of
allocations and frees its byte total is the number of bytes in use, its high-water mark is the
largest number of bytes ever in use, and the objects it counts are the live ones.
Missing: the *listing* of the live allocations, which is refuted below, as is the absence of
corruption. -/
theorem C44_totals_partial (ops : List LedgerOp) (L : Ledger) (hh : Spec.properHistory ops [])
    (hr : Ledger.init.run ops = .ok L) :
    L.total = Spec.bytes (Spec.liveAllocs ops []) ∧ L.high = Spec.peak ops [] 0 ∧
      L.live = Spec.liveAllocs ops [] := by
  have key : ∀ (ops : List LedgerOp) (L0 : Ledger), Spec.properHistory ops L0.live →
      (L0.live.map Prod.fst).Nodup → L0.total = Spec.bytes L0.live →
      L0.run ops = .ok L → L.total = Spec.bytes (Spec.liveAllocs ops L0.live) ∧
        L.high = Spec.peak ops L0.live L0.high ∧ L.live = Spec.liveAllocs ops L0.live := by
    intro ops
    induction ops with
    | nil =>
      intro L0 _ _ ht h
      simp only [Ledger.run, Res.ok.injEq] at h
      subst h
      exact ⟨ht, rfl, rfl⟩
    | cons op ops ih =>
      intro L0 hp hnd ht h
      rw [Ledger.run] at h
      obtain ⟨L1, h1, h'⟩ := Res.bind_eq_ok.1 h
      clear h
      cases op with
      | alloc a size =>
        obtain ⟨e1, e2, e3⟩ := Ledger.alloc_spec h1
        obtain ⟨_, hp1, hp2⟩ := hp
        have ht' : L1.total = Spec.bytes L1.live := by
          rw [e2, e1, ht]; simp [Spec.bytes, Nat.add_comm]
        have := ih L1 (by rw [e1]; exact hp2) (by
          rw [e1, List.map_cons, List.nodup_cons]; exact ⟨hp1, hnd⟩) ht' h'
        rw [e1, e3, ← e2, ht', e1] at this
        exact this
      | free a =>
        obtain ⟨e1, ⟨size, hf, e2⟩, e3⟩ := Ledger.free_spec h1
        obtain ⟨_, hp2⟩ := hp
        have := ih L1 (by rw [e1]; exact hp2) (by
          rw [e1]
          exact hnd.sublist (List.Sublist.map _ List.filter_sublist)) (by
          rw [e1, e2, ht, bytes_filter hnd hf]) h'
        rw [e1, e3] at this
        exact this
  exact key ops Ledger.init hh (by simp [Ledger.live, Ledger.init]) rfl hr

/-- A history with interleaved frees that meets the hypotheses. -/
example : Spec.properHistory
      [.alloc 1 10, .alloc 2 20, .free 2, .alloc 3 5, .free 3, .free 1, .alloc 2 7] [] ∧
    ∃ L, Ledger.init.run
      [.alloc 1 10, .alloc 2 20, .free 2, .alloc 3 5, .free 3, .free 1, .alloc 2 7] = .ok L ∧
      L.total = 7 ∧ L.high = 30 := by
  refine ⟨by decide, ⟨[(2, ⟨7, 0, 0⟩)], 2, 2, 7, 30, [(1, 10), (2, 20)]⟩, by decide +kernel, rfl, rfl⟩

/-- **C44 refuted (listing).** After three allocations the ledger lists only the first and the
third, and the high-water records handed to the user do the same. -/
theorem C44_listing_refuted :
    ∃ (ops : List LedgerOp) (L : Ledger), Spec.properHistory ops [] ∧
      Ledger.init.run ops = .ok L ∧ Spec.liveAllocs ops [] = [(3, 5), (2, 20), (1, 10)] ∧
      L.listing = .ok [(1, 10), (3, 5)] ∧ L.records = [(1, 10), (3, 5)] :=
  ⟨[.alloc 1 10, .alloc 2 20, .alloc 3 5],
    ⟨[(3, ⟨5, 1, 0⟩), (2, ⟨20, 1, 0⟩), (1, ⟨10, 0, 3⟩)], 1, 1, 35, 35, [(1, 10), (3, 5)]⟩,
    by decide, by decide +kernel, by decide, by decide +kernel, rfl⟩

/-- **C44 refuted (corruption).** Two allocations, a free of the older one and a third allocation:
the ledger writes through a pointer to the freed object. -/
theorem C44_use_after_free_refuted :
    ∃ ops : List LedgerOp, Spec.properHistory ops [] ∧ Ledger.init.run ops = .ub :=
  ⟨[.alloc 1 10, .alloc 2 20, .free 1, .alloc 3 5], by decide, by decide +kernel⟩

/-- The state the ledger is in after allocating `first`, then (newest first) `x` and `rest`. -/
structure AllocOnly (L : Ledger) (a s x sx : Nat) : Prop where
  first : L.first = a
  last : L.last = a
  head : L.nodes.find? (fun e => e.1 == a) = some (a, ⟨s, 0, x⟩)
  tail : L.nodes.find? (fun e => e.1 == x) = some (x, ⟨sx, a, 0⟩)
  ne : a ≠ 0 ∧ x ≠ 0 ∧ 2 ≤ L.nodes.length

theorem AllocOnly.listing {L : Ledger} {a s x sx : Nat} (h : AllocOnly L a s x sx) :
    L.listing = .ok [(a, s), (x, sx)] := by
  obtain ⟨n, hn⟩ : ∃ n, L.nodes.length + 1 = n + 3 := ⟨L.nodes.length - 2, by have := h.ne.2.2; omega⟩
  obtain ⟨b, rfl⟩ := Nat.exists_eq_succ_of_ne_zero h.ne.1
  obtain ⟨y, rfl⟩ := Nat.exists_eq_succ_of_ne_zero h.ne.2.1
  unfold Ledger.listing
  rw [hn, h.first]
  simp [Ledger.walk, Ledger.deref, h.head, h.tail, Res.ofOption]

theorem find_map_update (l : List (Nat × LNode)) (a b : Nat) (f : LNode → LNode) :
    (l.map (fun e => if e.1 = a then (e.1, f e.2) else e)).find? (fun e => e.1 == b) =
      (l.find? (fun e => e.1 == b)).map (fun e => if e.1 = a then (e.1, f e.2) else e) := by
  rw [List.find?_map]
  congr 2
  funext e
  simp only [Function.comp]
  split <;> rfl

/-- Another allocation at a fresh address moves the tail. -/
theorem AllocOnly.alloc {L : Ledger} {a s b sb : Nat} (hf : L.first = a) (hl : L.last = a)
    {x : Nat} (hh : L.nodes.find? (fun e => e.1 == a) = some (a, ⟨s, 0, x⟩)) (ha : a ≠ 0)
    (hb : b ≠ 0) (hba : b ≠ a) :
    ∃ L', L.alloc b sb = .ok L' ∧ AllocOnly L' a s b sb ∧
      (L.total + sb > L.high → L'.records = [(a, s), (b, sb)]) := by
  obtain ⟨nodes, f0, last, total, high, records⟩ := L
  simp only at hf hl hh
  subst hf hl
  have hlen : 0 < nodes.length := List.length_pos_of_mem (List.mem_of_find?_eq_some hh)
  have hd : (⟨(b, ⟨sb, last, 0⟩) :: nodes, last, last, total, high, records⟩ : Ledger).deref last =
      .ok ⟨s, 0, x⟩ := by
    unfold Ledger.deref
    rw [List.find?_cons, show ((b, (⟨sb, last, 0⟩ : LNode)).1 == last) = false by simp [hba]]
    simp [hh, Res.ofOption]
  unfold Ledger.alloc
  simp only [ne_eq, ha, not_false_eq_true, if_true]
  unfold Ledger.modify
  rw [hd]
  simp only [Res.bind_ok]
  rw [List.map_cons, if_neg hba]
  have hL1 : ∀ hi rec, AllocOnly ⟨(b, ⟨sb, last, 0⟩) :: nodes.map
      (fun e => if e.1 = last then (e.1, { e.2 with next := b }) else e), last, last,
      total + sb, hi, rec⟩ last s b sb := by
    intro hi rec
    refine ⟨rfl, rfl, ?_, ?_, ha, hb, by simp only [List.length_map, List.length_cons]; omega⟩
    · simp only
      rw [List.find?_cons, show ((b, (⟨sb, last, 0⟩ : LNode)).1 == last) = false by simp [hba]]
      simp only
      rw [find_map_update nodes last last (fun n => { n with next := b }), hh]
      simp
    · simp
  by_cases hg : total + sb > high
  · rw [if_pos hg, (hL1 _ _).listing]
    exact ⟨_, rfl, hL1 _ _, fun _ => rfl⟩
  · rw [if_neg hg]
    exact ⟨_, rfl, hL1 _ _, fun h => absurd h hg⟩

/-- **C44 (what the listing shows instead).** After any sequence of two or more allocations without
frees the ledger lists exactly two of them: the first and the last. -/
theorem C44_listing_is_first_and_last (a s b sb : Nat) (mid : List (Nat × Nat)) (L : Ledger)
    (hp : Spec.properHistory
      (.alloc a s :: (mid.map (fun e => LedgerOp.alloc e.1 e.2) ++ [.alloc b sb])) [])
    (hr : Ledger.init.run
      (.alloc a s :: (mid.map (fun e => LedgerOp.alloc e.1 e.2) ++ [.alloc b sb])) = .ok L) :
    L.listing = .ok [(a, s), (b, sb)] := by
  have key : ∀ (mid : List (Nat × Nat)) (L0 : Ledger) (live : List (Nat × Nat)) (x : Nat),
      a ∈ live.map Prod.fst → L0.first = a → L0.last = a → a ≠ 0 →
      L0.nodes.find? (fun e => e.1 == a) = some (a, ⟨s, 0, x⟩) →
      Spec.properHistory (mid.map (fun e => LedgerOp.alloc e.1 e.2) ++ [.alloc b sb]) live →
      L0.run (mid.map (fun e => LedgerOp.alloc e.1 e.2) ++ [.alloc b sb]) = .ok L →
      L.listing = .ok [(a, s), (b, sb)] := by
    intro mid
    induction mid with
    | nil =>
      intro L0 live x ham hf hl ha hh hq hr
      simp only [List.map_nil, List.nil_append, Spec.properHistory] at hq
      obtain ⟨L', e, hL', _⟩ := AllocOnly.alloc (sb := sb) hf hl hh ha hq.1
        (fun e => hq.2.1 (e ▸ ham))
      simp only [List.map_nil, List.nil_append, Ledger.run, Ledger.step, e, Res.bind_ok,
        Res.ok.injEq] at hr
      subst hr
      exact hL'.listing
    | cons m mid ih =>
      intro L0 live x ham hf hl ha hh hq hr
      simp only [List.map_cons, List.cons_append, Spec.properHistory] at hq
      obtain ⟨L', e, hL', _⟩ := AllocOnly.alloc (sb := m.2) hf hl hh ha hq.1
        (fun e => hq.2.1 (e ▸ ham))
      simp only [List.map_cons, List.cons_append, Ledger.run, Ledger.step, e, Res.bind_ok] at hr
      exact ih L' _ m.1 (by simp [ham]) hL'.first hL'.last ha hL'.head hq.2.2 hr
  have hpa := hp.1
  have h0 : ∃ L0, Ledger.init.alloc a s = .ok L0 ∧ L0.first = a ∧ L0.last = a ∧
      L0.nodes.find? (fun e => e.1 == a) = some (a, ⟨s, 0, 0⟩) := by
    obtain ⟨c, rfl⟩ := Nat.exists_eq_succ_of_ne_zero hpa
    unfold Ledger.alloc
    by_cases hs : s > 0
    · simp [Ledger.init, Ledger.listing, Ledger.walk, Ledger.deref, Res.ofOption, hs]
    · simp [Ledger.init, hs]
  obtain ⟨L0, e0, e1, e2, e3⟩ := h0
  rw [Ledger.run, Ledger.step, e0, Res.bind_ok] at hr
  exact key mid L0 _ 0 (by simp) e1 e2 hpa e3 hp.2.2 hr

/-- Five allocations. -/
example : Spec.properHistory (.alloc 1 8 :: ([(2, 8), (3, 16), (4, 8)].map
    (fun e => LedgerOp.alloc e.1 e.2) ++ [.alloc 5 4])) [] := by decide

end OmegaH
