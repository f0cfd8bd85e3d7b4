import Verif.Lemmas.DistRanks
import Verif.Props.C04
import Verif.Props.C45
/-!
# C20: communication patterns deliver every item to its destination
-/
namespace OmegaH
open Spec

theorem entry_one {α : Type} (l : List α) (i : Nat) : entry l 1 i 0 = l[i]? := by
  unfold entry; rw [Nat.mul_one, Nat.add_zero]

theorem entries_ext {α : Type} {a b : List α} {m w : Nat} (ha : a.length = m * w) (hb : b.length = m * w)
    (h : ∀ i, i < m → ∀ j, j < w → entry a w i j = entry b w i j) : a = b := by
  apply List.ext_getElem?
  intro q
  rcases Nat.lt_or_ge q (m * w) with hq | hq
  · have hw : 0 < w := by
      rcases Nat.eq_zero_or_pos w with h0 | h0
      · rw [h0] at hq; omega
      · exact h0
    have := h (q / w) (Nat.div_lt_of_lt_mul (by rw [Nat.mul_comm]; exact hq)) (q % w) (Nat.mod_lt _ hw)
    unfold entry at this
    rw [Nat.mul_comm (q / w), Nat.div_add_mod] at this
    exact this
  · rw [List.getElem?_eq_none (by omega), List.getElem?_eq_none (by omega)]

/-- A pattern built from ranks only: `exch` hands every rank the data of exactly the items addressed to it, by
source rank and then by item; whatever the schedules, the width and the data. -/
theorem C20_exch_ranks (s : Nat → Nat → Sched) (n : Nat) (dest : Nat → List Nat) (hn : n ≤ 2147483648)
    (hd : ∀ r, r < n → ∀ p ∈ dest r, p < n) :
    ∃ D, setDestRanks s (world n dest) = some (world n D) ∧
      ∀ {α : Type} (s' : Nat → Nat → Sched) (w : Nat) (data : Nat → List α), 0 < w →
        (∀ r, r < n → (data r).length = (dest r).length * w) →
        ∃ out, Dist.exch s' (world n D) w (world n data) = some (world n out) ∧
          ∀ p, p < n → Delivers data w (arrivals n dest p) (out p) := by
  obtain ⟨D, d1, d2⟩ := setDestRanks_spec s hn hd
  refine ⟨D, d1, ?_⟩
  intro α s' w data hw hl
  obtain ⟨out, o1, o2, o3⟩ := exch_spec s' d2.ok hw data hl
  refine ⟨out, o1, ?_⟩
  intro p hp
  refine ⟨o2 p hp, ?_⟩
  intro k r i hk j hj
  have hr : r < n := (arrivals_mem (List.mem_of_getElem? hk)).1
  exact o3 r i i p k hr (by unfold RootOf; rw [d2.froots r hr]) ((d2.route r i p k hr).2 hk) j hj

/-- Sending back along a pattern built from ranks only: the inverse pattern returns to every item what its
destination has at its place, so that `exch` followed by the inverse `exch` is the identity. -/
theorem C20_inverse_ranks (s : Nat → Nat → Sched) (n : Nat) (dest : Nat → List Nat) (hn : n ≤ 2147483648)
    (hd : ∀ r, r < n → ∀ p ∈ dest r, p < n) :
    ∃ D, setDestRanks s (world n dest) = some (world n D) ∧
      (∀ {α : Type} (s' : Nat → Nat → Sched) (w : Nat) (data : Nat → List α), 0 < w →
        (∀ p, p < n → (data p).length = (arrivals n dest p).length * w) →
        ∃ out, Dist.exch s' ((world n D).map Dist.invert) w (world n data) = some (world n out) ∧
          ∀ r, r < n → (out r).length = (dest r).length * w ∧
            ∀ i p k : Nat, (arrivals n dest p)[k]? = some (r, i) → ∀ j, j < w → entry (out r) w i j = entry (data p) w k j) ∧
      ∀ {α : Type} (s' s2 : Nat → Nat → Sched) (w : Nat) (data : Nat → List α), 0 < w →
        (∀ r, r < n → (data r).length = (dest r).length * w) →
        (Dist.exch s' (world n D) w (world n data)).bind (Dist.exch s2 ((world n D).map Dist.invert) w) =
          some (world n data) := by
  obtain ⟨D, d1, d2⟩ := setDestRanks_spec s hn hd
  have hinv : ∀ {α : Type} (s' : Nat → Nat → Sched) (w : Nat) (data : Nat → List α), 0 < w →
        (∀ p, p < n → (data p).length = (arrivals n dest p).length * w) →
        ∃ out, Dist.exch s' ((world n D).map Dist.invert) w (world n data) = some (world n out) ∧
          ∀ r, r < n → (out r).length = (dest r).length * w ∧
            ∀ i p k : Nat, (arrivals n dest p)[k]? = some (r, i) → ∀ j, j < w → entry (out r) w i j = entry (data p) w k j := by
    intro α s' w data hw hl
    obtain ⟨out, o1, o2, o3⟩ := exch_spec s' d2.ok.invert hw data hl
    refine ⟨out, by rw [world_map]; exact o1, ?_⟩
    intro r hr
    refine ⟨o2 r hr, ?_⟩
    intro i p k hk j hj
    have hroute := (d2.route r i p k hr).2 hk
    have hp := (route_lt d2.ok hr hroute).2.1
    exact o3 p k k r i hp (by unfold RootOf; show match (D p).rev.roots2items with | some fan => _ | none => _; rw [d2.rroots p hp])
      (route_invert d2.ok hr hroute) j hj
  refine ⟨D, d1, hinv, ?_⟩
  intro α s' s2 w data hw hl
  obtain ⟨mid, m1, m2, m3⟩ := exch_spec s' d2.ok hw data hl
  rw [m1, Option.bind_some]
  obtain ⟨out, o1, o2⟩ := hinv s2 w mid hw m2
  rw [o1]
  congr 1
  apply world_congr
  intro r hr
  apply entries_ext (o2 r hr).1 (hl r hr)
  intro i hi j hj
  obtain ⟨p, k, hp, hk, hroute⟩ := route_total d2.ok hr hi
  rw [(o2 r hr).2 i p k ((d2.route r i p k hr).1 hroute) j hj]
  exact m3 r i i p k hr (by unfold RootOf; rw [d2.froots r hr]) hroute j hj

theorem arrivals_sorted (n : Nat) (dest : Nat → List Nat) (p : Nat) :
    (arrivals n dest p).Pairwise (fun a b => a.1 < b.1 ∨ (a.1 = b.1 ∧ a.2 < b.2)) := by
  unfold arrivals
  rw [List.pairwise_flatMap]
  constructor
  · intro r _
    rw [List.pairwise_map]
    exact (List.pairwise_lt_range.filter _).imp (fun h => Or.inr ⟨rfl, h⟩)
  · refine List.pairwise_lt_range.imp ?_
    intro a b hab x hx y hy
    obtain ⟨_, _, rfl⟩ := List.mem_map.1 hx
    obtain ⟨_, _, rfl⟩ := List.mem_map.1 hy
    exact Or.inl hab

/-- The arrivals in another order. -/
def reorder (A : Nat → List (Nat × Nat)) (perm : Nat → List Nat) (p : Nat) : List (Nat × Nat) :=
  (perm p).map (fun c => (A p).getD c (0, 0))

/-- A pattern built from ranks, with the incoming items permuted. -/
theorem reorder_spec {n : Nat} {dest : Nat → List Nat} {D0 D : Nat → Dist} (h : RanksOnly n dest D0) {perm : Nat → List Nat}
    (hperm : ∀ p, p < n → IsPermutation (perm p) (arrivals n dest p).length)
    (hD : ∀ r, r < n → (D r).fwd = (D0 r).fwd ∧ (D r).rev.msgs2content = (D0 r).rev.msgs2content ∧
      (D r).rev.peers = (D0 r).rev.peers ∧ (D r).rev.items2content = some (perm r)) :
    (∀ p k c : Nat, p < n → (perm p)[k]? = some c → (reorder (arrivals n dest) perm p)[k]? = (arrivals n dest p)[c]?) ∧
    (∀ p, p < n → (reorder (arrivals n dest) perm p).Perm (arrivals n dest p)) ∧
    Wired n D (fun r => (dest r).length) (fun p => (reorder (arrivals n dest) perm p).length) ∧
    ∀ r i p k : Nat, r < n → p < n → (Route D r i p k ↔ (reorder (arrivals n dest) perm p)[k]? = some (r, i)) := by
  let A := arrivals n dest
  let order := reorder A perm
  have hoget : ∀ p k c : Nat, p < n → (perm p)[k]? = some c → (order p)[k]? = (A p)[c]? := by
    intro p k c hp hk
    show ((perm p).map _)[k]? = _
    rw [List.getElem?_map, hk]
    have hc := (hperm p hp).2.1 c (List.mem_of_getElem? hk)
    show some ((A p).getD c (0, 0)) = _
    rw [List.getElem?_eq_getElem hc, List.getD_eq_getElem?_getD, List.getElem?_eq_getElem hc]
    rfl
  have hoperm : ∀ p, p < n → (order p).Perm (A p) := by
    intro p hp
    have h1 : (order p).Perm ((List.range (A p).length).map (fun c => (A p).getD c (0, 0))) := (isPermutation_perm (hperm p hp)).map _
    refine h1.trans (List.Perm.of_eq ?_)
    apply List.ext_getElem (by simp)
    intro i hi1 hi2
    simp [hi2]
  have hlen : ∀ p, p < n → (order p).length = (A p).length := fun p hp => (hoperm p hp).length_eq
  refine ⟨hoget, hoperm, ?_, ?_⟩
  · have hw := h.ok.wired
    refine ⟨?_, ?_, ?_, ?_⟩
    · intro r hr
      rw [(hD r hr).1]
      exact hw.fwd r hr
    · intro r hr
      obtain ⟨_, e1, e2, _⟩ := hD r hr
      have h := hw.rev r hr
      exact ⟨by rw [e1]; exact h.fan, by rw [e1, e2]; exact h.len, by rw [e1, hlen r hr]; exact h.last, by rw [e2]; exact h.nodup,
        by rw [e2]; exact h.rank⟩
    · intro r p hr hp
      rw [(hD r hr).1, (hD p hp).2.2.1]
      exact hw.mate r p hr hp
    · intro r p i j lo hi lo' hi' hr hp
      rw [(hD r hr).1, (hD p hp).2.2.1, (hD p hp).2.1]
      exact hw.size r p i j lo hi lo' hi' hr hp
  · intro r i p k hr hp
    have hl : ∀ c c', Linked D r c p c' ↔ Linked D0 r c p c' := by
      intro c c'
      unfold Linked
      rw [(hD r hr).1, (hD p hp).2.2.1, (hD p hp).2.1]
    constructor
    · rintro ⟨c, c', h1, h2, h3⟩
      have h3' : (perm p)[k]? = some c' := by
        unfold ItemAt at h3
        rw [(hD p hp).2.2.2] at h3
        exact h3
      rw [show reorder (arrivals n dest) perm p = order p from rfl, hoget p k c' hp h3']
      refine (h.route r i p c' hr).1 ⟨c, c', ?_, (hl c c').1 h2, ?_⟩
      · rw [(hD r hr).1] at h1
        exact h1
      · unfold ItemAt
        rw [h.rperm p hp]
    · intro ho
      have hk : k < (perm p).length := by
        have := (List.getElem?_eq_some_iff.1 ho).1
        simpa [reorder] using this
      have hk' := List.getElem?_eq_getElem hk
      rw [show reorder (arrivals n dest) perm p = order p from rfl, hoget p k _ hp hk'] at ho
      obtain ⟨c, c', h1, h2, h3⟩ := (h.route r i p _ hr).2 ho
      have e : c' = (perm p)[k] := by
        unfold ItemAt at h3
        rw [h.rperm p hp] at h3
        exact h3
      refine ⟨c, c', ?_, (hl c c').2 h2, ?_⟩
      · rw [(hD r hr).1]
        exact h1
      · unfold ItemAt
        rw [(hD p hp).2.2.2, e]
        exact hk'

/-- What the constructor from destinations builds. `order p` is the order in which the items arrive on rank `p`. -/
structure NewDist (n : Nat) (dests : Nat → Remotes) (nroots : Nat → Nat) (D : Nat → Dist)
    (order : Nat → List (Nat × Nat)) (fan : Nat → List Nat) : Prop where
  ok : DistOk n D (fun r => (dests r).ranks.length) (fun p => (order p).length) (fun r => (dests r).ranks.length) nroots
  froots : ∀ r, r < n → (D r).fwd.roots2items = none
  rroots : ∀ r, r < n → (D r).rev.roots2items = some (fan r)
  rperm : ∀ r, r < n → ∃ q, (D r).rev.items2content = some q
  sort : ∀ r, r < n → ∃ pos, (D r).fwd.items2content = some pos ∧
    RankSort (dests r).ranks pos (D r).fwd.msgs2content (D r).fwd.peers
  route : ∀ r i p k : Nat, r < n → p < n → (Route D r i p k ↔ (order p)[k]? = some (r, i))
  perm : ∀ p, p < n → (order p).Perm (arrivals n (fun r => (dests r).ranks) p)
  fanOk : ∀ p, p < n → IsFan (fan p) ∧ (fan p).length = nroots p + 1 ∧ (fan p).getLast? = some (order p).length
  group : ∀ p, p < n → ∀ k r i x : Nat, (order p)[k]? = some (r, i) → (InFan (fan p) x k ↔ (dests r).idxs[i]? = some x)

theorem newDist_spec (s : Nat → Nat → Sched) {n : Nat} {dests : Nat → Remotes} {nroots : Nat → Nat} (hn : n ≤ 2147483648)
    (hd : ∀ r, r < n → ∀ p ∈ (dests r).ranks, p < n) (hl : ∀ r, r < n → (dests r).idxs.length = (dests r).ranks.length)
    (hx : ∀ r, r < n → ∀ i p x : Nat, (dests r).ranks[i]? = some p → (dests r).idxs[i]? = some x → x < nroots p) :
    ∃ D order fan, newDist s (world n dests) (world n nroots) = some (world n D) ∧ NewDist n dests nroots D order fan := by
  obtain ⟨D0, d1, d2⟩ := setDestRanks_spec s hn hd
  let A : Nat → List (Nat × Nat) := arrivals n (fun r => (dests r).ranks)
  obtain ⟨out, o1, o2, o3⟩ := exch_spec (fun r k => s r (k + 2)) d2.ok (w := 1) (by omega) (fun r => (dests r).idxs)
    (fun r hr => by rw [hl r hr, Nat.mul_one])
  have hout : ∀ p, p < n → (out p).length = (A p).length ∧ ∀ k r i : Nat, (A p)[k]? = some (r, i) → (out p)[k]? = (dests r).idxs[i]? := by
    intro p hp
    refine ⟨by rw [o2 p hp, Nat.mul_one], ?_⟩
    intro k r i hk
    have hr : r < n := (arrivals_mem (List.mem_of_getElem? hk)).1
    have := o3 r i i p k hr (by unfold RootOf; rw [d2.froots r hr]) ((d2.route r i p k hr).2 hk) 0 (by omega)
    rw [entry_one, entry_one] at this
    exact this
  have hin : ∀ p, p < n → InRange (out p) (nroots p) := by
    intro p hp x hxm
    obtain ⟨k, hk⟩ := List.getElem?_of_mem hxm
    have hkl := (List.getElem?_eq_some_iff.1 hk).1
    rw [(hout p hp).1] at hkl
    have hak := List.getElem?_eq_getElem hkl
    obtain ⟨hr, hi⟩ := arrivals_mem (List.mem_of_getElem? hak)
    have := (hout p hp).2 k _ _ hak
    exact hx _ hr _ p x hi (this.symm.trans hk)
  obtain ⟨G, g1, g2⟩ := choose_world (n := n)
    (fun r => ((world n D0)[r]?).bind (fun d => ((world n out)[r]?).bind (fun m => ((world n nroots)[r]?).bind (fun nn =>
      (invertMapByAtomics (s r 6) (s r 7) (s r 8) m nn).map (fun g =>
        (⟨d.fwd, ⟨some g.a2ab, some g.ab2b, d.rev.msgs2content, d.rev.peers⟩⟩ : Dist))))))
    (fun r d => ∃ fan perm, d = ⟨(D0 r).fwd, ⟨some fan, some perm, (D0 r).rev.msgs2content, (D0 r).rev.peers⟩⟩ ∧
      IsInverse (out r) (nroots r) fan perm) (by
    intro r hr
    obtain ⟨g, e1, e2⟩ := C04_invert_by_atomics (s r 6) (s r 7) (s r 8) (out r) (nroots r) (hin r hr)
    refine ⟨⟨(D0 r).fwd, ⟨some g.a2ab, some g.ab2b, (D0 r).rev.msgs2content, (D0 r).rev.peers⟩⟩, ?_, g.a2ab, g.ab2b, rfl, e2⟩
    rw [world_get _ hr, Option.bind_some, world_get _ hr, Option.bind_some, world_get _ hr, Option.bind_some, e1]
    rfl)
  have : ∀ r, ∃ fan : List Nat, ∃ perm : List Nat, r < n →
      G r = ⟨(D0 r).fwd, ⟨some fan, some perm, (D0 r).rev.msgs2content, (D0 r).rev.peers⟩⟩ ∧ IsInverse (out r) (nroots r) fan perm := by
    intro r
    by_cases hr : r < n
    · obtain ⟨fan, perm, h⟩ := g2 r hr
      exact ⟨fan, perm, fun _ => h⟩
    · exact ⟨[], [], fun h => absurd h hr⟩
  choose fan perm hG using this
  have hperm : ∀ p, p < n → IsPermutation (perm p) (A p).length := by
    intro p hp
    have := (hG p hp).2.2.2.2.1
    rw [(hout p hp).1] at this
    exact this
  obtain ⟨hoget, hoperm, hwired, hroute⟩ := reorder_spec d2 (D := G) (perm := perm) hperm
    (fun r hr => by rw [(hG r hr).1]; exact ⟨rfl, rfl, rfl, rfl⟩)
  let order := reorder A perm
  have hfan : ∀ p, p < n → IsFan (fan p) ∧ (fan p).length = nroots p + 1 ∧ (fan p).getLast? = some (order p).length := by
    intro p hp
    obtain ⟨q1, q2, q3, _⟩ := (hG p hp).2
    refine ⟨q2, q1, ?_⟩
    rw [List.getLast?_eq_getElem?, q1, Nat.add_sub_cancel, q3, (hout p hp).1, (hoperm p hp).length_eq]
  refine ⟨G, order, fan, ?_, ⟨hwired, ?_, ?_⟩, ?_, ?_, ?_, ?_, hroute, hoperm, hfan, ?_⟩
  · unfold newDist
    rw [world_map, world_map, d1, Option.bind_some]
    unfold setDestIdxs
    rw [o1, Option.bind_some, world_length]
    exact g1
  · intro r hr
    rw [(hG r hr).1]
    exact d2.ok.fwd r hr
  · intro p hp
    rw [(hG p hp).1]
    refine ⟨?_, ?_, ?_⟩
    · intro q hq
      have : perm p = q := Option.some.inj hq
      rw [← this, (hoperm p hp).length_eq]
      exact hperm p hp
    · intro f hf
      have : fan p = f := Option.some.inj hf
      rw [← this]
      exact hfan p hp
    · intro h
      cases h
  · intro r hr
    rw [(hG r hr).1]
    exact d2.froots r hr
  · intro r hr
    rw [(hG r hr).1]
  · intro r hr
    rw [(hG r hr).1]
    exact ⟨_, rfl⟩
  · intro r hr
    rw [(hG r hr).1]
    exact d2.sort r hr
  · intro p hp k r i x hk
    have hkl : k < (perm p).length := by
      have := (List.getElem?_eq_some_iff.1 hk).1
      simpa [order, reorder] using this
    have hk' := List.getElem?_eq_getElem hkl
    rw [hoget p k _ hp hk'] at hk
    rw [(hG p hp).2.2.2.2.2 k _ x hk', (hout p hp).2 _ r i hk]

/-- The arguments of the constructor on `n` ranks: every item has a destination rank and an index below the number of
roots there. -/
structure DestsOk (n : Nat) (dests : Nat → Remotes) (nroots : Nat → Nat) : Prop where
  size : n ≤ 2147483648
  rank : ∀ r, r < n → ∀ p ∈ (dests r).ranks, p < n
  len : ∀ r, r < n → (dests r).idxs.length = (dests r).ranks.length
  idx : ∀ r, r < n → ∀ i p x : Nat, (dests r).ranks[i]? = some p → (dests r).idxs[i]? = some x → x < nroots p

/-- The constructor from destinations succeeds. -/
theorem C20_new (s : Nat → Nat → Sched) {n : Nat} {dests : Nat → Remotes} {nroots : Nat → Nat} (h : DestsOk n dests nroots) :
    ∃ D, newDist s (world n dests) (world n nroots) = some D := by
  obtain ⟨D, _, _, h1, _⟩ := newDist_spec s h.size h.rank h.len h.idx
  exact ⟨_, h1⟩

theorem newDist_of {s : Nat → Nat → Sched} {n : Nat} {dests : Nat → Remotes} {nroots : Nat → Nat} (h : DestsOk n dests nroots)
    {D : List Dist} (hD : newDist s (world n dests) (world n nroots) = some D) :
    ∃ D' order fan, D = world n D' ∧ NewDist n dests nroots D' order fan := by
  obtain ⟨D', order, fan, h1, h2⟩ := newDist_spec s h.size h.rank h.len h.idx
  exact ⟨D', order, fan, Option.some.inj (hD.symm.trans h1), h2⟩

/-- `exch` on a pattern built from destinations: in every rank arrive exactly the data of the items addressed to it,
in an order `order` that groups them by destination index (the groups are those of the offsets `fan` that
the pattern keeps), whatever the schedules, the width and the data. -/
theorem C20_exch {s : Nat → Nat → Sched} {n : Nat} {dests : Nat → Remotes} {nroots : Nat → Nat} (h : DestsOk n dests nroots)
    {D : List Dist} (hD : newDist s (world n dests) (world n nroots) = some D) :
    ∃ (order : Nat → List (Nat × Nat)) (fan : Nat → List Nat),
      (∀ p, p < n → (order p).Perm (arrivals n (fun r => (dests r).ranks) p) ∧
        (D[p]?).bind (fun d => d.rev.roots2items) = some (fan p) ∧
        IsFan (fan p) ∧ (fan p).length = nroots p + 1 ∧
        ∀ k r i x : Nat, (order p)[k]? = some (r, i) → (InFan (fan p) x k ↔ (dests r).idxs[i]? = some x)) ∧
      ∀ {α : Type} (s' : Nat → Nat → Sched) (w : Nat) (data : Nat → List α), 0 < w →
        (∀ r, r < n → (data r).length = (dests r).ranks.length * w) →
        ∃ out, Dist.exch s' D w (world n data) = some (world n out) ∧
          ∀ p, p < n → Delivers data w (order p) (out p) := by
  obtain ⟨D', order, fan, rfl, hN⟩ := newDist_of h hD
  refine ⟨order, fan, ?_, ?_⟩
  · intro p hp
    refine ⟨hN.perm p hp, ?_, (hN.fanOk p hp).1, (hN.fanOk p hp).2.1, hN.group p hp⟩
    rw [world_get _ hp, Option.bind_some]
    exact hN.rroots p hp
  · intro α s' w data hw hl
    obtain ⟨out, o1, o2, o3⟩ := exch_spec s' hN.ok hw data hl
    refine ⟨out, o1, ?_⟩
    intro p hp
    refine ⟨o2 p hp, ?_⟩
    intro k r i hk j hj
    have hr : r < n := (arrivals_mem ((hN.perm p hp).mem_iff.1 (List.mem_of_getElem? hk))).1
    exact o3 r i i p k hr (by unfold RootOf; rw [hN.froots r hr]) ((hN.route r i p k hr hp).2 hk) j hj

/-- The inverse pattern brings to every item the data of the root it is addressed to. -/
theorem C20_inverse {s : Nat → Nat → Sched} {n : Nat} {dests : Nat → Remotes} {nroots : Nat → Nat} (h : DestsOk n dests nroots)
    {D : List Dist} (hD : newDist s (world n dests) (world n nroots) = some D)
    {α : Type} (s' : Nat → Nat → Sched) (w : Nat) (data : Nat → List α) (hw : 0 < w)
    (hl : ∀ p, p < n → (data p).length = nroots p * w) :
    ∃ out, Dist.exch s' (D.map Dist.invert) w (world n data) = some (world n out) ∧
      ∀ r, r < n → (out r).length = (dests r).ranks.length * w ∧
        ∀ i p x : Nat, (dests r).ranks[i]? = some p → (dests r).idxs[i]? = some x →
          ∀ j, j < w → entry (out r) w i j = entry (data p) w x j := by
  obtain ⟨D', order, fan, rfl, hN⟩ := newDist_of h hD
  obtain ⟨out, o1, o2, o3⟩ := exch_spec s' hN.ok.invert hw data hl
  refine ⟨out, by rw [world_map]; exact o1, ?_⟩
  intro r hr
  refine ⟨o2 r hr, ?_⟩
  intro i p x hp hx j hj
  have hpn := h.rank r hr p (List.mem_of_getElem? hp)
  have hmem : (r, i) ∈ order p := by
    rw [(hN.perm p hpn).mem_iff]
    obtain ⟨j, hj⟩ := List.getElem?_of_mem ((mem_sendersTo (dest := fun r => (dests r).ranks) (n := n) (r := r) (p := p)).2
      ⟨hr, List.mem_of_getElem? hp⟩)
    exact List.mem_of_getElem? (arrivals_get hj hp)
  obtain ⟨k, hk⟩ := List.getElem?_of_mem hmem
  have hroute := (hN.route r i p k hr hpn).2 hk
  refine o3 p x k r i hpn ?_ (route_invert hN.ok hr hroute) j hj
  have : RootOf (D' p).rev x k := by
    unfold RootOf
    rw [hN.rroots p hpn]
    exact (hN.group p hpn k r i x hk).2 hx
  exact this

theorem rowsOf_eq {α : Type} {data : Nat → List α} {w j : Nat} {order : List (Nat × Nat)} {out : List α} (hd : Delivers data w order out)
    (hj : j < w) {lo hi : Nat} (hhi : hi ≤ order.length) :
    fanValues out w lo hi j = rowsOf data w j ((order.drop lo).take (hi - lo)) := by
  unfold fanValues rowsOf
  have : (order.drop lo).take (hi - lo) = (List.range' lo (hi - lo)).filterMap (fun k => order[k]?) := by
    apply List.ext_getElem?
    intro t
    rcases Nat.lt_or_ge t (hi - lo) with ht | ht
    · rw [List.getElem?_take_of_lt ht, List.getElem?_drop]
      have hall : (List.range' lo (hi - lo)).filterMap (fun k => order[k]?) = (List.range' lo (hi - lo)).map (fun k => order.getD k (0, 0)) := by
        rw [← List.filterMap_eq_map]
        apply List.filterMap_congr
        intro k hk
        rw [List.mem_range'_1] at hk
        have hkl : k < order.length := by omega
        rw [List.getElem?_eq_getElem hkl]
        simp [hkl]
      rw [hall, List.getElem?_map, List.getElem?_range' ht]
      have hkl : lo + t < order.length := by omega
      simp [hkl]
    · rw [List.getElem?_eq_none (by rw [List.length_take]; omega), List.getElem?_eq_none]
      refine Nat.le_trans (List.length_filterMap_le _ _) (by simpa using ht)
  rw [this, List.filterMap_filterMap]
  apply List.filterMap_congr
  intro k hk
  rw [List.mem_range'_1] at hk
  have hkl : k < order.length := by omega
  rw [List.getElem?_eq_getElem hkl]
  show _ = entry (data order[k].1) w order[k].2 j
  exact hd.2 k _ _ (List.getElem?_eq_getElem hkl) j hj

/-- `exch_reduce`: every root gets the reduction over exactly the items addressed to it. The order `items p x` of the reduction
is chosen when the pattern is made and is the same for all data, widths and operations. -/
theorem C20_reduce {s : Nat → Nat → Sched} {n : Nat} {dests : Nat → Remotes} {nroots : Nat → Nat} (h : DestsOk n dests nroots)
    {D : List Dist} (hD : newDist s (world n dests) (world n nroots) = some D) :
    ∃ items : Nat → Nat → List (Nat × Nat),
      (∀ p x, p < n → x < nroots p → (items p x).Perm (addressed n (fun r => (dests r).ranks) (fun r => (dests r).idxs) p x)) ∧
      ∀ {T VT : Type} (s' : Nat → Nat → Sched) (f : Functor T VT) (w : Nat) (data : Nat → List T), 0 < w →
        (∀ r, r < n → (data r).length = (dests r).ranks.length * w) →
        ∃ out, Dist.exchReduce s' f D w (world n data) = some (world n out) ∧
          ∀ p, p < n → (out p).length = nroots p * w ∧ ∀ x j, x < nroots p → j < w →
            (rowsOf data w j (items p x)).length = (items p x).length ∧
            entry (out p) w x j = some (f.down ((rowsOf data w j (items p x)).foldl (fun r x => f.join r (f.up x)) f.init)) := by
  obtain ⟨order, fan, h1, h2⟩ := C20_exch h hD
  obtain ⟨D', order', fan', rfl, hN⟩ := newDist_of h hD
  have hfan' : ∀ p, p < n → (D' p).rev.roots2items = some (fan p) := by
    intro p hp
    have := (h1 p hp).2.1
    rw [world_get _ hp] at this
    exact this
  have hlast : ∀ p, p < n → (fan p).getLast? = some (order p).length := by
    intro p hp
    have e : fan p = fan' p := Option.some.inj ((hfan' p hp).symm.trans (hN.rroots p hp))
    rw [e, (hN.fanOk p hp).2.2, (hN.perm p hp).length_eq, (h1 p hp).1.length_eq]
  let lo : Nat → Nat → Nat := fun p x => (fan p).getD x 0
  let items : Nat → Nat → List (Nat × Nat) := fun p x => ((order p).drop (lo p x)).take (lo p (x + 1) - lo p x)
  have hlo : ∀ p x, p < n → x ≤ nroots p → (fan p)[x]? = some (lo p x) := by
    intro p x hp hx
    have hl := (h1 p hp).2.2.2.1
    show _ = some ((fan p).getD x 0)
    rw [List.getElem?_eq_getElem (by omega)]
    simp [show x < (fan p).length by omega]
  have hle : ∀ p x, p < n → x ≤ nroots p → lo p x ≤ (order p).length := by
    intro p x hp hx
    obtain ⟨m, e1, e2⟩ := fan_last (h1 p hp).2.2.1
    obtain rfl := Option.some.inj (e1.symm.trans (hlast p hp))
    have hl := (h1 p hp).2.2.2.1
    exact fan_le (h1 p hp).2.2.1 (show x ≤ (fan p).length - 1 by omega) (hlo p x hp hx) e2
  have hnd : ∀ p, p < n → (order p).Nodup := fun p hp => (h1 p hp).1.nodup_iff.2 (arrivals_nodup _ _ _)
  refine ⟨items, ?_, ?_⟩
  · intro p x hp hx
    have hn1 : (items p x).Nodup := (((List.take_sublist _ _).trans (List.drop_sublist _ _)).nodup (hnd p hp))
    have hn2 : (addressed n (fun r => (dests r).ranks) (fun r => (dests r).idxs) p x).Nodup := (arrivals_nodup _ _ _).filter _
    rw [List.perm_ext_iff_of_nodup hn1 hn2]
    rintro ⟨r, i⟩
    unfold addressed
    rw [List.mem_filter, ← (h1 p hp).1.mem_iff]
    constructor
    · intro hm
      obtain ⟨t, ht⟩ := List.getElem?_of_mem hm
      have htl := (List.getElem?_eq_some_iff.1 ht).1
      have htl2 : t < lo p (x + 1) - lo p x := by
        have := htl
        rw [List.length_take] at this
        omega
      rw [List.getElem?_take_of_lt htl2, List.getElem?_drop] at ht
      refine ⟨List.mem_of_getElem? ht, ?_⟩
      have := ((h1 p hp).2.2.2.2 _ r i x ht).1 ⟨_, _, hlo p x hp (by omega), hlo p (x + 1) hp (by omega), by omega, by omega⟩
      simpa using this
    · rintro ⟨hm, hx'⟩
      obtain ⟨k, hk⟩ := List.getElem?_of_mem hm
      have hx' : (dests r).idxs[i]? = some x := by simpa using hx'
      obtain ⟨a, b, e1, e2, e3, e4⟩ := ((h1 p hp).2.2.2.2 k r i x hk).2 hx'
      obtain rfl := Option.some.inj (e1.symm.trans (hlo p x hp (by omega)))
      obtain rfl := Option.some.inj (e2.symm.trans (hlo p (x + 1) hp (by omega)))
      refine List.mem_of_getElem? (i := k - lo p x) ?_
      show (((order p).drop (lo p x)).take _)[_]? = _
      rw [List.getElem?_take_of_lt (by omega), List.getElem?_drop, Nat.add_sub_cancel' e3]
      exact hk
  · intro T VT s' f w data hw hl
    obtain ⟨mid, m1, m2⟩ := h2 s' w data hw hl
    unfold Dist.exchReduce
    rw [m1, Option.bind_some, world_length]
    obtain ⟨out, o1, o2⟩ := choose_world (n := n)
      (fun r => ((world n D')[r]?).bind (fun d => ((world n mid)[r]?).bind (fun x =>
        d.rev.roots2items.bind (fun fan => fanReduce (s' r 4) f fan x w))))
      (fun p out => out.length = nroots p * w ∧ ∀ x j, x < nroots p → j < w →
            (rowsOf data w j (items p x)).length = (items p x).length ∧
            entry out w x j = some (f.down ((rowsOf data w j (items p x)).foldl (fun r x => f.join r (f.up x)) f.init))) (by
      intro p hp
      obtain ⟨out, e1, e2, e3⟩ := C06_fan_reduce (s' p 4) f (fan p) (mid p) w (order p).length (h1 p hp).2.2.1 (hlast p hp) (m2 p hp).1
      refine ⟨out, ?_, ?_, ?_⟩
      · rw [world_get _ hp, Option.bind_some, world_get _ hp, Option.bind_some, hfan' p hp, Option.bind_some]
        exact e1
      · rw [e2, (h1 p hp).2.2.2.1, Nat.add_sub_cancel]
      · intro x j hx hj
        have := e3 x _ _ j (hlo p x hp (by omega)) (hlo p (x + 1) hp (by omega)) hj
        rw [rowsOf_eq (m2 p hp) hj (hle p (x + 1) hp (by omega))] at this
        refine ⟨?_, this.2⟩
        have hsome : ∀ a ∈ items p x, (entry (data a.1) w a.2 j).isSome := by
          intro a ha
          obtain ⟨hr, hi⟩ := arrivals_mem ((h1 p hp).1.mem_iff.1 (((List.take_sublist _ _).trans (List.drop_sublist _ _)).subset ha))
          have hil := (List.getElem?_eq_some_iff.1 hi).1
          unfold entry
          rw [List.getElem?_eq_getElem]
          · rfl
          · rw [hl _ hr]
            have : (a.2 + 1) * w ≤ (dests a.1).ranks.length * w := Nat.mul_le_mul_right _ hil
            rw [Nat.add_mul] at this
            omega
        unfold rowsOf
        rw [List.length_filterMap_eq_countP, List.countP_eq_length]
        intro a ha
        exact hsome a ha)
    exact ⟨out, o1, o2⟩

/-- With an operation that does not depend on the order, such as an exact sum, a minimum or a maximum, the result of
`exch_reduce` does not depend on any schedule. -/
theorem C20_reduce_determined {s : Nat → Nat → Sched} {n : Nat} {dests : Nat → Remotes} {nroots : Nat → Nat} (h : DestsOk n dests nroots)
    {D : List Dist} (hD : newDist s (world n dests) (world n nroots) = some D)
    {T VT : Type} (s' : Nat → Nat → Sched) (f : Functor T VT) (hf : ∀ a b c, f.join (f.join a (f.up b)) (f.up c) = f.join (f.join a (f.up c)) (f.up b))
    (w : Nat) (data : Nat → List T) (hw : 0 < w) (hl : ∀ r, r < n → (data r).length = (dests r).ranks.length * w) :
    ∃ out, Dist.exchReduce s' f D w (world n data) = some (world n out) ∧
      ∀ p, p < n → (out p).length = nroots p * w ∧ ∀ x j, x < nroots p → j < w →
        entry (out p) w x j = some (f.down ((rowsOf data w j
          (addressed n (fun r => (dests r).ranks) (fun r => (dests r).idxs) p x)).foldl (fun r x => f.join r (f.up x)) f.init)) := by
  obtain ⟨items, h1, h2⟩ := C20_reduce h hD
  obtain ⟨out, o1, o2⟩ := h2 s' f w data hw hl
  refine ⟨out, o1, ?_⟩
  intro p hp
  refine ⟨(o2 p hp).1, ?_⟩
  intro x j hx hj
  rw [((o2 p hp).2 x j hx hj).2]
  have hperm : (rowsOf data w j (items p x)).Perm (rowsOf data w j
      (addressed n (fun r => (dests r).ranks) (fun r => (dests r).idxs) p x)) := (h1 p x hp hx).filterMap _
  congr 2
  exact hperm.foldl_eq' (fun a _ b _ z => hf z a b) _

/-- The pattern remembers the destinations it was built from: `items2ranks` and `items2dest_idxs`. -/
theorem C20_destinations {s : Nat → Nat → Sched} {n : Nat} {dests : Nat → Remotes} {nroots : Nat → Nat} (h : DestsOk n dests nroots)
    {D : List Dist} (hD : newDist s (world n dests) (world n nroots) = some D) (s' : Nat → Nat → Sched) :
    (∀ r d, r < n → D[r]? = some d → ∀ s1 s2 s3, d.items2ranks s1 s2 s3 = some (dests r).ranks) ∧
    Dist.items2destIdxs s' D = some (world n (fun r => (dests r).idxs)) := by
  obtain ⟨D', order, fan, rfl, hN⟩ := newDist_of h hD
  constructor
  · intro r d hr hd s1 s2 s3
    rw [world_get _ hr] at hd
    obtain rfl := Option.some.inj hd
    obtain ⟨pos, q1, q2⟩ := hN.sort r hr
    unfold Dist.items2ranks Dist.items2msgs
    obtain ⟨inv, i1, i2, i3⟩ := C06_invert_fan s1 _ q2.isFan
    have hlen : inv.length = (dests r).ranks.length := Option.some.inj (i2.symm.trans q2.last)
    rw [i1, Option.bind_some, q1, Option.bind_some]
    obtain ⟨msgs, m1, m2, m3⟩ := C05_unmap s2 pos inv 1 (dests r).ranks.length (by omega) q2.permutation.2.1
    rw [m1, Option.bind_some]
    have hmsg : ∀ i v : Nat, (dests r).ranks[i]? = some v → ∃ k : Nat, (D' r).fwd.peers[k]? = some v ∧ msgs[i]? = some (k : Int) := by
      intro i v hi
      obtain ⟨k, lo, g1, g2, g3, g4⟩ := q2.find hi
      refine ⟨k, g1, ?_⟩
      have := m3 i _ 0 g4 (by omega)
      rw [entry_one, entry_one] at this
      rw [this]
      have hlt := count_take_lt hi
      exact (i3 k _).1 ⟨lo, _, g2, g3, by omega, by omega⟩
    have hml : msgs.length = (dests r).ranks.length := by rw [m2, Nat.mul_one, q2.posLen]
    obtain ⟨ms, e1, e2⟩ := toIndices?_of_nonneg msgs (by
      intro x hx
      obtain ⟨i, hi⟩ := List.getElem?_of_mem hx
      have hil := (List.getElem?_eq_some_iff.1 hi).1
      obtain ⟨k, _, hk⟩ := hmsg i _ (List.getElem?_eq_getElem (show i < (dests r).ranks.length by omega))
      rw [Option.some.inj (hi.symm.trans hk)]
      exact Int.natCast_nonneg k)
    rw [e1, Option.bind_some]
    have hms : ∀ i v : Nat, (dests r).ranks[i]? = some v → ∃ k : Nat, (D' r).fwd.peers[k]? = some v ∧ ms[i]? = some k := by
      intro i v hi
      obtain ⟨k, hk1, hk2⟩ := hmsg i v hi
      refine ⟨k, hk1, ?_⟩
      rw [e2, List.getElem?_map, Option.map_eq_some_iff] at hk2
      obtain ⟨k', hk', e⟩ := hk2
      rw [hk']
      exact congrArg some (Int.ofNat.inj e)
    have hmsl : ms.length = (dests r).ranks.length := by rw [← hml, e2, List.length_map]
    obtain ⟨out, o1, o2, o3⟩ := C05_compound_maps s3 ms (D' r).fwd.peers (by
      intro k hk
      obtain ⟨i, hi⟩ := List.getElem?_of_mem hk
      have hil := (List.getElem?_eq_some_iff.1 hi).1
      obtain ⟨k', hk1, hk2⟩ := hms i _ (List.getElem?_eq_getElem (show i < (dests r).ranks.length by omega))
      obtain rfl := Option.some.inj (hi.symm.trans hk2)
      exact (List.getElem?_eq_some_iff.1 hk1).1)
    rw [o1]
    congr 1
    apply List.ext_getElem?
    intro i
    rcases Nat.lt_or_ge i (dests r).ranks.length with hi | hi
    · obtain ⟨k, hk1, hk2⟩ := hms i _ (List.getElem?_eq_getElem hi)
      rw [o3 i k hk2, hk1, List.getElem?_eq_getElem hi]
    · rw [List.getElem?_eq_none (by omega), List.getElem?_eq_none (by omega)]
  · unfold Dist.items2destIdxs
    have h1 : (world n D').mapM (fun d : Dist => d.ndests.map List.range) = some (world n (fun p => List.range (nroots p))) := by
      unfold world
      rw [List.mapM_map]
      apply mapM_range_some
      intro p hp
      show (Dist.ndests _).map List.range = _
      unfold Dist.ndests Dist.nsrcs
      show (match (D' p).rev.roots2items with | some fan => some (fan.length - 1) | none => _).map List.range = _
      rw [hN.rroots p hp]
      show some (List.range ((fan p).length - 1)) = _
      rw [(hN.fanOk p hp).2.1, Nat.add_sub_cancel]
    rw [h1, Option.bind_some]
    obtain ⟨out, o1, o2⟩ := C20_inverse h hD s' 1 (fun p => List.range (nroots p)) (by omega) (fun p _ => by simp)
    rw [o1]
    congr 1
    apply world_congr
    intro r hr
    have hl := h.len r hr
    apply List.ext_getElem?
    intro i
    rcases Nat.lt_or_ge i (dests r).ranks.length with hi | hi
    · have e1 := List.getElem?_eq_getElem hi
      have e2 := List.getElem?_eq_getElem (show i < (dests r).idxs.length by omega)
      have := (o2 r hr).2 i _ _ e1 e2 0 (by omega)
      rw [entry_one, entry_one] at this
      rw [this, e2, List.getElem?_range (h.idx r hr i _ _ e1 e2)]
    · have := (o2 r hr).1
      rw [List.getElem?_eq_none (by omega), List.getElem?_eq_none (by omega)]

/-- `set_dest_globals`: the items arrive sorted by the numbers that were sent for them; equal numbers keep the order by source
rank and item. `exch` followed by the inverse `exch` is the identity here too. -/
theorem C20_globals (s s2 : Nat → Nat → Sched) (n : Nat) (dest : Nat → List Nat) (globals : Nat → List Int) (hn : n ≤ 2147483648)
    (hd : ∀ r, r < n → ∀ p ∈ dest r, p < n) (hg : ∀ r, r < n → (globals r).length = (dest r).length) :
    ∃ (D : List Dist) (order : Nat → List (Nat × Nat)), (setDestRanks s (world n dest)).bind (fun D0 => setDestGlobals s2 D0 (world n globals)) = some D ∧
      (∀ p, p < n → (order p).Perm (arrivals n dest p) ∧
        (order p).Pairwise (fun a b => ∃ x y, (globals a.1)[a.2]? = some x ∧ (globals b.1)[b.2]? = some y ∧
          (x < y ∨ (x = y ∧ (a.1 < b.1 ∨ (a.1 = b.1 ∧ a.2 < b.2)))))) ∧
      ∀ {α : Type} (s' s3 : Nat → Nat → Sched) (w : Nat) (data : Nat → List α), 0 < w →
        (∀ r, r < n → (data r).length = (dest r).length * w) →
        ∃ out, Dist.exch s' D w (world n data) = some (world n out) ∧
          (∀ p, p < n → Delivers data w (order p) (out p)) ∧
          Dist.exch s3 (D.map Dist.invert) w (world n out) = some (world n data) := by
  obtain ⟨D0, d1, d2⟩ := setDestRanks_spec s hn hd
  obtain ⟨keys, o1, o2, o3⟩ := exch_spec s2 d2.ok (w := 1) (by omega) globals (fun r hr => by rw [hg r hr, Nat.mul_one])
  have hk : ∀ p, p < n → (keys p).length = (arrivals n dest p).length ∧
      ∀ k r i : Nat, (arrivals n dest p)[k]? = some (r, i) → (keys p)[k]? = (globals r)[i]? := by
    intro p hp
    refine ⟨by rw [o2 p hp, Nat.mul_one], ?_⟩
    intro k r i hk
    have hr : r < n := (arrivals_mem (List.mem_of_getElem? hk)).1
    have := o3 r i i p k hr (by unfold RootOf; rw [d2.froots r hr]) ((d2.route r i p k hr).2 hk) 0 (by omega)
    rw [entry_one, entry_one] at this
    exact this
  obtain ⟨P, _, p2'⟩ := choose_world (n := n) (fun r => sortByKeys (keys r) 1)
    (fun r perm => sortByKeys (keys r) 1 = some perm ∧ IsStableSort (keys r) 1 (arrivals n dest r).length perm) (by
    intro r hr
    obtain ⟨perm, e1, e2⟩ := C02_sort_by_keys (keys r) 1 (arrivals n dest r).length ⟨by omega, by omega⟩ (by rw [(hk r hr).1, Nat.mul_one])
    exact ⟨perm, e1, e1, e2⟩)
  have p2 := fun r hr => (p2' r hr).2
  let D : Nat → Dist := fun r => ⟨(D0 r).fwd, ⟨none, some (P r), (D0 r).rev.msgs2content, (D0 r).rev.peers⟩⟩
  obtain ⟨hoget, hoperm, hwired, hroute⟩ := reorder_spec d2 (D := D) (perm := P) (fun p hp => (p2 p hp).1)
    (fun r _ => ⟨rfl, rfl, rfl, rfl⟩)
  let order := reorder (arrivals n dest) P
  have hlen : ∀ p, p < n → (order p).length = (arrivals n dest p).length := fun p hp => (hoperm p hp).length_eq
  have hok : DistOk n D (fun r => (dest r).length) (fun p => (order p).length) (fun r => (dest r).length) (fun p => (order p).length) := by
    refine ⟨hwired, d2.ok.fwd, ?_⟩
    intro r hr
    refine ⟨?_, ?_, fun _ => rfl⟩
    · intro q hq
      have : P r = q := Option.some.inj hq
      rw [← this, hlen r hr]
      exact (p2 r hr).1
    · intro f hf
      cases hf
  refine ⟨world n D, order, ?_, ?_, ?_⟩
  · rw [d1, Option.bind_some]
    unfold setDestGlobals
    rw [o1, Option.bind_some, world_length]
    unfold world
    apply mapM_range_some
    intro r hr
    show ((world n D0)[r]?).bind _ = _
    rw [world_get _ hr, Option.bind_some]
    show ((world n keys)[r]?).bind _ = _
    rw [world_get _ hr, Option.bind_some]
    rw [(p2' r hr).1]
    rfl
  · intro p hp
    refine ⟨hoperm p hp, ?_⟩
    rw [List.pairwise_iff_getElem]
    intro k k2 h1 h2 hlt
    have hPl : (P p).length = (order p).length := by rw [hlen p hp]; exact (p2 p hp).1.1
    have e1 := List.getElem?_eq_getElem (show k < (P p).length by omega)
    have e2 := List.getElem?_eq_getElem (show k2 < (P p).length by omega)
    have a1 := hoget p k _ hp e1
    have a2 := hoget p k2 _ hp e2
    rw [List.getElem?_eq_getElem h1] at a1
    rw [List.getElem?_eq_getElem h2] at a2
    have b1 := (hk p hp).2 _ _ _ a1.symm
    have b2 := (hk p hp).2 _ _ _ a2.symm
    have c1 := (List.getElem?_eq_some_iff.1 a1.symm).1
    have c2 := (List.getElem?_eq_some_iff.1 a2.symm).1
    have hk1 := List.getElem?_eq_getElem (show (P p)[k] < (keys p).length by rw [(hk p hp).1]; exact c1)
    have hk2 := List.getElem?_eq_getElem (show (P p)[k2] < (keys p).length by rw [(hk p hp).1]; exact c2)
    refine ⟨_, _, b1.symm.trans hk1, b2.symm.trans hk2, ?_⟩
    rcases (p2 p hp).2 k k2 _ _ hlt e1 e2 with ⟨q, hq, _, x, y, f1, f2, f3⟩ | ⟨f1, f2⟩
    · obtain rfl : q = 0 := by omega
      rw [entry_one] at f1 f2
      rw [Option.some.inj (f1.symm.trans hk1), Option.some.inj (f2.symm.trans hk2)] at f3
      exact Or.inl f3
    · have := f1 0 (by omega)
      rw [entry_one, entry_one] at this
      refine Or.inr ⟨Option.some.inj (hk1.symm.trans (this.trans hk2)), ?_⟩
      have hord := arrivals_sorted n dest p
      rw [List.pairwise_iff_getElem] at hord
      have := hord _ _ c1 c2 f2
      rw [(List.getElem?_eq_some_iff.1 a1.symm).2, (List.getElem?_eq_some_iff.1 a2.symm).2] at this
      exact this
  · intro α s' s3 w data hw hl
    obtain ⟨out, q1, q2, q3⟩ := exch_spec s' hok hw data hl
    refine ⟨out, q1, ?_, ?_⟩
    · intro p hp
      refine ⟨q2 p hp, ?_⟩
      intro k r i hk j hj
      have hr : r < n := (arrivals_mem ((hoperm p hp).mem_iff.1 (List.mem_of_getElem? hk))).1
      exact q3 r i i p k hr (by unfold RootOf; show match (D0 r).fwd.roots2items with | some fan => _ | none => _; rw [d2.froots r hr])
        ((hroute r i p k hr hp).2 hk) j hj
    · obtain ⟨back, t1, t2, t3⟩ := exch_spec s3 hok.invert hw out q2
      rw [world_map, t1]
      congr 1
      apply world_congr
      intro r hr
      apply entries_ext (t2 r hr) (hl r hr)
      intro i hi j hj
      obtain ⟨p, k, hp, hk, hrt⟩ := route_total hok hr hi
      rw [t3 p k k r i hp rfl (route_invert hok hr hrt) j hj]
      exact q3 r i i p k hr (by unfold RootOf; show match (D0 r).fwd.roots2items with | some fan => _ | none => _; rw [d2.froots r hr]) hrt j hj

theorem nitems_of {n : Nat} {D : Nat → Dist} {nf nr rf rr : Nat → Nat} (h : DistOk n D nf nr rf rr) {r : Nat} (hr : r < n) :
    (D r).nitems = some (nf r) := (h.wired.fwd r hr).last

/-- Patterns for data of variable size: if a copy and its owner have the same number of data items, data item `t` of the copy is
addressed to data item `t` of the owner. -/
theorem C20_variable {s : Nat → Nat → Sched} {n : Nat} {dests : Nat → Remotes} {nroots : Nat → Nat} (h : DestsOk n dests nroots)
    {D : List Dist} (hD : newDist s (world n dests) (world n nroots) = some D)
    (s' : Nat → Nat → Sched) (fans : Nat → List Nat) (size : Nat → Nat)
    (hroots : ∀ r, r < n → nroots r = (dests r).ranks.length)
    (hfan : ∀ r, r < n → IsFan (fans r) ∧ (fans r).length = (dests r).ranks.length + 1 ∧ (fans r).getLast? = some (size r))
    (hmatch : ∀ r i p x lo hi lo' hi' : Nat, r < n → (dests r).ranks[i]? = some p → (dests r).idxs[i]? = some x →
      (fans r)[i]? = some lo → (fans r)[i + 1]? = some hi → (fans p)[x]? = some lo' → (fans p)[x + 1]? = some hi' → hi - lo = hi' - lo') :
    ∃ dataDests : Nat → Remotes, DestsOk n dataDests size ∧
      variableDist s' D (world n fans) = newDist (fun r k => s' r (k + 10)) (world n dataDests) (world n size) ∧
      ∀ r, r < n → (dataDests r).ranks.length = size r ∧
        ∀ i p x lo hi lo' t : Nat, (dests r).ranks[i]? = some p → (dests r).idxs[i]? = some x →
          (fans r)[i]? = some lo → (fans r)[i + 1]? = some hi → (fans p)[x]? = some lo' → lo + t < hi →
          (dataDests r).ranks[lo + t]? = some p ∧ (dataDests r).idxs[lo + t]? = some (lo' + t) := by
  have hdst := fun r hr s1 s2 s3 d hd => (C20_destinations h hD s').1 r d hr hd s1 s2 s3
  obtain ⟨D', order, fan, rfl, hN⟩ := newDist_of h hD
  have hnit : ∀ r, r < n → (D' r).nitems = some (dests r).ranks.length := fun r hr => nitems_of hN.ok hr
  -- the offsets
  obtain ⟨off, f1, f2⟩ := choose_world (n := n)
    (fun r => ((world n D')[r]?).bind (fun d => ((world n fans)[r]?).bind (fun c => (d.nitems).bind (fun nactors =>
      if c.length = nactors + 1 then
        (parScatter (s' r 0) nactors (fun i => (c[i]?).map (fun x => [(i, x)])) (Mem.filled nactors 0)).bind Mem.toArray?
      else none))))
    (fun r out => out.length = (dests r).ranks.length ∧ ∀ i, i < (dests r).ranks.length → out[i]? = (fans r)[i]?) (by
    intro r hr
    obtain ⟨out, o1, o2, o3, o4⟩ := parScatter_ontoR (s' r 0) (dests r).ranks.length (fun i => ((fans r)[i]?).map (fun x => [(i, x)]))
      (fun i p v => p = i ∧ (fans r)[i]? = some v) (fun p => (fans r)[p]?) (List.replicate (dests r).ranks.length 0) (by
        intro i hi
        have := List.getElem?_eq_getElem (show i < (fans r).length by rw [(hfan r hr).2.1]; omega)
        refine ⟨_, by rw [this]; rfl, ?_⟩
        intro p v
        rw [this]
        simp [eq_comm]) (by
        rintro i hi p v ⟨rfl, hv⟩
        exact ⟨by simpa using hi, hv⟩)
    refine ⟨out, ?_, by rw [o2]; simp, ?_⟩
    · rw [world_get _ hr, Option.bind_some, world_get _ hr, Option.bind_some, hnit r hr, Option.bind_some, if_pos (hfan r hr).2.1,
        Mem.filled_eq]
      exact o1
    · intro i hi
      have hg := List.getElem?_eq_getElem (show i < (fans r).length by rw [(hfan r hr).2.1]; omega)
      exact o3 i hi i _ ⟨rfl, hg⟩ |>.trans hg.symm)
  -- the offsets of the owners
  obtain ⟨own, e1, e2⟩ := C20_inverse h hD (fun r k => s' r (k + 1)) 1 off (by omega) (fun p hp => by rw [(f2 p hp).1, hroots p hp, Nat.mul_one])
  have hown : ∀ r, r < n → (own r).length = (dests r).ranks.length ∧ ∀ i p x : Nat, (dests r).ranks[i]? = some p →
      (dests r).idxs[i]? = some x → (own r)[i]? = (fans p)[x]? := by
    intro r hr
    refine ⟨by rw [(e2 r hr).1, Nat.mul_one], ?_⟩
    intro i p x hp hx
    have := (e2 r hr).2 i p x hp hx 0 (by omega)
    rw [entry_one, entry_one] at this
    have hpn := h.rank r hr p (List.mem_of_getElem? hp)
    rw [this, (f2 p hpn).2 x (by rw [← hroots p hpn]; exact h.idx r hr i p x hp hx)]
  -- the destinations of the data
  have hvar : ∀ r, r < n → ∃ R : Remotes, variableDests (fun k => s' r (k + 5)) (D' r) (fans r) (own r) = some R ∧
      (R.ranks.length = size r ∧ R.idxs.length = size r) ∧
      ∀ i p x lo hi lo' t : Nat, (dests r).ranks[i]? = some p → (dests r).idxs[i]? = some x →
          (fans r)[i]? = some lo → (fans r)[i + 1]? = some hi → (fans p)[x]? = some lo' → lo + t < hi →
          R.ranks[lo + t]? = some p ∧ R.idxs[lo + t]? = some (lo' + t) := by
    intro r hr
    obtain ⟨g1, g2, g3⟩ := hfan r hr
    obtain ⟨m, l1, l2⟩ := fan_last g1
    obtain rfl := Option.some.inj (l1.symm.trans g3)
    obtain ⟨rk, k1, k2, k3⟩ := C05_expand (s' r 8) (dests r).ranks (fans r) 1 (size r) g1 g3 (by rw [g2]; omega)
    let R : Nat → Nat → Nat → Prop := fun a q v => ∃ lo hi off : Nat, (fans r)[a]? = some lo ∧ (fans r)[a + 1]? = some hi ∧ (own r)[a]? = some off ∧
      lo ≤ q ∧ q < hi ∧ v = off + (q - lo)
    have hRu : ∀ a b q v w, R a q v → R b q w → v = w := by
      rintro a b q v w ⟨lo, hi, off, a1, a2, a3, a4, a5, rfl⟩ ⟨lo2, hi2, off2, b1, b2, b3, b4, b5, rfl⟩
      obtain rfl : a = b := inFan_unique g1 (b := q) ⟨lo, hi, a1, a2, a4, a5⟩ ⟨lo2, hi2, b1, b2, b4, b5⟩
      rw [Option.some.inj (a1.symm.trans b1), Option.some.inj (a3.symm.trans b3)]
    classical
    obtain ⟨ix, i1, i2, i3⟩ := parScatter_buildR (s' r 9) (dests r).ranks.length (size r) (fun actor =>
      ((fans r)[actor]?).bind (fun b => ((fans r)[actor + 1]?).bind (fun e => ((own r)[actor]?).map (fun off =>
        (List.range' b (e - b)).map (fun i => (i, off + (i - b)))))))
      R (fun q => if hq : ∃ v a, R a q v then some hq.choose else none) (by
        intro a ha
        have a1 := List.getElem?_eq_getElem (show a < (fans r).length by omega)
        have a2 := List.getElem?_eq_getElem (show a + 1 < (fans r).length by omega)
        have a3 := List.getElem?_eq_getElem (show a < (own r).length by rw [(hown r hr).1]; exact ha)
        refine ⟨_, by rw [a1, Option.bind_some, a2, Option.bind_some, a3]; rfl, ?_⟩
        intro q v
        rw [List.mem_map]
        constructor
        · rintro ⟨i, hi, e⟩
          rw [List.mem_range'_1] at hi
          obtain ⟨rfl, rfl⟩ := Prod.mk.inj e
          exact ⟨_, _, _, a1, a2, a3, hi.1, by omega, rfl⟩
        · rintro ⟨lo, hi, off, b1, b2, b3, b4, b5, rfl⟩
          obtain rfl := Option.some.inj (a1.symm.trans b1)
          obtain rfl := Option.some.inj (a2.symm.trans b2)
          obtain rfl := Option.some.inj (a3.symm.trans b3)
          exact ⟨q, by rw [List.mem_range'_1]; omega, rfl⟩) (by
        intro a ha q v hv
        have hq : ∃ v a, R a q v := ⟨v, a, hv⟩
        refine ⟨?_, ?_⟩
        · obtain ⟨lo, hi, off, b1, b2, b3, b4, b5, _⟩ := hv
          exact (inFan_lt g1 ⟨lo, hi, b1, b2, b4, b5⟩ l2).1
        · show (if hq : ∃ v a, R a q v then some hq.choose else none) = some v
          rw [dif_pos hq]
          obtain ⟨b, hb⟩ := hq.choose_spec
          exact congrArg some (hRu _ _ _ _ _ hb hv)) (by
        intro q hq
        obtain ⟨a, lo, hi, b1, b2, b4, b5⟩ := inFan_cover g1 l2 hq
        have := (inFan_lt g1 ⟨lo, hi, b1, b2, b4, b5⟩ l2).2
        have a3 := List.getElem?_eq_getElem (show a < (own r).length by rw [(hown r hr).1]; omega)
        exact ⟨a, by omega, _, lo, hi, _, b1, b2, a3, b4, b5, rfl⟩)
    refine ⟨⟨rk, ix⟩, ?_, ⟨by rw [k2, Nat.mul_one], i2⟩, ?_⟩
    · unfold variableDests
      rw [hnit r hr, Option.bind_some, g3, Option.bind_some, hdst r hr _ _ _ (D' r) (world_get _ hr), Option.bind_some,
        k1, Option.bind_some, i1, Option.bind_some, if_pos (by omega)]
    · intro i p x lo hi lo' t hp hx hlo hhi hlo' ht
      have hb : InFan (fans r) i (lo + t) := ⟨lo, hi, hlo, hhi, by omega, ht⟩
      have hlt := (inFan_lt g1 hb l2).1
      refine ⟨?_, ?_⟩
      · have := k3 i (lo + t) 0 hb (by omega)
        rw [entry_one, entry_one] at this
        rw [this]
        exact hp
      · have hR : R i (lo + t) (lo' + t) := ⟨lo, hi, lo', hlo, hhi, ((hown r hr).2 i p x hp hx).trans hlo', by omega, ht, by omega⟩
        have hq : ∃ v a, R a (lo + t) v := ⟨_, _, hR⟩
        show ix[lo + t]? = _
        rw [i3 _ hlt, dif_pos hq]
        obtain ⟨b, hb⟩ := hq.choose_spec
        exact congrArg some (hRu _ _ _ _ _ hb hR)
  obtain ⟨dd, v1, v2⟩ := choose_world (n := n)
    (fun r => ((world n D')[r]?).bind (fun d => ((world n fans)[r]?).bind (fun c => ((world n own)[r]?).bind (fun o =>
      variableDests (fun k => s' r (k + 5)) d c o))))
    (fun r R => (R.ranks.length = size r ∧ R.idxs.length = size r) ∧
      ∀ i p x lo hi lo' t : Nat, (dests r).ranks[i]? = some p → (dests r).idxs[i]? = some x →
          (fans r)[i]? = some lo → (fans r)[i + 1]? = some hi → (fans p)[x]? = some lo' → lo + t < hi →
          R.ranks[lo + t]? = some p ∧ R.idxs[lo + t]? = some (lo' + t)) (by
    intro r hr
    obtain ⟨R, e1, e2⟩ := hvar r hr
    refine ⟨R, ?_, e2⟩
    rw [world_get _ hr, Option.bind_some, world_get _ hr, Option.bind_some, world_get _ hr, Option.bind_some]
    exact e1)
  -- every data item belongs to an actor
  have hcov : ∀ r q, r < n → q < size r → ∃ i p x lo hi lo' hi' t : Nat, (dests r).ranks[i]? = some p ∧ (dests r).idxs[i]? = some x ∧
      (fans r)[i]? = some lo ∧ (fans r)[i + 1]? = some hi ∧ (fans p)[x]? = some lo' ∧ (fans p)[x + 1]? = some hi' ∧ lo + t < hi ∧ q = lo + t ∧
      p < n := by
    intro r q hr hq
    obtain ⟨g1, g2, g3⟩ := hfan r hr
    obtain ⟨m, l1, l2⟩ := fan_last g1
    obtain rfl := Option.some.inj (l1.symm.trans g3)
    obtain ⟨i, lo, hi, b1, b2, b4, b5⟩ := inFan_cover g1 l2 hq
    have hil := (inFan_lt g1 ⟨lo, hi, b1, b2, b4, b5⟩ l2).2
    have c1 := List.getElem?_eq_getElem (show i < (dests r).ranks.length by omega)
    have c2 := List.getElem?_eq_getElem (show i < (dests r).idxs.length by rw [h.len r hr]; omega)
    have hpn := h.rank r hr _ (List.mem_of_getElem? c1)
    have hxl := h.idx r hr i _ _ c1 c2
    rw [hroots _ hpn] at hxl
    have hfl := (hfan _ hpn).2.1
    exact ⟨i, _, _, lo, hi, _, _, q - lo, c1, c2, b1, b2, List.getElem?_eq_getElem (by omega), List.getElem?_eq_getElem (by omega),
      by omega, by omega, hpn⟩
  refine ⟨dd, ⟨h.size, ?_, ?_, ?_⟩, ?_, fun r hr => ⟨(v2 r hr).1.1, (v2 r hr).2⟩⟩
  · intro r hr p hp
    obtain ⟨q, hq⟩ := List.getElem?_of_mem hp
    have hql := (List.getElem?_eq_some_iff.1 hq).1
    rw [(v2 r hr).1.1] at hql
    obtain ⟨i, p', x, lo, hi, lo', hi', t, c1, c2, c3, c4, c5, c6, c7, rfl, c9⟩ := hcov r q hr hql
    have := ((v2 r hr).2 i p' x lo hi lo' t c1 c2 c3 c4 c5 c7).1
    rw [Option.some.inj (hq.symm.trans this)]
    exact c9
  · intro r hr
    rw [(v2 r hr).1.1, (v2 r hr).1.2]
  · intro r hr q p y hq hy
    have hql := (List.getElem?_eq_some_iff.1 hq).1
    rw [(v2 r hr).1.1] at hql
    obtain ⟨i, p', x, lo, hi, lo', hi', t, c1, c2, c3, c4, c5, c6, c7, rfl, c9⟩ := hcov r q hr hql
    obtain ⟨d1, d2⟩ := (v2 r hr).2 i p' x lo hi lo' t c1 c2 c3 c4 c5 c7
    obtain rfl := Option.some.inj (hq.symm.trans d1)
    obtain rfl := Option.some.inj (hy.symm.trans d2)
    have hm := hmatch r i p x lo hi lo' hi' hr c1 c2 c3 c4 c5 c6
    obtain ⟨g1, g2, g3⟩ := hfan p c9
    obtain ⟨m, l1, l2⟩ := fan_last g1
    obtain rfl := Option.some.inj (l1.symm.trans g3)
    exact (inFan_lt g1 (a := x) ⟨lo', hi', c5, c6, by omega, by omega⟩ l2).1
  · unfold variableDist
    rw [world_length, f1, Option.bind_some, e1, Option.bind_some, v1, Option.bind_some]
    have : (List.range n).mapM (fun r => ((world n fans)[r]?).bind (fun c => c.getLast?)) = some (world n size) := by
      unfold world
      apply mapM_range_some
      intro r hr
      show ((world n fans)[r]?).bind _ = _
      rw [world_get _ hr, Option.bind_some]
      exact (hfan r hr).2.2
    rw [this, Option.bind_some]

/-- The sources of a graph communicator are those that the search of C45 finds. -/
theorem C20_sources (n : Nat) (dests : Nat → List Nat) (p : Nat) : graphSources (world n dests) p = Spec.senders n dests p := by
  unfold graphSources Spec.senders
  rw [world_zipIdx]
  unfold world
  rw [List.flatMap_map]

/-! ### A case with three ranks: rank 0 sends to ranks 2 and 0, rank 1 has nothing, rank 2 sends to rank 0 and itself -/

/-- Destinations of the example. -/
def exampleDests : Nat → Remotes
  | 0 => ⟨[2, 0, 2], [1, 0, 0]⟩
  | 2 => ⟨[0, 2], [0, 1]⟩
  | _ => ⟨[], []⟩

/-- Numbers of roots of the example. -/
def exampleRoots : Nat → Nat
  | 0 => 1
  | 2 => 3
  | _ => 0

example : DestsOk 3 exampleDests exampleRoots := by
  refine ⟨by decide, ?_, ?_, ?_⟩
  · intro r hr
    match r, hr with
    | 0, _ => decide
    | 1, _ => decide
    | 2, _ => decide
  · intro r hr
    match r, hr with
    | 0, _ => decide
    | 1, _ => decide
    | 2, _ => decide
  · intro r hr i p x hp hx
    match r, hr with
    | 0, _ =>
      match i, hp, hx with
      | 0, hp, hx => cases hp; cases hx; decide
      | 1, hp, hx => cases hp; cases hx; decide
      | 2, hp, hx => cases hp; cases hx; decide
    | 1, _ => cases hp
    | 2, _ =>
      match i, hp, hx with
      | 0, hp, hx => cases hp; cases hx; decide
      | 1, hp, hx => cases hp; cases hx; decide

example : arrivals 3 (fun r => (exampleDests r).ranks) 2 = [(0, 0), (0, 2), (2, 1)] := by decide

example : ((newDist (fun _ _ => Sched.serial) (world 3 exampleDests) (world 3 exampleRoots)).bind (fun D =>
    Dist.exch (fun _ _ => Sched.reversed) D 2 [["a", "b", "c", "d", "e", "f"], [], ["x", "y", "z", "t"]])) =
    some [["c", "d", "x", "y"], [], ["e", "f", "a", "b", "z", "t"]] := by decide +kernel

example : ((newDist (fun _ _ => Sched.serial) (world 3 exampleDests) (world 3 exampleRoots)).bind (fun D =>
    Dist.exchReduce (fun _ _ => Sched.serial) (sumFunctor 32) D 1 [[1, 10, 100], [], [1000, 10000]])) =
    some [[1010], [], [100, 10001, 0]] := by decide +kernel

/-- An empty message is not sent, but a width of zero aborts. -/
example : ((newDist (fun _ _ => Sched.serial) (world 3 exampleDests) (world 3 exampleRoots)).bind (fun D =>
    Dist.exch (fun _ _ => Sched.serial) D 0 ([[], [], []] : List (List Nat)))) = none := by decide +kernel

end OmegaH
