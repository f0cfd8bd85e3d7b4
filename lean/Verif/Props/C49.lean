import Verif.Model.Balance
import Verif.Props.C22
import Verif.Props.C24

/-! # C49 — rebalancing puts every element where the partitioner sent it, by global number -/

namespace OmegaH
open Spec

/-- The items of a pattern in another order. -/
theorem resort_spec {n : Nat} {dests : Nat → Remotes} {nroots : Nat → Nat} {D : Nat → Dist} {order : Nat → List (Nat × Nat)}
    {fan : Nat → List Nat} (h : CopyDist n dests nroots D order fan) {P : Nat → List Nat}
    (hP : ∀ r, r < n → IsPermutation (P r) (dests r).ranks.length) :
    ∃ (dests2 : Nat → Remotes) (order2 : Nat → List (Nat × Nat)),
      CopyDist n dests2 nroots (fun r => ⟨⟨none, some (P r), (D r).fwd.msgs2content, (D r).fwd.peers⟩, (D r).rev⟩) order2 fan ∧
      (∀ r, r < n → (dests2 r).ranks.length = (dests r).ranks.length) ∧
      (∀ r k i c : Nat, r < n → (P r)[k]? = some c → ItemAt (D r).fwd i c → destOf dests2 r k = destOf dests r i) ∧
      ∀ r, r < n → (copiesOf dests2 r).Perm (copiesOf dests r) := by
  let len : Nat → Nat := fun r => (dests r).ranks.length
  -- the old item that becomes item `k`
  have hs : ∀ r k : Nat, ∃ i, r < n → k < len r → i < len r ∧ ∃ c, (P r)[k]? = some c ∧ ItemAt (D r).fwd i c := by
    intro r k
    by_cases hc : r < n ∧ k < len r
    · have hk := List.getElem?_eq_getElem (show k < (P r).length by rw [(hP r hc.1).1]; exact hc.2)
      obtain ⟨i, hi, hat⟩ := itemAt_onto (h.ok.fwd r hc.1) ((hP r hc.1).2.1 _ (List.mem_of_getElem? hk))
      exact ⟨i, fun _ _ => ⟨hi, _, hk, hat⟩⟩
    · exact ⟨0, fun h1 h2 => absurd ⟨h1, h2⟩ hc⟩
  choose σ hσ using hs
  -- the new item that old item `i` becomes
  have ht : ∀ r i : Nat, ∃ k, r < n → i < len r → k < len r ∧ σ r k = i := by
    intro r i
    by_cases hc : r < n ∧ i < len r
    · obtain ⟨c, hcl, hat⟩ := itemAt_total (h.ok.fwd r hc.1) hc.2
      obtain ⟨k, hk⟩ := isPermutation_surj (hP r hc.1) c hcl
      have hkl : k < len r := by
        have := (List.getElem?_eq_some_iff.1 hk).1
        rw [(hP r hc.1).1] at this
        exact this
      obtain ⟨h1, c', h2, h3⟩ := hσ r k hc.1 hkl
      obtain rfl := Option.some.inj (hk.symm.trans h2)
      exact ⟨k, fun _ _ => ⟨hkl, itemAt_inj (h.ok.fwd r hc.1) h3 hat⟩⟩
    · exact ⟨0, fun h1 h2 => absurd ⟨h1, h2⟩ hc⟩
  choose τ hτ using ht
  have hστ : ∀ r k, r < n → k < len r → τ r (σ r k) = k := by
    intro r k hr hk
    obtain ⟨h1, c, h2, h3⟩ := hσ r k hr hk
    obtain ⟨g1, g2⟩ := hτ r (σ r k) hr h1
    obtain ⟨_, c', h2', h3'⟩ := hσ r _ hr g1
    rw [g2] at h3'
    obtain rfl := itemAt_fun h3 h3'
    exact (hP r hr).2.2 _ _ _ h2' h2
  let dests2 : Nat → Remotes := fun r =>
    ⟨(List.range (len r)).map (fun k => ((dests r).ranks)[σ r k]?.getD 0), (List.range (len r)).map (fun k => ((dests r).idxs)[σ r k]?.getD 0)⟩
  let order2 : Nat → List (Nat × Nat) := fun p => (order p).map (fun y => (y.1, τ y.1 y.2))
  let D2 : Nat → Dist := fun r => ⟨⟨none, some (P r), (D r).fwd.msgs2content, (D r).fwd.peers⟩, (D r).rev⟩
  have hr2 : ∀ r k : Nat, r < n → k < len r → (dests2 r).ranks[k]? = (dests r).ranks[σ r k]? ∧ (dests2 r).idxs[k]? = (dests r).idxs[σ r k]? := by
    intro r k hr hk
    obtain ⟨h1, _⟩ := hσ r k hr hk
    have e1 := List.getElem?_eq_getElem h1
    have e2 := List.getElem?_eq_getElem (show σ r k < (dests r).idxs.length by rw [h.dest.len r hr]; exact h1)
    constructor
    · show ((List.range (len r)).map _)[k]? = _
      rw [List.getElem?_map, List.getElem?_range hk, Option.map_some, e1]; rfl
    · show ((List.range (len r)).map _)[k]? = _
      rw [List.getElem?_map, List.getElem?_range hk, Option.map_some, e2]; rfl
  have hlen2 : ∀ r, (dests2 r).ranks.length = len r ∧ (dests2 r).idxs.length = len r := by
    intro r
    exact ⟨by simp [dests2], by simp [dests2]⟩
  have hd2 : ∀ r k : Nat, r < n → k < len r → destOf dests2 r k = destOf dests r (σ r k) := by
    intro r k hr hk
    unfold destOf
    rw [(hr2 r k hr hk).1, (hr2 r k hr hk).2]
  have hord : ∀ p k r i : Nat, p < n → ((order2 p)[k]? = some (r, i) ↔ i < len r ∧ r < n ∧ (order p)[k]? = some (r, σ r i)) := by
    intro p k r i hp
    show ((order p).map _)[k]? = _ ↔ _
    rw [List.getElem?_map]
    cases ho : (order p)[k]? with
    | none => simp
    | some y =>
      obtain ⟨r', j⟩ := y
      obtain ⟨hr', hj⟩ := (h.mem p hp r' j).1 (List.mem_of_getElem? ho)
      have hjl : j < len r' := (List.getElem?_eq_some_iff.1 hj).1
      obtain ⟨t1, t2⟩ := hτ r' j hr' hjl
      simp only [Option.map_some, Option.some.injEq, Prod.mk.injEq]
      constructor
      · rintro ⟨rfl, rfl⟩
        exact ⟨t1, hr', rfl, t2.symm⟩
      · rintro ⟨g1, g2, rfl, rfl⟩
        exact ⟨rfl, hστ _ _ hr' g1⟩
  have hlink : ∀ r c p c', Linked D2 r c p c' ↔ Linked D r c p c' := fun _ _ _ _ => Iff.rfl
  have hroute : ∀ r i p k : Nat, r < n → p < n → (Route D2 r i p k ↔ (order2 p)[k]? = some (r, i)) := by
    intro r i p k hr hp
    rw [hord p k r i hp]
    constructor
    · rintro ⟨c, c', h1, h2, h3⟩
      have h1 : (P r)[i]? = some c := h1
      have hil : i < len r := by
        have := (List.getElem?_eq_some_iff.1 h1).1
        rw [(hP r hr).1] at this
        exact this
      obtain ⟨_, c2, g1, g2⟩ := hσ r i hr hil
      obtain rfl := Option.some.inj (h1.symm.trans g1)
      exact ⟨hil, hr, (h.route r _ p k hr hp).1 ⟨c, c', g2, h2, h3⟩⟩
    · rintro ⟨hil, _, ho⟩
      obtain ⟨c, c', h1, h2, h3⟩ := (h.route r _ p k hr hp).2 ho
      obtain ⟨_, c2, g1, g2⟩ := hσ r i hr hil
      obtain rfl := itemAt_fun h1 g2
      exact ⟨c, c', g1, h2, h3⟩
  have hb : ∀ r k p x, r < n → destOf dests2 r k = some (p, x) → p < n ∧ x < nroots p := by
    intro r k p x hr hd
    have hk := (List.getElem?_eq_some_iff.1 (destOf_eq.1 hd).1).1
    rw [(hlen2 r).1] at hk
    rw [hd2 r k hr hk] at hd
    exact (destOf_lt h.dest hr hd).2
  have hlenO : ∀ p, (order2 p).length = (order p).length := fun p => List.length_map _
  refine ⟨dests2, order2, ⟨⟨h.dest.size, ?_, ?_, ?_⟩, ⟨⟨?_, ?_, h.ok.wired.mate, h.ok.wired.size⟩, ?_, ?_⟩, fun _ _ => rfl, h.rroots, h.rperm, hroute, ?_, ?_, ?_⟩, ?_, ?_, ?_⟩
  · intro r hr p hp
    obtain ⟨i, hi⟩ := List.getElem?_of_mem hp
    have hx := List.getElem?_eq_getElem (show i < (dests2 r).idxs.length by
      rw [(hlen2 r).2, ← (hlen2 r).1]; exact (List.getElem?_eq_some_iff.1 hi).1)
    exact (hb r i p _ hr (destOf_eq.2 ⟨hi, hx⟩)).1
  · intro r _
    rw [(hlen2 r).1, (hlen2 r).2]
  · intro r hr i p x h1 h2
    exact (hb r i p x hr (destOf_eq.2 ⟨h1, h2⟩)).2
  · intro r hr
    have := h.ok.wired.fwd r hr
    refine ⟨this.fan, this.len, ?_, this.nodup, this.rank⟩
    show (D r).fwd.msgs2content.getLast? = some (dests2 r).ranks.length
    rw [(hlen2 r).1]
    exact this.last
  · intro r hr
    have := h.ok.wired.rev r hr
    refine ⟨this.fan, this.len, ?_, this.nodup, this.rank⟩
    show (D r).rev.msgs2content.getLast? = some (order2 r).length
    rw [hlenO]
    exact this.last
  · intro r hr
    refine ⟨?_, fun _ hf => (nomatch hf), fun _ => rfl⟩
    intro q hq
    obtain rfl := Option.some.inj hq
    rw [(hlen2 r).1]
    exact hP r hr
  · intro r hr
    dsimp only
    rw [hlenO]
    exact h.ok.rev r hr
  · intro p hp r i
    constructor
    · intro hm
      obtain ⟨k, hk⟩ := List.getElem?_of_mem hm
      obtain ⟨g1, g2, g3⟩ := (hord p k r i hp).1 hk
      exact ⟨g2, by rw [(hr2 r i g2 g1).1]; exact ((h.mem p hp r _).1 (List.mem_of_getElem? g3)).2⟩
    · rintro ⟨hr, hi⟩
      have hil := (List.getElem?_eq_some_iff.1 hi).1
      rw [(hlen2 r).1] at hil
      rw [(hr2 r i hr hil).1] at hi
      obtain ⟨k, hk⟩ := List.getElem?_of_mem ((h.mem p hp r _).2 ⟨hr, hi⟩)
      exact List.mem_of_getElem? ((hord p k r i hp).2 ⟨hil, hr, hk⟩)
  · intro p hp
    rw [hlenO]
    exact h.fanOk p hp
  · intro p hp k r i x hk
    obtain ⟨g1, g2, g3⟩ := (hord p k r i hp).1 hk
    rw [(hr2 r i g2 g1).2]
    exact h.group p hp k r _ x g3
  · intro r _
    exact (hlen2 r).1
  · intro r k i c hr hk hat
    have hkl := (List.getElem?_eq_some_iff.1 hk).1
    rw [(hP r hr).1] at hkl
    obtain ⟨_, c', g1, g2⟩ := hσ r k hr hkl
    obtain rfl := Option.some.inj (hk.symm.trans g1)
    obtain rfl := itemAt_inj (h.ok.fwd r hr) hat g2
    exact hd2 r k hr hkl
  · intro r hr
    -- `σ` permutes the positions
    have hmap : copiesOf dests2 r = ((List.range (len r)).map (σ r)).map (fun i => ((copiesOf dests r)[i]?).getD (0, 0)) := by
      apply List.ext_getElem?
      intro k
      rw [copiesOf_get, List.map_map, List.getElem?_map]
      rcases Nat.lt_or_ge k (len r) with hk | hk
      · rw [List.getElem?_range hk, hd2 r k hr hk, Option.map_some, Function.comp, copiesOf_get]
        obtain ⟨p, x, hd, _⟩ := destOf_total h.dest hr (hσ r k hr hk).1
        rw [hd]; rfl
      · rw [List.getElem?_eq_none (by simpa using hk)]
        have : (dests2 r).ranks[k]? = none := List.getElem?_eq_none (by rw [(hlen2 r).1]; exact hk)
        unfold destOf
        rw [this]; rfl
    have hself : copiesOf dests r = (List.range (len r)).map (fun i => ((copiesOf dests r)[i]?).getD (0, 0)) := by
      apply List.ext_getElem?
      intro k
      rw [List.getElem?_map]
      rcases Nat.lt_or_ge k (len r) with hk | hk
      · rw [List.getElem?_range hk, Option.map_some]
        rw [List.getElem?_eq_getElem (show k < (copiesOf dests r).length by rw [copiesOf_length h.dest hr]; exact hk)]; rfl
      · rw [List.getElem?_eq_none (show (copiesOf dests r).length ≤ k by rw [copiesOf_length h.dest hr]; exact hk),
          List.getElem?_eq_none (by simpa using hk)]; rfl
    have hperm : ((List.range (len r)).map (σ r)).Perm (List.range (len r)) := by
      apply isPermutation_perm
      refine ⟨by simp, ?_, ?_⟩
      · intro i hi
        obtain ⟨k, hk, rfl⟩ := List.mem_map.1 hi
        exact (hσ r k hr (List.mem_range.1 hk)).1
      · intro i j x hi hj
        rw [List.getElem?_map] at hi hj
        have hil : i < len r := by
          rcases Nat.lt_or_ge i (len r) with h | h
          · exact h
          · rw [List.getElem?_eq_none (by simpa using h)] at hi; simp at hi
        have hjl : j < len r := by
          rcases Nat.lt_or_ge j (len r) with h | h
          · exact h
          · rw [List.getElem?_eq_none (by simpa using h)] at hj; simp at hj
        rw [List.getElem?_range hil, Option.map_some] at hi
        rw [List.getElem?_range hjl, Option.map_some] at hj
        have e1 := Option.some.inj hi
        have e2 := Option.some.inj hj
        rw [← hστ r i hr hil, ← hστ r j hr hjl, e1, e2]
    rw [hmap, ← List.map_map.symm]
    conv_rhs => rw [hself]
    simp only [List.map_map] at *
    rw [← List.map_map]
    exact hperm.map _

/-- Ranks in ascending order are left where they are. -/
theorem rankSort_id {a pos fan uniq : List Nat} (h : RankSort a pos fan uniq) (hf : IsFan fan) (hp : IsPermutation pos a.length)
    (ha : a.Pairwise (· ≤ ·)) : pos = List.range a.length := by
  have hs : pos.Pairwise (· < ·) := by
    rw [List.pairwise_iff_getElem]
    intro i j hi hj hij
    have hil : i < a.length := by rw [← h.posLen]; exact hi
    have hjl : j < a.length := by rw [← h.posLen]; exact hj
    have ei := List.getElem?_eq_getElem hil
    have ej := List.getElem?_eq_getElem hjl
    obtain ⟨k, hk⟩ := List.getElem?_of_mem ((h.mem _).2 (List.mem_of_getElem? ei))
    obtain ⟨l, hl⟩ := List.getElem?_of_mem ((h.mem _).2 (List.mem_of_getElem? ej))
    have hkl := (List.getElem?_eq_some_iff.1 hk).1
    have hll := (List.getElem?_eq_some_iff.1 hl).1
    have fk := List.getElem?_eq_getElem (show k < fan.length by rw [h.fanLen]; omega)
    have fl := List.getElem?_eq_getElem (show l < fan.length by rw [h.fanLen]; omega)
    have p1 := h.posAt i k _ _ ei hk fk
    have p2 := h.posAt j l _ _ ej hl fl
    rw [List.getElem?_eq_getElem hi] at p1
    rw [List.getElem?_eq_getElem hj] at p2
    rw [Option.some.inj p1, Option.some.inj p2]
    -- the entries before `i`, and `i`, are before `j`
    have hcount : ((a.take i).count a[i]) + 1 ≤ (a.take j).count a[i] := by
      have h1 : (a.take (i + 1)).count a[i] = (a.take i).count a[i] + 1 := by
        rw [List.take_add_one, List.count_append, ei]
        simp
      rw [← h1]
      exact (List.take_sublist_take_left (show i + 1 ≤ j by omega)).count_le _
    rcases Nat.lt_or_ge a[i] a[j] with hlt | hge
    · have hkl2 : k < l := by
        rcases Nat.lt_trichotomy k l with hc | hc | hc
        · exact hc
        · subst hc
          have := Option.some.inj (hk.symm.trans hl)
          omega
        · have := List.pairwise_iff_getElem.1 h.sorted l k hll hkl hc
          rw [(List.getElem?_eq_some_iff.1 hk).2, (List.getElem?_eq_some_iff.1 hl).2] at this
          omega
      have hstep := h.fanStep k _ _ hk fk
      have hle := fan_le hf (show k + 1 ≤ l by omega) hstep fl
      have hc2 : (a.take j).count a[i] ≤ a.count a[i] := (List.take_sublist _ _).count_le _
      omega
    · have hle : a[i] ≤ a[j] := List.pairwise_iff_getElem.1 ha i j hil hjl hij
      have heq : a[j] = a[i] := by omega
      have hkl2 : k = l := by
        rw [heq] at hl
        have hn : uniq.Nodup := h.sorted.imp (fun h => Nat.ne_of_lt h)
        exact (List.getElem?_inj hkl hn).1 (hk.trans hl.symm)
      subst hkl2
      rw [heq]
      omega
  exact (isPermutation_perm hp).eq_of_pairwise (fun a b _ _ h1 h2 => absurd h1 (by omega)) hs List.pairwise_lt_range

/-- The plan of `balance`: every rank gets the elements it was assigned. If it was assigned them by ascending owner rank, they are ordered by
global number. -/
theorem balancePlan_spec (s : Nat → Nat → Sched) {n : Nat} {assigned : Nat → Remotes} {nelems : Nat → Nat} {globals : Nat → List Int}
    (hd : DestsOk n assigned nelems) (hg : ∀ r, r < n → (globals r).length = nelems r) :
    ∃ (D : Nat → Dist) (dests2 : Nat → Remotes) (order2 : Nat → List (Nat × Nat)) (fan : Nat → List Nat),
      balancePlan s (world n assigned) (world n nelems) (world n globals) = some (world n D) ∧
      CopyDist n dests2 nelems D order2 fan ∧ (∀ r, r < n → (copiesOf dests2 r).Perm (copiesOf assigned r)) ∧
      ∀ r, r < n → (assigned r).ranks.Pairwise (· ≤ ·) →
        (copiesOf dests2 r).Pairwise (fun e e' => ∀ a b, (globals e.1)[e.2]? = some a → (globals e'.1)[e'.2]? = some b → a ≤ b) := by
  obtain ⟨D, order, fan, c1, c2⟩ := newDist_spec s hd.size hd.rank hd.len hd.idx
  have C := c2.copyDist hd
  obtain ⟨keys, k1, k2, k3⟩ := exch_back_one C (fun r k => s r (k + 10)) globals hg
  obtain ⟨P, _, hP'⟩ := choose_world (n := n) (fun r => sortByKeys (keys r) 1)
    (fun r perm => sortByKeys (keys r) 1 = some perm ∧ IsStableSort (keys r) 1 (assigned r).ranks.length perm) (by
    intro r hr
    obtain ⟨perm, e1, e2⟩ := C02_sort_by_keys (keys r) 1 (assigned r).ranks.length ⟨by omega, by omega⟩ (by rw [k2 r hr, Nat.mul_one])
    exact ⟨perm, e1, e1, e2⟩)
  obtain ⟨dests2, order2, r1, r2, r3, r4⟩ := resort_spec C (fun r hr => (hP' r hr).2.1)
  refine ⟨_, dests2, order2, fan, ?_, r1, r4, ?_⟩
  · unfold balancePlan
    rw [c1, Option.bind_some]
    unfold setDestGlobals
    rw [k1, Option.bind_some, List.length_map, world_length]
    have : (List.range n).mapM (fun r => (((world n D).map Dist.invert)[r]?).bind (fun d => ((world n keys)[r]?).bind (fun keys =>
        (sortByKeys keys 1).map (fun perm => (⟨d.fwd, ⟨none, some perm, d.rev.msgs2content, d.rev.peers⟩⟩ : Dist))))) =
        some (world n (fun r => (⟨(D r).rev, ⟨none, some (P r), (D r).fwd.msgs2content, (D r).fwd.peers⟩⟩ : Dist))) := by
      apply mapM_range_some
      intro r hr
      rw [world_map, world_get _ hr, Option.bind_some, world_get _ hr, Option.bind_some, (hP' r hr).1]
      rfl
    rw [this, Option.map_some, world_map]
    rfl
  · intro r hr hsort
    obtain ⟨pos, q1, q2⟩ := c2.sort r hr
    have hpos := rankSort_id q2 (C.ok.wired.fwd r hr).fan ((C.ok.fwd r hr).perm pos q1) hsort
    have hat : ∀ i, i < (assigned r).ranks.length → ItemAt (D r).fwd i i := by
      intro i hi
      unfold ItemAt
      rw [q1]
      show pos[i]? = some i
      rw [hpos, List.getElem?_range hi]
    rw [List.pairwise_iff_getElem]
    intro k l hk hl hkl a b ha hb
    have hlen : (copiesOf dests2 r).length = (assigned r).ranks.length := by rw [(r4 r hr).length_eq, copiesOf_length hd hr]
    have hPl := (hP' r hr).2.1.1
    obtain ⟨c, hc⟩ : ∃ c, (P r)[k]? = some c := ⟨_, List.getElem?_eq_getElem (by omega)⟩
    obtain ⟨c', hc'⟩ : ∃ c, (P r)[l]? = some c := ⟨_, List.getElem?_eq_getElem (by omega)⟩
    have e1 := List.getElem?_eq_getElem hk
    have e2 := List.getElem?_eq_getElem hl
    rw [copiesOf_get, r3 r k c c hr hc (hat c ((hP' r hr).2.1.2.1 c (List.mem_of_getElem? hc)))] at e1
    rw [copiesOf_get, r3 r l c' c' hr hc' (hat c' ((hP' r hr).2.1.2.1 c' (List.mem_of_getElem? hc')))] at e2
    have v1 := (k3 r c _ _ hr e1).trans ha
    have v2 := (k3 r c' _ _ hr e2).trans hb
    rcases (hP' r hr).2.2 k l c c' hkl hc hc' with ⟨j, hj, _, x, y, x1, y1, hxy⟩ | ⟨heq, _⟩
    · obtain rfl : j = 0 := by omega
      rw [entry_one] at x1 y1
      rw [v1] at x1
      rw [v2] at y1
      rw [Option.some.inj x1, Option.some.inj y1]
      omega
    · have := heq 0 (by omega)
      rw [entry_one, entry_one, v1, v2] at this
      rw [Option.some.inj this]

/-- All elements, in the order of the ranks. -/
def allElems (n : Nat) (nents : Nat → Nat) : List (Nat × Nat) := (List.range n).flatMap (fun r => (List.range (nents r)).map (fun i => (r, i)))

/-- Rebalancing a mesh whose ranks own their elements, on two, four, eight … ranks, whatever the marks that the partitioner chooses: the
elements are dealt by repeated bisection, each rank then holds exactly the elements it was dealt, ordered by global number, each element is
on one rank, and everything is carried along as in any migration. -/
theorem C49_balance (s0 : List Bool → Nat → Nat → Sched) (s1 : Nat → Nat → Sched) (s : Nat → Nat → Nat → Sched)
    (mark : List Bool → List (List (Nat × Nat)) → List (List Int)) (hmark : ∀ path data, MarksFor data (mark path data))
    (deg : Nat → Nat) {k dim : Nat} (hk : 2 ^ k ≤ 2147483648)
    {mesh : Nat → OldLevel} (hA : ∀ d, d ≤ dim → (mesh d).Ok (2 ^ k)) (hL : ∀ d, d < dim → LowsOk (2 ^ k) (deg (d + 1)) (mesh (d + 1)) (mesh d))
    (hown : ∀ r i, r < 2 ^ k → i < (mesh dim).nents r → (mesh dim).owner (r, i) = some (r, i))
    (hsz : (allElems (2 ^ k) (mesh dim).nents).length < 2 ^ 31 - 1) :
    ∃ (dealt : Nat → List (Nat × Nat)) (copies : Nat → Nat → List (Nat × Nat)) (N : Nat → NewData),
      balanceMesh s0 s1 s mark deg (fun d => levelOf (2 ^ k) (mesh d)) dim =
        .ok ((List.range (dim + 1)).reverse.map (fun d => newLevelOf (2 ^ k) (N d))) ∧
      Bisected (world (2 ^ k) (fun r => (List.range ((mesh dim).nents r)).map (fun i => (r, i)))) (world (2 ^ k) dealt) ∧
      (∀ r, r < 2 ^ k → (copies dim r).Perm (dealt r)) ∧
      (∀ r, r < 2 ^ k → (copies dim r).Pairwise (fun e e' => ∀ a b, (mesh dim).global e = some a → (mesh dim).global e' = some b → a ≤ b)) ∧
      ((List.range (2 ^ k)).flatMap (copies dim)).Perm (allElems (2 ^ k) (mesh dim).nents) ∧
      (∀ d, d ≤ dim → LevelMigrated (2 ^ k) (mesh d) false (copies d) (N d)) ∧
      ∀ d, d < dim → LowsMigrated (2 ^ k) (deg (d + 1)) (mesh (d + 1)) (mesh d) (copies (d + 1)) (copies d) (N (d + 1)) := by
  let n := 2 ^ k
  have hAd := hA dim (Nat.le_refl _)
  let E : Nat → List (Nat × Nat) := fun r => (List.range ((mesh dim).nents r)).map (fun i => (r, i))
  have hstart : (levelOf n (mesh dim)).owners.map (fun o => o.ranks.zip o.idxs) = world n E := by
    show (world n _).map _ = _
    rw [world_map]
    apply world_congr
    intro r hr
    apply List.ext_getElem?
    intro i
    show (((mesh dim).ownRanks r).zip ((mesh dim).ownIdxs r))[i]? = ((List.range ((mesh dim).nents r)).map (fun i => (r, i)))[i]?
    rw [List.getElem?_map]
    rcases Nat.lt_or_ge i ((mesh dim).nents r) with hi | hi
    · rw [List.getElem?_range hi, Option.map_some, List.getElem?_zip_eq_some]
      have := hown r i hr hi
      unfold OldLevel.owner at this
      dsimp only at this
      cases h1 : ((mesh dim).ownRanks r)[i]? with
      | none => rw [h1] at this; cases this
      | some p =>
        cases h2 : ((mesh dim).ownIdxs r)[i]? with
        | none => rw [h1, h2] at this; cases this
        | some x =>
          rw [h1, h2] at this
          have := Option.some.inj this
          exact ⟨congrArg some (congrArg Prod.fst this), congrArg some (congrArg Prod.snd this)⟩
    · rw [List.getElem?_eq_none (show ((List.range _).length ≤ i) by simpa using hi), List.getElem?_eq_none (by
        rw [List.length_zip, hAd.ranksLen r hr, hAd.idxsLen r hr]
        omega)]
      rfl
  have hflat : (world n E).flatten = allElems n (mesh dim).nents := world_flatten n E
  obtain ⟨out, b1, b2⟩ := C24_bisect s0 mark hmark k hk [] (world n E) (world_length _ _) (by rw [hflat]; exact hsz)
  have hol : out.length = n := by rw [(C24_preserves b2).1, world_length]
  let dealt : Nat → List (Nat × Nat) := fun r => (out[r]?).getD []
  have hout : out = world n dealt := by
    have := as_world out []
    rw [hol] at this
    exact this
  have hmemOut : ∀ r, r < n → dealt r ∈ out := by
    intro r hr
    rw [hout]
    exact world_mem.2 ⟨r, hr, rfl⟩
  have hsub : ∀ r, r < n → (dealt r).Sublist (allElems n (mesh dim).nents) := by
    intro r hr
    rw [← hflat]
    exact C24_order b2 _ (hmemOut r hr)
  have hmemE : ∀ e ∈ allElems n (mesh dim).nents, e.1 < n ∧ e.2 < (mesh dim).nents e.1 := by
    intro e he
    unfold allElems at he
    obtain ⟨r, hr, he⟩ := List.mem_flatMap.1 he
    obtain ⟨i, hi, rfl⟩ := List.mem_map.1 he
    exact ⟨List.mem_range.1 hr, List.mem_range.1 hi⟩
  let assigned : Nat → Remotes := fun r => ⟨(dealt r).map Prod.fst, (dealt r).map Prod.snd⟩
  have hcop : ∀ r, copiesOf assigned r = dealt r := by
    intro r
    show ((dealt r).map Prod.fst).zip ((dealt r).map Prod.snd) = _
    rw [List.zip_map']
    simp
  have hd : DestsOk n assigned (mesh dim).nents := by
    refine ⟨hk, ?_, ?_, ?_⟩
    · intro r hr p hp
      obtain ⟨e, he, rfl⟩ := List.mem_map.1 hp
      exact (hmemE e ((hsub r hr).subset he)).1
    · intro r _
      simp [assigned]
    · intro r hr i p x h1 h2
      have : (copiesOf assigned r)[i]? = some (p, x) := by rw [copiesOf_get]; exact destOf_eq.2 ⟨h1, h2⟩
      rw [hcop] at this
      exact (hmemE _ ((hsub r hr).subset (List.mem_of_getElem? this))).2
  obtain ⟨D, dests2, order2, fan, p1, p2, p3, p4⟩ := balancePlan_spec s1 hd hAd.globalsLen
  obtain ⟨copies, N, m1, m2, m3, m4⟩ := migrateFrom_spec s .elemBased deg mesh dim hA hL p2
  have hperm : ∀ r, r < n → (copies dim r).Perm (dealt r) := by
    intro r hr
    rw [m2, ← hcop]
    exact p3 r hr
  refine ⟨dealt, copies, N, ?_, ?_, hperm, ?_, ?_, m3, m4⟩
  · unfold balanceMesh
    rw [hstart]
    have hlen : (levelOf n (mesh dim)).owners.length = n := world_length _ _
    rw [show (levelOf (2 ^ k) (mesh dim)).owners.length = 2 ^ k from hlen]
    rw [b1, Res.bind_ok]
    have : out.map (fun a => (⟨a.map Prod.fst, a.map Prod.snd⟩ : Remotes)) = world n assigned := by
      rw [hout, world_map]
    rw [this]
    show Res.ofOption ((balancePlan s1 (world n assigned) (world n (mesh dim).nents) (world n (mesh dim).globals)).bind _) = _
    rw [p1, Option.bind_some]
    unfold migrateMesh
    rw [m1]
    rfl
  · rw [← hout]; exact b2
  · intro r hr
    rw [m2]
    refine p4 r hr ?_
    show ((dealt r).map Prod.fst).Pairwise (· ≤ ·)
    have hs : ((allElems n (mesh dim).nents).map Prod.fst).Pairwise (· ≤ ·) := by
      unfold allElems
      rw [List.map_flatMap]
      have key : ∀ m, ((List.range m).flatMap (fun r => ((List.range ((mesh dim).nents r)).map (fun i => (r, i))).map Prod.fst)).Pairwise (· ≤ ·) ∧
          ∀ x ∈ (List.range m).flatMap (fun r => ((List.range ((mesh dim).nents r)).map (fun i => (r, i))).map Prod.fst), x < m := by
        intro m
        induction m with
        | zero => simp
        | succ m ih =>
          rw [List.range_succ, List.flatMap_append]
          have hlast : ∀ x ∈ [m].flatMap (fun r => ((List.range ((mesh dim).nents r)).map (fun i => (r, i))).map Prod.fst), x = m := by
            intro x hx
            simp at hx
            exact hx.2
          refine ⟨List.pairwise_append.2 ⟨ih.1, ?_, ?_⟩, ?_⟩
          · rw [List.pairwise_iff_getElem]
            intro i j hi hj _
            rw [hlast _ (List.getElem_mem hi), hlast _ (List.getElem_mem hj)]
          · intro x hx y hy
            rw [hlast y hy]
            have := ih.2 x hx
            omega
          · intro x hx
            rcases List.mem_append.1 hx with hx | hx
            · have := ih.2 x hx
              omega
            · rw [hlast x hx]
              omega
      exact (key n).1
    exact hs.sublist ((hsub r hr).map _)
  · have h1 : ((List.range n).flatMap (copies dim)).Perm ((List.range n).flatMap dealt) := by
      apply List.Perm.flatMap_left
      intro r hr
      exact hperm r (List.mem_range.1 hr)
    refine h1.trans ?_
    rw [← world_flatten, ← hout]
    have := (C24_preserves b2).2
    rw [hflat] at this
    exact this

/-- The condition on the order of the assigned elements is needed: the sorting numbers the elements as they were assigned, but the result is
used to number the messages. Two elements that a rank is assigned from rank 1 and then from rank 0 are not put in order. -/
theorem C49_plan_order_needed : ∃ (assigned : List Remotes) (globals : List (List Int)) (plan : List Dist) (got : List (List Int)),
    balancePlan (fun _ _ => Sched.serial) assigned [1, 1] globals = some plan ∧
    Dist.exch (fun _ _ => Sched.serial) (plan.map Dist.invert) 1 globals = some got ∧ ¬ ∀ l ∈ got, l.Pairwise (· ≤ ·) := by
  obtain ⟨plan, hp⟩ : ∃ plan, balancePlan (fun _ _ => Sched.serial) [⟨[1, 0], [0, 0]⟩, ⟨[], []⟩] [1, 1] [[5], [3]] = some plan :=
    Option.isSome_iff_exists.1 (by decide +kernel)
  refine ⟨[⟨[1, 0], [0, 0]⟩, ⟨[], []⟩], [[5], [3]], plan, [[5, 3], []], hp, ?_, by decide⟩
  have : (balancePlan (fun _ _ => Sched.serial) [⟨[1, 0], [0, 0]⟩, ⟨[], []⟩] [1, 1] [[5], [3]]).bind (fun plan =>
    Dist.exch (fun _ _ => Sched.serial) (plan.map Dist.invert) 1 ([[5], [3]] : List (List Int))) = some [[5, 3], []] := by decide +kernel
  rw [hp] at this
  exact this

/-! ## Example -/

/-- Rank 0 is told to take the edge of rank 1, and the other way round. -/
def swapMarks (data : List (List (Nat × Nat))) : List (List Int) := data.map (fun rows => rows.map (fun e => if e.1 = 0 then 1 else 0))

theorem swapMarks_for (data : List (List (Nat × Nat))) : MarksFor data (swapMarks data) := by
  refine ⟨by simp [swapMarks], ?_⟩
  intro r rows ms h1 h2
  unfold swapMarks at h2
  rw [List.getElem?_map, h1] at h2
  obtain rfl := Option.some.inj h2
  refine ⟨by simp, ?_⟩
  intro m hm
  obtain ⟨x, _, rfl⟩ := List.mem_map.1 hm
  split
  · exact Or.inr rfl
  · exact Or.inl rfl

example : ∃ (dealt : Nat → List (Nat × Nat)) (copies : Nat → Nat → List (Nat × Nat)) (N : Nat → NewData),
    balanceMesh (fun _ _ _ => Sched.serial) (fun _ _ => Sched.reversed) (fun _ _ _ => Sched.serial) (fun _ => swapMarks) (fun _ => 2)
      (fun d => levelOf (2 ^ 1) (exampleMesh d)) 1 = .ok ((List.range 2).reverse.map (fun d => newLevelOf (2 ^ 1) (N d))) ∧
    Bisected (world 2 (fun r => [(r, 0)])) (world 2 dealt) ∧ (∀ r, r < 2 → (copies 1 r).Perm (dealt r)) := by
  obtain ⟨dealt, copies, N, h1, h2, h3, _⟩ := C49_balance (fun _ _ _ => Sched.serial) (fun _ _ => Sched.reversed) (fun _ _ _ => Sched.serial)
    (fun _ => swapMarks) (fun _ data => swapMarks_for data) (fun _ => 2) (k := 1) (dim := 1) (by decide) exampleMesh_ok exampleMesh_lows
    (by
      intro r i hr hi
      have hi : i < 1 := hi
      obtain rfl : i = 0 := by omega
      rfl)
    (by decide)
  exact ⟨dealt, copies, N, h1, h2, h3⟩

end OmegaH
