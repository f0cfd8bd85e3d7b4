import Verif.Lemmas.Uniq
/-!
# One new copy per rank: `get_new_copies2old_owners`
-/
namespace OmegaH
open Spec

/-- The items of `dests2` are those of `dests` without repetitions, by global number of the roots. -/
structure UniqueCopies (n : Nat) (dests dests2 : Nat → Remotes) (globals : Nat → List Int) : Prop where
  same : ∀ r e, r < n → ((∃ i, destOf dests r i = some e) ↔ ∃ i, destOf dests2 r i = some e)
  once : ∀ r i j e, r < n → destOf dests2 r i = some e → destOf dests2 r j = some e → i = j
  sorted : ∀ (r i j p x q y : Nat) (a b : Int), r < n → i < j → destOf dests2 r i = some (p, x) → destOf dests2 r j = some (q, y) →
    (globals p)[x]? = some a → (globals q)[y]? = some b → a ≤ b

/-- What `uniqLocal_spec` says of one rank. -/
structure Kept (fan ranks sel uniq fan' : List Nat) : Prop where
  asc : sel.Pairwise (· < ·)
  mem : ∀ k, k ∈ sel ↔ ∃ a rk, InFan fan a k ∧ ranks[k]? = some rk ∧ ∀ k', k' < k → InFan fan a k' → ranks[k']? ≠ some rk
  len : uniq.length = sel.length
  rank : ∀ t k : Nat, sel[t]? = some k → uniq[t]? = ranks[k]?
  isFan : IsFan fan'
  fanLen : fan'.length = fan.length
  last : fan'.getLast? = some sel.length
  root : ∀ t k a : Nat, sel[t]? = some k → (InFan fan' a t ↔ InFan fan a k)

/-- Every member has a kept one with the same root and rank. -/
theorem Kept.find {fan ranks sel uniq fan' : List Nat} (h : Kept fan ranks sel uniq fan') {a k rk : Nat} (hin : InFan fan a k)
    (hk : ranks[k]? = some rk) : ∃ t : Nat, uniq[t]? = some rk ∧ InFan fan' a t := by
  have : ∃ k, InFan fan a k ∧ ranks[k]? = some rk ∧ ∀ k', k' < k → InFan fan a k' → ranks[k']? ≠ some rk := by
    induction k using Nat.strongRecOn with
    | ind k ih =>
      by_cases hex : ∃ k', k' < k ∧ InFan fan a k' ∧ ranks[k']? = some rk
      · obtain ⟨k', h1, h2, h3⟩ := hex
        exact ih k' h1 h2 h3
      · exact ⟨k, hin, hk, fun k' h1 h2 h3 => hex ⟨k', h1, h2, h3⟩⟩
  obtain ⟨k, h1, h2, h3⟩ := this
  obtain ⟨t, ht⟩ := List.getElem?_of_mem ((h.mem k).2 ⟨a, rk, h1, h2, h3⟩)
  exact ⟨t, by rw [h.rank t k ht, h2], (h.root t k a ht).2 h1⟩

theorem Kept.unique {fan ranks sel uniq fan' : List Nat} (hf : IsFan fan) (h : Kept fan ranks sel uniq fan') {a t t' rk : Nat}
    (h1 : uniq[t]? = some rk) (h2 : InFan fan' a t) (h3 : uniq[t']? = some rk) (h4 : InFan fan' a t') : t = t' := by
  have hl := (List.getElem?_eq_some_iff.1 h1).1
  have hl' := (List.getElem?_eq_some_iff.1 h3).1
  rw [h.len] at hl hl'
  have e := List.getElem?_eq_getElem hl
  have e' := List.getElem?_eq_getElem hl'
  rw [h.rank _ _ e] at h1
  rw [h.rank _ _ e'] at h3
  rw [h.root _ _ _ e] at h2
  rw [h.root _ _ _ e'] at h4
  obtain ⟨b, rk1, g1, g2, g3⟩ := (h.mem _).1 (List.mem_of_getElem? e)
  obtain ⟨b', rk2, g1', g2', g3'⟩ := (h.mem _).1 (List.mem_of_getElem? e')
  obtain rfl := inFan_unique hf g1 h2
  obtain rfl := inFan_unique hf g1' h4
  obtain rfl := Option.some.inj (g2.symm.trans h1)
  obtain rfl := Option.some.inj (g2'.symm.trans h3)
  have hnd : sel.Nodup := h.asc.imp (fun h => Nat.ne_of_lt h)
  rcases Nat.lt_trichotomy sel[t] sel[t'] with hlt | heq | hgt
  · exact absurd h1 (g3' _ hlt h2)
  · exact (List.getElem?_inj hl hnd).1 (by rw [e, e', heq])
  · exact absurd h3 (g3 _ hgt h4)

theorem newCopies_spec (s : Nat → Nat → Sched) {n : Nat} {dests : Nat → Remotes} {nroots : Nat → Nat} {D : Nat → Dist}
    {order : Nat → List (Nat × Nat)} {fan : Nat → List Nat} (h : CopyDist n dests nroots D order fan) (globals : Nat → List Int)
    (hg : ∀ p, p < n → (globals p).length = nroots p) :
    ∃ (D2 : Nat → Dist) (dests2 : Nat → Remotes) (order2 : Nat → List (Nat × Nat)) (fan2 : Nat → List Nat),
      newCopies2oldOwners s (world n D) (world n globals) = some (world n D2) ∧ CopyDist n dests2 nroots D2 order2 fan2 ∧
      UniqueCopies n dests dests2 globals := by
  -- the local part
  obtain ⟨W, w1, w2⟩ := choose_world (n := n)
    (fun r => ((world n D)[r]?).bind (fun d =>
      (d.invert.items2ranks (s r 0) (s r 1) (s r 2)).bind (fun ranks => (d.rev.roots2items).bind (fun fan =>
      uniqLocal (fun k => s r (k + 3)) fan ranks))))
    (fun r x => ∃ sel, Kept (fan r) ((order r).map Prod.fst) sel x.1 x.2) (by
    intro r hr
    obtain ⟨f1, f2, f3⟩ := h.fanOk r hr
    obtain ⟨sel, u, f', e, k1, k2, k3, k4, k5, k6, k7, k8⟩ := uniqLocal_spec (fun k => s r (k + 3)) (ranks := (order r).map Prod.fst) f1
      (by rw [f3, List.length_map])
    refine ⟨(u, f'), ?_, sel, k1, k2, k3, k4, k5, k6, k7, k8⟩
    rw [world_get _ hr, Option.bind_some, items2ranks_rev h _ _ _ hr, Option.bind_some, h.rroots r hr, Option.bind_some, e])
  let U : Nat → List Nat := fun r => (W r).1
  let F : Nat → List Nat := fun r => (W r).2
  have hK : ∀ r, r < n → ∃ sel, Kept (fan r) ((order r).map Prod.fst) sel (U r) (F r) := w2
  have hUF : ∀ r, r < n → IsFan (F r) ∧ (F r).length = nroots r + 1 ∧ (F r).getLast? = some (U r).length := by
    intro r hr
    obtain ⟨sel, k⟩ := hK r hr
    exact ⟨k.isFan, by rw [k.fanLen]; exact (h.fanOk r hr).2.1, by rw [k.last, k.len]⟩
  -- a kept use stands for a use
  have hUuse : ∀ p t r x : Nat, p < n → (U p)[t]? = some r → InFan (F p) x t → r < n ∧ ∃ i, destOf dests r i = some (p, x) := by
    intro p t r x hp ht hx
    obtain ⟨sel, k⟩ := hK p hp
    have hl := (List.getElem?_eq_some_iff.1 ht).1
    rw [k.len] at hl
    have e := List.getElem?_eq_getElem hl
    rw [k.rank _ _ e, List.getElem?_map] at ht
    rw [k.root _ _ _ e] at hx
    cases ho : (order p)[sel[t]]? with
    | none => rw [ho] at ht; simp at ht
    | some y =>
      rw [ho] at ht
      obtain ⟨r', i⟩ := y
      have ht : r' = r := Option.some.inj ht
      subst ht
      have hm := (h.mem p hp r' i).1 (List.mem_of_getElem? ho)
      exact ⟨hm.1, i, destOf_eq.2 ⟨hm.2, (h.group p hp _ r' i x ho).1 hx⟩⟩
  have hroot : ∀ p t : Nat, p < n → t < (U p).length → ∃ x, InFan (F p) x t ∧ x < nroots p := by
    intro p t hp ht
    obtain ⟨f1, f2, f3⟩ := hUF p hp
    have hl : (F p)[(F p).length - 1]? = some (U p).length := by rw [← List.getLast?_eq_getElem?]; exact f3
    obtain ⟨x, hx⟩ := inFan_cover f1 hl ht
    refine ⟨x, hx, ?_⟩
    have := (inFan_lt f1 hx hl).2
    omega
  have hUn : ∀ r, r < n → ∀ p ∈ U r, p < n := by
    intro r hr p hp
    obtain ⟨t, ht⟩ := List.getElem?_of_mem hp
    obtain ⟨x, hx, _⟩ := hroot r t hr (List.getElem?_eq_some_iff.1 ht).1
    exact (hUuse r t p x hr ht hx).1
  obtain ⟨D0, d1, d2⟩ := setDestRanks_spec (fun r k => s r (k + 7)) h.dest.size hUn
  -- with the offsets of the roots
  let D1 : Nat → Dist := fun r => (D0 r).setRoots2items (F r)
  have hfwdMsgs : ∀ r, r < n → MsgsOk n (D1 r).fwd (U r).length := by
    intro r hr
    have := d2.ok.wired.fwd r hr
    exact ⟨this.fan, this.len, this.last, this.nodup, this.rank⟩
  have hwired1 : Wired n D1 (fun r => (U r).length) (fun p => (arrivals n U p).length) :=
    ⟨hfwdMsgs, d2.ok.wired.rev, d2.ok.wired.mate, d2.ok.wired.size⟩
  have hfwd1 : ∀ r, r < n → DirOk (D1 r).fwd (U r).length (nroots r) := by
    intro r hr
    refine ⟨(d2.ok.fwd r hr).perm, ?_, fun hh => nomatch hh⟩
    intro f hf
    have : F r = f := Option.some.inj hf
    rw [← this]
    exact hUF r hr
  have hok1 : DistOk n D1 (fun r => (U r).length) (fun p => (arrivals n U p).length) nroots (fun p => (arrivals n U p).length) :=
    ⟨hwired1, hfwd1, d2.ok.rev⟩
  have hroute1 : ∀ p t r c : Nat, p < n → (Route D1 p t r c ↔ (arrivals n U r)[c]? = some (p, t)) :=
    fun p t r c hp => d2.route p t r c hp
  -- the keys
  obtain ⟨keys, o1, o2, o3⟩ := exch_spec (fun r k => s r (k + 9)) hok1 (w := 1) (by omega) globals
    (fun r hr => by rw [hg r hr, Nat.mul_one])
  have hk : ∀ r, r < n → (keys r).length = (arrivals n U r).length ∧
      ∀ c p t x : Nat, (arrivals n U r)[c]? = some (p, t) → InFan (F p) x t → (keys r)[c]? = (globals p)[x]? := by
    intro r hr
    refine ⟨by rw [o2 r hr, Nat.mul_one], ?_⟩
    intro c p t x hc hx
    have hp : p < n := (arrivals_mem (List.mem_of_getElem? hc)).1
    have := o3 p x t r c hp (by unfold RootOf; exact hx) ((hroute1 p t r c hp).2 hc) 0 (by omega)
    rw [entry_one, entry_one] at this
    exact this
  obtain ⟨P, _, p2'⟩ := choose_world (n := n) (fun r => sortByKeys (keys r) 1)
    (fun r perm => sortByKeys (keys r) 1 = some perm ∧ IsStableSort (keys r) 1 (arrivals n U r).length perm) (by
    intro r hr
    obtain ⟨perm, e1, e2⟩ := C02_sort_by_keys (keys r) 1 (arrivals n U r).length ⟨by omega, by omega⟩ (by rw [(hk r hr).1, Nat.mul_one])
    exact ⟨perm, e1, e1, e2⟩)
  have p2 := fun r hr => (p2' r hr).2
  let E : Nat → Dist := fun r => ⟨(D0 r).fwd, ⟨none, some (P r), (D0 r).rev.msgs2content, (D0 r).rev.peers⟩⟩
  obtain ⟨hoget, hoperm, hwiredE, hrouteE⟩ := reorder_spec d2 (D := E) (perm := P) (fun p hp => (p2 p hp).1)
    (fun r _ => ⟨rfl, rfl, rfl, rfl⟩)
  let ord := reorder (arrivals n U) P
  have hordlen : ∀ p, p < n → (ord p).length = (arrivals n U p).length := fun p hp => (hoperm p hp).length_eq
  -- the final pattern, from the old owners to the copies
  let E2 : Nat → Dist := fun r => ⟨(D1 r).fwd, ⟨none, some (P r), (D0 r).rev.msgs2content, (D0 r).rev.peers⟩⟩
  have hwiredE2 : Wired n E2 (fun r => (U r).length) (fun p => (ord p).length) :=
    ⟨hfwdMsgs, hwiredE.rev, hwiredE.mate, hwiredE.size⟩
  have hrouteE2 : ∀ p t r k : Nat, p < n → r < n → (Route E2 p t r k ↔ (ord r)[k]? = some (p, t)) :=
    fun p t r k hp hr => hrouteE p t r k hp hr
  have hokE2 : DistOk n E2 (fun r => (U r).length) (fun p => (ord p).length) nroots (fun p => (ord p).length) := by
    refine ⟨hwiredE2, hfwd1, ?_⟩
    intro r hr
    refine ⟨?_, fun _ hf => (nomatch hf), fun _ => rfl⟩
    intro q hq
    have : P r = q := Option.some.inj hq
    rw [← this, hordlen r hr]
    exact (p2 r hr).1
  -- the root of a kept use
  have : ∀ p t : Nat, ∃ x, p < n → t < (U p).length → InFan (F p) x t ∧ x < nroots p := by
    intro p t
    by_cases hc : p < n ∧ t < (U p).length
    · obtain ⟨x, hx⟩ := hroot p t hc.1 hc.2
      exact ⟨x, fun _ _ => hx⟩
    · exact ⟨0, fun h1 h2 => absurd ⟨h1, h2⟩ hc⟩
  choose rt hrt using this
  -- where a kept use goes
  have : ∀ p t : Nat, ∃ y : Nat × Nat, p < n → t < (U p).length → y.1 < n ∧ (ord y.1)[y.2]? = some (p, t) := by
    intro p t
    by_cases hc : p < n ∧ t < (U p).length
    · obtain ⟨r, k, hr, _, hroute⟩ := route_total hokE2 hc.1 hc.2
      exact ⟨(r, k), fun _ _ => ⟨hr, (hrouteE2 p t r k hc.1 hr).1 hroute⟩⟩
    · exact ⟨(0, 0), fun h1 h2 => absurd ⟨h1, h2⟩ hc⟩
  choose go hgo using this
  let dests2 : Nat → Remotes := fun r => ⟨(ord r).map Prod.fst, (ord r).map (fun y => rt y.1 y.2)⟩
  let order2 : Nat → List (Nat × Nat) := fun p => (List.range (U p).length).map (go p)
  have hordmem : ∀ r k p t : Nat, r < n → (ord r)[k]? = some (p, t) → p < n ∧ (U p)[t]? = some r := by
    intro r k p t hr hk
    exact arrivals_mem ((hoperm r hr).mem_iff.1 (List.mem_of_getElem? hk))
  have hdest2 : ∀ r k p x : Nat, destOf dests2 r k = some (p, x) ↔ ∃ t, (ord r)[k]? = some (p, t) ∧ x = rt p t := by
    intro r k p x
    rw [destOf_eq]
    show ((ord r).map Prod.fst)[k]? = some p ∧ ((ord r).map (fun y => rt y.1 y.2))[k]? = some x ↔ _
    rw [List.getElem?_map, List.getElem?_map]
    cases (ord r)[k]? with
    | none => simp
    | some y =>
      obtain ⟨p', t'⟩ := y
      simp only [Option.map_some, Option.some.injEq, Prod.mk.injEq]
      constructor
      · rintro ⟨rfl, rfl⟩; exact ⟨t', ⟨rfl, rfl⟩, rfl⟩
      · rintro ⟨t, ⟨rfl, rfl⟩, rfl⟩; exact ⟨rfl, rfl⟩
  have horder2 : ∀ p t r k : Nat, p < n → r < n → ((order2 p)[t]? = some (r, k) ↔ (ord r)[k]? = some (p, t)) := by
    intro p t r k hp hr
    show ((List.range (U p).length).map (go p))[t]? = some (r, k) ↔ _
    rw [List.getElem?_map]
    rcases Nat.lt_or_ge t (U p).length with ht | ht
    · rw [List.getElem?_range ht, Option.map_some]
      obtain ⟨g1, g2⟩ := hgo p t hp ht
      constructor
      · intro e
        rw [Option.some.inj e] at g2
        exact g2
      · intro e
        have a1 := (hrouteE2 p t _ _ hp g1).2 g2
        have a2 := (hrouteE2 p t r k hp hr).2 e
        obtain ⟨q1, q2⟩ := route_unique hokE2 hp a1 a2
        rw [show go p t = (r, k) from Prod.ext q1 q2]
    · rw [List.getElem?_eq_none (by simpa using ht)]
      constructor
      · intro e; simp at e
      · intro e
        have := (hordmem r k p t hr e).2
        have := (List.getElem?_eq_some_iff.1 this).1
        omega
  have hlen2 : ∀ p, (order2 p).length = (U p).length := by intro p; simp [order2]
  have hlenD : ∀ r, (dests2 r).ranks.length = (ord r).length := by intro r; simp [dests2]
  have hordget : ∀ p t r : Nat, p < n → (U p)[t]? = some r → ∃ k : Nat, (ord r)[k]? = some (p, t) := by
    intro p t r hp ht
    have hl := (List.getElem?_eq_some_iff.1 ht).1
    obtain ⟨g1, g2⟩ := hgo p t hp hl
    have := (hordmem _ _ _ _ g1 g2).2
    obtain rfl := Option.some.inj (ht.symm.trans this)
    exact ⟨_, g2⟩
  refine ⟨fun r => (E2 r).invert, dests2, order2, F, ?_, ?_, ?_⟩
  · unfold newCopies2oldOwners oldOwners2uniqUses
    rw [world_length, w1, Option.bind_some, world_map n W, world_map n W, d1, Option.map_some, Option.bind_some, world_zip, world_map]
    dsimp only
    show (setDestGlobals _ (world n D1) (world n globals)).map _ = _
    unfold setDestGlobals
    rw [o1, Option.bind_some, world_length]
    have : (List.range n).mapM (fun r => ((world n D1)[r]?).bind (fun d => ((world n keys)[r]?).bind (fun keys => (sortByKeys keys 1).map (fun perm =>
      (⟨d.fwd, ⟨none, some perm, d.rev.msgs2content, d.rev.peers⟩⟩ : Dist))))) = some (world n E2) := by
      apply mapM_range_some
      intro r hr
      show ((world n D1)[r]?).bind _ = _
      rw [world_get _ hr, Option.bind_some]
      show ((world n keys)[r]?).bind _ = _
      rw [world_get _ hr, Option.bind_some]
      rw [(p2' r hr).1]
      rfl
    rw [this, Option.map_some, world_map]
  · refine ⟨⟨h.dest.size, ?_, ?_, ?_⟩, ?_, ?_, ?_, ?_, ?_, ?_, ?_, ?_⟩
    · intro r hr p hp
      obtain ⟨⟨p', t⟩, hy, rfl⟩ := List.mem_map.1 hp
      obtain ⟨k, hk⟩ := List.getElem?_of_mem hy
      exact (hordmem r k p' t hr hk).1
    · intro r hr; simp [dests2]
    · intro r hr i p x hp hx
      obtain ⟨t, h1, rfl⟩ := (hdest2 r i p x).1 (destOf_eq.2 ⟨hp, hx⟩)
      obtain ⟨h2, h3⟩ := hordmem r i p t hr h1
      exact (hrt p t h2 (List.getElem?_eq_some_iff.1 h3).1).2
    · have := hokE2.invert
      refine ⟨⟨?_, ?_, this.wired.mate, this.wired.size⟩, ?_, ?_⟩
      · intro r hr; rw [hlenD]; exact this.wired.fwd r hr
      · intro r hr; rw [hlen2]; exact this.wired.rev r hr
      · intro r hr; rw [hlenD]; exact this.fwd r hr
      · intro r hr; rw [hlen2]; exact this.rev r hr
    · intro r _; rfl
    · intro r _; rfl
    · intro r hr
      obtain ⟨pos, q, _⟩ := d2.sort r hr
      exact ⟨pos, q⟩
    · intro r k p t hr hp
      rw [horder2 p t r k hp hr, ← hrouteE2 p t r k hp hr]
      constructor
      · intro hh
        exact route_invert hokE2.invert hr hh
      · intro hh
        exact route_invert hokE2 hp hh
    · intro p hp r k
      constructor
      · intro hm
        obtain ⟨t, ht⟩ := List.getElem?_of_mem hm
        have htl := (List.getElem?_eq_some_iff.1 ht).1
        rw [hlen2] at htl
        have hr : r < n := by
          have : (order2 p)[t]? = some (go p t) := by
            show ((List.range (U p).length).map (go p))[t]? = _
            rw [List.getElem?_map, List.getElem?_range htl]; rfl
          have e : go p t = (r, k) := Option.some.inj (this.symm.trans ht)
          have := (hgo p t hp htl).1
          rw [e] at this
          exact this
        have := (horder2 p t r k hp hr).1 ht
        refine ⟨hr, ?_⟩
        show ((ord r).map Prod.fst)[k]? = some p
        rw [List.getElem?_map, this]; rfl
      · rintro ⟨hr, hk⟩
        have hk : ((ord r).map Prod.fst)[k]? = some p := hk
        rw [List.getElem?_map] at hk
        cases ho : (ord r)[k]? with
        | none => rw [ho] at hk; simp at hk
        | some y =>
          obtain ⟨p', t⟩ := y
          rw [ho] at hk
          have hk : p' = p := Option.some.inj hk
          subst hk
          exact List.mem_of_getElem? ((horder2 p' t r k hp hr).2 ho)
    · intro p hp
      rw [hlen2]
      exact hUF p hp
    · intro p hp t r k x ht
      have htl := (List.getElem?_eq_some_iff.1 ht).1
      rw [hlen2] at htl
      have hr : r < n := by
        have : (order2 p)[t]? = some (go p t) := by
          show ((List.range (U p).length).map (go p))[t]? = _
          rw [List.getElem?_map, List.getElem?_range htl]; rfl
        have e : go p t = (r, k) := Option.some.inj (this.symm.trans ht)
        have := (hgo p t hp htl).1
        rw [e] at this
        exact this
      have ho := (horder2 p t r k hp hr).1 ht
      show _ ↔ ((ord r).map (fun y => rt y.1 y.2))[k]? = some x
      rw [List.getElem?_map, ho, Option.map_some, Option.some.injEq]
      have hin := (hrt p t hp htl).1
      constructor
      · intro hx; exact inFan_unique (hUF p hp).1 hin hx
      · intro hx
        rw [← hx]
        exact hin
  · refine ⟨?_, ?_, ?_⟩
    · rintro r ⟨p, x⟩ hr
      constructor
      · rintro ⟨i, hi⟩
        obtain ⟨a1, a2⟩ := destOf_eq.1 hi
        have hp := h.dest.rank r hr p (List.mem_of_getElem? a1)
        obtain ⟨k, hk⟩ := List.getElem?_of_mem ((h.mem p hp r i).2 ⟨hr, a1⟩)
        obtain ⟨sel, kk⟩ := hK p hp
        obtain ⟨t, t1, t2⟩ := kk.find ((h.group p hp k r i x hk).2 a2) (rk := r) (by rw [List.getElem?_map, hk]; rfl)
        obtain ⟨k2, hk2⟩ := hordget p t r hp t1
        refine ⟨k2, (hdest2 r k2 p x).2 ⟨t, hk2, ?_⟩⟩
        exact inFan_unique (hUF p hp).1 t2 (hrt p t hp (List.getElem?_eq_some_iff.1 t1).1).1
      · rintro ⟨k, hk⟩
        obtain ⟨t, h1, rfl⟩ := (hdest2 r k p x).1 hk
        obtain ⟨hp, hu⟩ := hordmem r k p t hr h1
        exact (hUuse p t r _ hp hu (hrt p t hp (List.getElem?_eq_some_iff.1 hu).1).1).2
    · rintro r i j ⟨p, x⟩ hr h1 h2
      obtain ⟨t, a1, a2⟩ := (hdest2 r i p x).1 h1
      obtain ⟨t', b1, b2⟩ := (hdest2 r j p x).1 h2
      obtain ⟨hp, hu⟩ := hordmem r i p t hr a1
      obtain ⟨_, hu'⟩ := hordmem r j p t' hr b1
      obtain ⟨sel, kk⟩ := hK p hp
      have i1 := (hrt p t hp (List.getElem?_eq_some_iff.1 hu).1).1
      have i2 := (hrt p t' hp (List.getElem?_eq_some_iff.1 hu').1).1
      rw [← a2] at i1
      rw [← b2] at i2
      obtain rfl := kk.unique (h.fanOk p hp).1 hu i1 hu' i2
      exact (route_unique hokE2 hp ((hrouteE2 p t r i hp hr).2 a1) ((hrouteE2 p t r j hp hr).2 b1)).2
    · intro r i j p x q y a b hr hij h1 h2 ha hb
      obtain ⟨t, a1, rfl⟩ := (hdest2 r i p x).1 h1
      obtain ⟨t', b1, rfl⟩ := (hdest2 r j q y).1 h2
      obtain ⟨hp, hu⟩ := hordmem r i p t hr a1
      obtain ⟨hq, hu'⟩ := hordmem r j q t' hr b1
      have i1 := (hrt p t hp (List.getElem?_eq_some_iff.1 hu).1).1
      have i2 := (hrt q t' hq (List.getElem?_eq_some_iff.1 hu').1).1
      have hPl : (P r).length = (ord r).length := by rw [hordlen r hr]; exact (p2 r hr).1.1
      have e1 := List.getElem?_eq_getElem (show i < (P r).length by rw [hPl]; exact (List.getElem?_eq_some_iff.1 a1).1)
      have e2 := List.getElem?_eq_getElem (show j < (P r).length by rw [hPl]; exact (List.getElem?_eq_some_iff.1 b1).1)
      have c1 := (hoget r i _ hr e1).symm.trans a1
      have c2 := (hoget r j _ hr e2).symm.trans b1
      have k1 := (hk r hr).2 _ _ _ _ c1 i1
      have k2 := (hk r hr).2 _ _ _ _ c2 i2
      rw [ha] at k1
      rw [hb] at k2
      rcases (p2 r hr).2 i j _ _ hij e1 e2 with ⟨w, hw, _, u, v, f1, f2, f3⟩ | ⟨f1, _⟩
      · obtain rfl : w = 0 := by omega
        rw [entry_one, k1] at f1
        rw [entry_one, k2] at f2
        obtain rfl := Option.some.inj f1
        obtain rfl := Option.some.inj f2
        omega
      · have := f1 0 (by omega)
        rw [entry_one, entry_one, k1, k2] at this
        have := Option.some.inj this
        omega

end OmegaH
