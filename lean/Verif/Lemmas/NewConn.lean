import Verif.Lemmas.NewCopies
/-!
# Connectivity of the new entities: `form_new_conn`
-/
namespace OmegaH
open Spec

theorem findCopy_spec (entRanks entIdxs : List Nat) (rank k : Nat) : ∀ es : List Nat,
    (∀ e ∈ es, e < entRanks.length ∧ (entRanks[e]? = some rank → entIdxs[e]? = some k)) →
    (∃ e ∈ es, entRanks[e]? = some rank) → findCopy entRanks entIdxs rank es = some (k : Int) := by
  intro es
  induction es with
  | nil => intro _ h; obtain ⟨e, he, _⟩ := h; cases he
  | cons e es ih =>
    intro h1 h2
    unfold findCopy
    obtain ⟨hl, hk⟩ := h1 e (by simp)
    have he := List.getElem?_eq_getElem hl
    rw [he, Option.bind_some]
    by_cases hq : entRanks[e] = rank
    · rw [if_pos hq, hk (by rw [he, hq])]; rfl
    · rw [if_neg hq]
      apply ih (fun e' he' => h1 e' (by simp [he']))
      obtain ⟨e', h3, h4⟩ := h2
      rcases List.mem_cons.1 h3 with rfl | h3
      · rw [he] at h4; exact absurd (Option.some.inj h4) hq
      · exact ⟨e', h3, h4⟩

theorem formNewConn_spec (s : Nat → Nat → Sched) {n : Nat} {dests dests2 : Nat → Remotes} {nroots : Nat → Nat} {D D2 : Nat → Dist}
    {order order2 : Nat → List (Nat × Nat)} {fan fan2 : Nat → List Nat} (h : CopyDist n dests nroots D order fan)
    (h2 : CopyDist n dests2 nroots D2 order2 fan2)
    (hsame : ∀ r i e, r < n → destOf dests r i = some e → ∃ k, destOf dests2 r k = some e)
    (honce : ∀ r i j e, r < n → destOf dests2 r i = some e → destOf dests2 r j = some e → i = j) :
    ∃ conn : Nat → List Int, formNewConn s (world n D2) ((world n D).map Dist.invert) = some (world n conn) ∧
      ∀ r, r < n → (conn r).length = (dests r).ranks.length ∧
        ∀ i e, destOf dests r i = some e → ∃ k : Nat, (conn r)[i]? = some (k : Int) ∧ destOf dests2 r k = some e := by
  unfold formNewConn
  rw [mapM_world D2 (fun d : Dist => d.nitems.map List.range) (fun r => List.range (dests2 r).ranks.length) (by
    intro r hr
    rw [nitems_of h2.ok hr]; rfl), Option.bind_some]
  obtain ⟨entIdxs, o1, o2⟩ := exch_items h2 s (fun r => List.range (dests2 r).ranks.length) (fun r _ => List.length_range)
  rw [o1, Option.bind_some, world_length, world_map n D]
  have hent : ∀ p t r k : Nat, p < n → (order2 p)[t]? = some (r, k) → (entIdxs p)[t]? = some k := by
    intro p t r k hp ht
    rw [o2 p t r k hp ht]
    have := ((h2.mem p hp r k).1 (List.mem_of_getElem? ht)).2
    exact List.getElem?_range (List.getElem?_eq_some_iff.1 this).1
  -- the use at a position and its copy
  have : ∀ p u : Nat, ∃ k : Nat, p < n → ∀ r i : Nat, (order p)[u]? = some (r, i) → ∃ x, destOf dests r i = some (p, x) ∧ destOf dests2 r k = some (p, x) := by
    intro p u
    by_cases hc : p < n ∧ u < (order p).length
    · obtain ⟨hp, hu⟩ := hc
      obtain ⟨⟨r, i⟩, hri⟩ : ∃ y, (order p)[u]? = some y := ⟨_, List.getElem?_eq_getElem hu⟩
      have hm := (h.mem p hp r i).1 (List.mem_of_getElem? hri)
      have hl := (List.getElem?_eq_some_iff.1 hm.2).1
      have hx := List.getElem?_eq_getElem (show i < (dests r).idxs.length by rw [h.dest.len r hm.1]; exact hl)
      have hd := destOf_eq.2 ⟨hm.2, hx⟩
      obtain ⟨k, hk⟩ := hsame r i _ hm.1 hd
      refine ⟨k, fun _ r' i' e => ?_⟩
      obtain ⟨rfl, rfl⟩ := Prod.mk.inj (Option.some.inj (hri.symm.trans e))
      exact ⟨_, hd, hk⟩
    · refine ⟨0, fun hp r i e => ?_⟩
      exact absurd ⟨hp, (List.getElem?_eq_some_iff.1 e).1⟩ hc
  choose K hK using this
  obtain ⟨X, x1, x2⟩ := choose_world (n := n)
    (fun r => ((world n D2)[r]?).bind (fun d => ((world n (fun r => (D r).invert))[r]?).bind (fun u => ((world n entIdxs)[r]?).bind (fun ix =>
      (d.invert.items2ranks (s r 4) (s r 5) (s r 6)).bind (fun entRanks =>
      (u.items2ranks (s r 7) (s r 8) (s r 9)).bind (fun useRanks =>
      (u.fwd.roots2items).bind (fun fanU => (d.rev.roots2items).bind (fun fanE =>
        connLocal (s r 10) fanE fanU entRanks ix useRanks))))))))
    (fun p out => out.length = (order p).length ∧ ∀ u, u < (order p).length → out[u]? = some ((K p u : Nat) : Int)) (by
    intro p hp
    obtain ⟨f1, f2, f3⟩ := h.fanOk p hp
    obtain ⟨g1, g2, g3⟩ := h2.fanOk p hp
    have hlast : (fan p)[(fan p).length - 1]? = some (order p).length := by rw [← List.getLast?_eq_getElem?]; exact f3
    have hlast2 : (fan2 p)[(fan2 p).length - 1]? = some (order2 p).length := by rw [← List.getLast?_eq_getElem?]; exact g3
    rw [world_get _ hp, Option.bind_some, world_get _ hp, Option.bind_some, world_get _ hp, Option.bind_some,
      items2ranks_rev h2 _ _ _ hp, Option.bind_some, items2ranks_rev h _ _ _ hp, Option.bind_some]
    show ∃ x, ((D p).rev.roots2items).bind _ = some x ∧ _
    rw [h.rroots p hp, Option.bind_some, h2.rroots p hp, Option.bind_some]
    unfold connLocal
    rw [List.length_map]
    refine parScatter_buildR (s p 10) ((fan2 p).length - 1) (order p).length _
      (fun a u v => InFan (fan p) a u ∧ v = ((K p u : Nat) : Int)) (fun u => some ((K p u : Nat) : Int)) ?_ ?_ ?_
    · intro a ha
      obtain ⟨es, e1, _, e3⟩ := fanMembers_spec ha
      obtain ⟨us, u1, _, u3⟩ := fanMembers_spec (o := fan p) (a := a) (by omega)
      rw [e1, Option.bind_some, u1, Option.bind_some]
      have hone : ∀ u ∈ us, ((((order p).map Prod.fst)[u]?).bind (fun rank =>
          (findCopy ((order2 p).map Prod.fst) (entIdxs p) rank es).map (fun v => (u, v)))) = some (u, ((K p u : Nat) : Int)) := by
        intro u hu
        have hin := (u3 u).1 hu
        have hul := (inFan_lt f1 hin hlast).1
        obtain ⟨⟨r, i⟩, hri⟩ : ∃ y, (order p)[u]? = some y := ⟨_, List.getElem?_eq_getElem hul⟩
        rw [List.getElem?_map, hri]
        show (findCopy _ _ r es).map _ = _
        have hr := ((h.mem p hp r i).1 (List.mem_of_getElem? hri)).1
        obtain ⟨x, d1, d2⟩ := hK p u hp r i hri
        have hxa := (h.group p hp u r i a hri).1 hin
        obtain rfl := Option.some.inj ((destOf_eq.1 d1).2.symm.trans hxa)
        rw [findCopy_spec _ _ r (K p u) es]
        · rfl
        · intro e he
          have hine := (e3 e).1 he
          have hel := (inFan_lt g1 hine hlast2).1
          refine ⟨by simpa using hel, ?_⟩
          intro her
          obtain ⟨⟨r', k'⟩, hrk⟩ : ∃ y, (order2 p)[e]? = some y := ⟨_, List.getElem?_eq_getElem hel⟩
          rw [List.getElem?_map, hrk] at her
          have her : r' = r := Option.some.inj her
          subst her
          have hd := destOf_eq.2 ⟨((h2.mem p hp r' k').1 (List.mem_of_getElem? hrk)).2, (h2.group p hp e r' k' x hrk).1 hine⟩
          rw [hent p e r' k' hp hrk, honce r' k' _ _ hr hd d2]
        · obtain ⟨q1, q2⟩ := destOf_eq.1 d2
          obtain ⟨t, ht⟩ := List.getElem?_of_mem ((h2.mem p hp r (K p u)).2 ⟨hr, q1⟩)
          refine ⟨t, (e3 t).2 ((h2.group p hp t r _ x ht).2 q2), ?_⟩
          rw [List.getElem?_map, ht]; rfl
      obtain ⟨ws, w1, _, w3, _⟩ := mapM_list_spec us (fun u => (((order p).map Prod.fst)[u]?).bind (fun rank =>
          (findCopy ((order2 p).map Prod.fst) (entIdxs p) rank es).map (fun v => (u, v)))) (by
        intro u hu
        rw [hone u hu]; rfl)
      refine ⟨ws, w1, ?_⟩
      intro u v
      rw [w3]
      constructor
      · rintro ⟨u', hu', e⟩
        rw [hone u' hu'] at e
        obtain ⟨rfl, rfl⟩ := Prod.mk.inj (Option.some.inj e)
        exact ⟨(u3 u').1 hu', rfl⟩
      · rintro ⟨hu, rfl⟩
        exact ⟨u, (u3 u).2 hu, hone u ((u3 u).2 hu)⟩
    · rintro a ha u v ⟨hin, rfl⟩
      exact ⟨(inFan_lt f1 hin hlast).1, rfl⟩
    · intro u hu
      obtain ⟨a, ha⟩ := inFan_cover f1 hlast hu
      exact ⟨a, by have := (inFan_lt f1 ha hlast).2; omega, _, ha, rfl⟩)
  rw [x1, Option.bind_some, world_map]
  -- back to the uses
  have hinv := h.ok.invert
  have hokI : DistOk n (fun r => (⟨{ (D r).rev with roots2items := none }, (D r).fwd⟩ : Dist)) (fun p => (order p).length)
      (fun r => (dests r).ranks.length) (fun p => (order p).length) (fun r => (dests r).ranks.length) := by
    refine ⟨⟨?_, hinv.wired.rev, hinv.wired.mate, hinv.wired.size⟩, ?_, hinv.rev⟩
    · intro r hr
      have := hinv.wired.fwd r hr
      exact ⟨this.fan, this.len, this.last, this.nodup, this.rank⟩
    · intro r hr
      refine ⟨(hinv.fwd r hr).perm, fun _ hf => (nomatch hf), fun _ => rfl⟩
  obtain ⟨conn, c1, c2, c3⟩ := exch_spec (fun r k => s r (k + 11)) hokI (w := 1) (by omega) X (fun p hp => by rw [(x2 p hp).1, Nat.mul_one])
  refine ⟨conn, c1, ?_⟩
  intro r hr
  refine ⟨by rw [c2 r hr, Nat.mul_one], ?_⟩
  rintro i ⟨p, x⟩ hd
  obtain ⟨hp, hx⟩ := destOf_eq.1 hd
  have hpn := h.dest.rank r hr p (List.mem_of_getElem? hp)
  obtain ⟨u, hu⟩ := List.getElem?_of_mem ((h.mem p hpn r i).2 ⟨hr, hp⟩)
  have hroute := route_invert h.ok hr ((h.route r i p u hr hpn).2 hu)
  have := c3 p u u r i hpn rfl hroute 0 (by omega)
  rw [entry_one, entry_one, (x2 p hpn).2 u (List.getElem?_eq_some_iff.1 hu).1] at this
  refine ⟨K p u, this, ?_⟩
  obtain ⟨x', d1, d2⟩ := hK p u hpn r i hu
  rw [hd] at d1
  rw [Option.some.inj d1]
  exact d2

end OmegaH
