import Verif.Model.Owners
import Verif.Spec.Owners
import Verif.Props.C07
import Verif.Lemmas.CopyDist
/-!
# C21: ownership is a consistent choice of one copy per entity
-/
namespace OmegaH
open Spec

/-- What the old owners see of the copies. -/
structure Server (n : Nat) (D : Nat → Dist) (order : Nat → List (Nat × Nat)) (idxs clients : Nat → List Nat) : Prop where
  idx : ∀ p k r i : Nat, p < n → (order p)[k]? = some (r, i) → (idxs p)[k]? = some i
  client : ∀ p k r i : Nat, p < n → (order p)[k]? = some (r, i) → ∃ c : Nat, (clients p)[k]? = some c ∧ (D p).rev.peers[c]? = some r

theorem server_spec {n : Nat} {dests : Nat → Remotes} {nroots : Nat → Nat} {D : Nat → Dist} {order : Nat → List (Nat × Nat)}
    {fan : Nat → List Nat} (h : CopyDist n dests nroots D order fan) (s : Nat → Nat → Sched) :
    ∃ idxs clients, serverArrays s (world n D) = some (world n idxs, world n clients) ∧ Server n D order idxs clients := by
  unfold serverArrays
  rw [mapM_world D (fun d : Dist => d.nitems.map List.range) (fun r => List.range (dests r).ranks.length) (by
    intro r hr
    rw [nitems_of h.ok hr]; rfl), Option.bind_some]
  obtain ⟨idxs, o1, o2⟩ := exch_items h s (fun r => List.range (dests r).ranks.length) (fun r _ => List.length_range)
  rw [o1, Option.bind_some, world_length]
  obtain ⟨clients, c1, c2⟩ := choose_world (n := n)
    (fun r => ((world n D)[r]?).bind (fun d => d.invert.items2msgs (s r 4) (s r 5)))
    (fun p out => ∀ k r i : Nat, (order p)[k]? = some (r, i) → ∃ c : Nat, out[k]? = some c ∧ (D p).rev.peers[c]? = some r) (by
    intro p hp
    obtain ⟨msgs, m1, _, m3⟩ := items2msgs_rev h (s p 4) (s p 5) hp
    exact ⟨msgs, by rw [world_get _ hp, Option.bind_some, m1], m3⟩)
  rw [c1]
  refine ⟨idxs, clients, rfl, ?_, ?_⟩
  · intro p k r i hp hk
    rw [o2 p k r i hp hk]
    have := (h.mem p hp r i).1 (List.mem_of_getElem? hk)
    exact List.getElem?_range (List.getElem?_eq_some_iff.1 this.2).1
  · intro p k r i hp hk
    exact c2 p hp k r i hk

theorem searchOwner_spec {order : List (Nat × Nat)} {clients ranks idxs : List Nat} {own : List Int}
    (hc : ∀ k r i : Nat, order[k]? = some (r, i) → ∃ c : Nat, clients[k]? = some c ∧ ranks[c]? = some r)
    (hi : ∀ k r i : Nat, order[k]? = some (r, i) → idxs[k]? = some i)
    (ho : ∀ k r i : Nat, order[k]? = some (r, i) → ∃ o, own[k]? = some o) :
    ∀ bs : List Nat, (∀ k ∈ bs, ∃ r i, order[k]? = some (r, i)) → ∃ v, searchOwner clients ranks own idxs bs = some v ∧
      ((∃ k ∈ bs, ∃ r i : Nat, order[k]? = some (r, i) ∧ own[k]? = some (r : Int) ∧ v = (i : Int)) ∨
       (v = -1 ∧ ∀ k ∈ bs, ∀ r i : Nat, order[k]? = some (r, i) → own[k]? ≠ some (r : Int))) := by
  intro bs
  induction bs with
  | nil => intro _; exact ⟨-1, rfl, Or.inr ⟨rfl, fun k hk => by simp at hk⟩⟩
  | cons k bs ih =>
    intro hb
    obtain ⟨r, i, hk⟩ := hb k List.mem_cons_self
    obtain ⟨c, c1, c2⟩ := hc k r i hk
    obtain ⟨o, ho⟩ := ho k r i hk
    unfold searchOwner
    rw [c1, Option.bind_some, c2, Option.bind_some, ho, Option.bind_some]
    by_cases ho' : o = (r : Int)
    · rw [if_pos ho', hi k r i hk]
      exact ⟨_, rfl, Or.inl ⟨k, List.mem_cons_self, r, i, hk, by rw [ho, ho'], rfl⟩⟩
    · rw [if_neg ho']
      obtain ⟨v, v1, v2⟩ := ih (fun k hk => hb k (List.mem_cons_of_mem _ hk))
      refine ⟨v, v1, ?_⟩
      rcases v2 with ⟨k', hk', r', i', h1, h2, h3⟩ | ⟨h1, h2⟩
      · exact Or.inl ⟨k', List.mem_cons_of_mem _ hk', r', i', h1, h2, h3⟩
      · refine Or.inr ⟨h1, ?_⟩
        intro k' hk' r' i' hk''
        rcases List.mem_cons.1 hk' with rfl | hk'
        · obtain ⟨rfl, rfl⟩ := Prod.mk.inj (Option.some.inj (hk.symm.trans hk''))
          rw [ho]
          intro he
          exact ho' (Option.some.inj he)
        · exact h2 k' hk' r' i' hk''

/-- `st` describes the best of the items `dn`. -/
def IsBest (size : Nat → Nat) (dn : List (Nat × Nat)) (st : Int × Int × Int) : Prop :=
  (dn = [] ∧ st = (-1, -1, -1)) ∨ ∃ q i : Nat, (q, i) ∈ dn ∧ st = ((q : Int), (size q : Int), (i : Int)) ∧
    ∀ q' i' : Nat, (q', i') ∈ dn → size q < size q' ∨ (size q = size q' ∧ q ≤ q')

theorem bestOwner_spec {order : List (Nat × Nat)} {clients ranks sizes idxs : List Nat} {size : Nat → Nat}
    (hc : ∀ k r i : Nat, order[k]? = some (r, i) → ∃ c : Nat, clients[k]? = some c ∧ ranks[c]? = some r)
    (hi : ∀ k r i : Nat, order[k]? = some (r, i) → idxs[k]? = some i)
    (hs : ∀ c r : Nat, ranks[c]? = some r → sizes[c]? = some (size r)) :
    ∀ (bs : List Nat) (dn : List (Nat × Nat)) (st : Int × Int × Int), (∀ k ∈ bs, ∃ r i, order[k]? = some (r, i)) → IsBest size dn st →
      ∃ st', bestOwner clients ranks sizes idxs bs st = some st' ∧ IsBest size (dn ++ bs.filterMap (fun k => order[k]?)) st' := by
  intro bs
  induction bs with
  | nil => intro dn st _ hst; exact ⟨st, rfl, by simpa using hst⟩
  | cons k bs ih =>
    intro dn st hb hst
    obtain ⟨r, i, hk⟩ := hb k List.mem_cons_self
    obtain ⟨c, c1, c2⟩ := hc k r i hk
    unfold bestOwner
    rw [c1, Option.bind_some, hs c r c2, Option.bind_some, c2, Option.bind_some]
    have hlist : dn ++ (k :: bs).filterMap (fun k => order[k]?) = (dn ++ [(r, i)]) ++ bs.filterMap (fun k => order[k]?) := by
      rw [List.filterMap_cons, hk, List.append_assoc]; rfl
    rw [hlist]
    by_cases hbetter : st.1 = -1 ∨ (size r : Int) < st.2.1 ∨ ((size r : Int) = st.2.1 ∧ (r : Int) < st.1)
    · rw [if_pos hbetter, hi k r i hk, Option.bind_some]
      refine ih _ _ (fun k hk => hb k (List.mem_cons_of_mem _ hk)) (Or.inr ⟨r, i, by simp, rfl, ?_⟩)
      intro q' i' hq'
      rcases List.mem_append.1 hq' with hq' | hq'
      · rcases hst with ⟨rfl, _⟩ | ⟨q, j, h1, rfl, h3⟩
        · simp at hq'
        · have := h3 q' i' hq'
          rcases hbetter with hb | hb | hb <;> simp only at hb <;> omega
      · obtain ⟨rfl, rfl⟩ := Prod.mk.inj (List.mem_singleton.1 hq')
        exact Or.inr ⟨rfl, Nat.le_refl _⟩
    · rw [if_neg hbetter]
      refine ih _ _ (fun k hk => hb k (List.mem_cons_of_mem _ hk)) ?_
      rcases hst with ⟨rfl, rfl⟩ | ⟨q, j, h1, rfl, h3⟩
      · exact absurd (Or.inl rfl) hbetter
      · refine Or.inr ⟨q, j, by simp [h1], rfl, ?_⟩
        intro q' i' hq'
        rcases List.mem_append.1 hq' with hq' | hq'
        · exact h3 q' i' hq'
        · obtain ⟨rfl, rfl⟩ := Prod.mk.inj (List.mem_singleton.1 hq')
          simp only at hbetter
          omega

theorem allgather_spec (s : Nat → Sched) {n : Nat} {D : Nat → Dist} {nf nr : Nat → Nat} (h : Wired n D nf nr) {α : Type} (x : Nat → α) :
    ∃ out : Nat → List α, neighborAllgather s (world n (fun r => (D r).plan)) (world n x) = some (world n out) ∧
      ∀ p c r : Nat, p < n → (D p).rev.peers[c]? = some r → (out p)[c]? = some (x r) := by
  let U : Nat → List Nat := fun r => (D r).fwd.peers
  let S : Nat → List Nat := fun r => (D r).rev.peers
  have hw : Wired n (unitDist U S) (fun r => (U r).length) (fun r => (S r).length) := by
    apply unitDist_wired
    · exact fun r hr => (h.fwd r hr).nodup
    · exact fun r hr => (h.fwd r hr).rank
    · exact fun r hr => (h.rev r hr).nodup
    · exact fun r hr => (h.rev r hr).rank
    · exact h.mate
  obtain ⟨out, o1, _, o3⟩ := alltoallv_spec s hw (w := 1) (by omega) (fun r => List.replicate (U r).length (x r))
    (fun r _ => by rw [List.length_replicate, Nat.mul_one])
  refine ⟨out, ?_, ?_⟩
  · unfold neighborAllgather
    rw [world_zip, world_map, world_map]
    exact o1
  · intro p c r hp hc
    have hr := (h.rev p hp).rank r (List.mem_of_getElem? hc)
    obtain ⟨i, hi⟩ := List.getElem?_of_mem ((h.mate r p hr hp).2 (List.mem_of_getElem? hc))
    have := o3 r i p c hr (unitDist_linked (U := U) (S := S) hi hc) 0 (by omega)
    rw [entry_one, entry_one] at this
    rw [this]
    have hil := (List.getElem?_eq_some_iff.1 hi).1
    rw [List.getElem?_replicate, if_pos hil]

/-- Without suggested ranks, `update_ownership` chooses for every entity one of its copies as owner, the same for all copies: one on a
rank with the fewest items and, among those, on the lowest rank. -/
theorem update_spec {n : Nat} {dests : Nat → Remotes} {nroots : Nat → Nat} {D' : Nat → Dist} {order : Nat → List (Nat × Nat)}
    {fan : Nat → List Nat} (hN : CopyDist n dests nroots D' order fan) (s' : Nat → Nat → Sched) :
    ∃ ranks idxs : Nat → List Int, updateOwnership s' (world n D') none = some (world n ranks, world n idxs) ∧
      (∀ r, r < n → (ranks r).length = (dests r).ranks.length ∧ (idxs r).length = (dests r).ranks.length) ∧
      OwnersOk n (destOf dests) ranks idxs ∧
      OwnersFewest n (destOf dests) (fun r => (dests r).ranks.length) ranks := by
  have h := hN.dest
  show ∃ ranks idxs : Nat → List Int, updateOwnershipSizes s' _ = _ ∧ _
  unfold updateOwnershipSizes
  obtain ⟨idxs, clients, e1, hS⟩ := server_spec hN s'
  rw [e1, Option.bind_some]
  dsimp only
  rw [mapM_world D' Dist.nitems (fun r => (dests r).ranks.length) (fun r hr => nitems_of hN.ok hr), Option.bind_some]
  obtain ⟨sizes, z1, z2⟩ := allgather_spec (fun r => s' r 6) hN.ok.wired (fun r => (dests r).ranks.length)
  rw [show (world n D').map Dist.plan = world n (fun r => (D' r).plan) from world_map _ _ _, z1, Option.bind_some, world_length]
  obtain ⟨own, w1, w2⟩ := choose_world (n := n)
    (fun r => ((world n D')[r]?).bind (fun d => (d.rev.roots2items).bind (fun fan =>
      ((world n idxs)[r]?).bind (fun ix => ((world n clients)[r]?).bind (fun cl => ((world n sizes)[r]?).bind (fun sz =>
      (parScatter (s' r 10) (fan.length - 1) (fun a => ((fanMembers fan a).bind (fun bs =>
        (bestOwner cl d.rev.peers sz ix bs (-1, -1, -1)).map (fun v => (v.1, v.2.2)))).map (fun v => [(a, v)])) (Mem.alloc (fan.length - 1))).bind Mem.toArray?))))))
    (fun p out => out.length = nroots p ∧ ∀ x r i : Nat, r < n → destOf dests r i = some (p, x) → ∃ q k : Nat, q < n ∧
      destOf dests q k = some (p, x) ∧ out[x]? = some ((q : Int), (k : Int)) ∧
      ∀ q' k' : Nat, q' < n → destOf dests q' k' = some (p, x) → (dests q).ranks.length < (dests q').ranks.length ∨
        ((dests q).ranks.length = (dests q').ranks.length ∧ q ≤ q')) (by
    intro p hp
    have hlen : (fan p).length - 1 = nroots p := by rw [(hN.fanOk p hp).2.1]; rfl
    have key : ∀ x, x < nroots p → ∃ bs st, fanMembers (fan p) x = some bs ∧
        bestOwner (clients p) (D' p).rev.peers (sizes p) (idxs p) bs (-1, -1, -1) = some st ∧
        IsBest (fun r => (dests r).ranks.length) (bs.filterMap (fun k => (order p)[k]?)) st ∧
        (∀ k ∈ bs, ∃ r i, r < n ∧ (order p)[k]? = some (r, i) ∧ destOf dests r i = some (p, x)) ∧
        ∀ r i, r < n → destOf dests r i = some (p, x) → ∃ k ∈ bs, (order p)[k]? = some (r, i) := by
      intro x hx
      obtain ⟨bs, b1, b2, b3⟩ := members_spec hN hp hx
      obtain ⟨st, t1, t2⟩ := bestOwner_spec (order := order p) (clients := clients p) (ranks := (D' p).rev.peers) (sizes := sizes p)
        (idxs := idxs p) (size := fun r => (dests r).ranks.length) (fun k r i hk => hS.client p k r i hp hk)
        (fun k r i hk => hS.idx p k r i hp hk) (fun c r hc => z2 p c r hp hc) bs [] (-1, -1, -1)
        (fun k hk => by obtain ⟨r, i, _, e, _⟩ := b2 k hk; exact ⟨r, i, e⟩) (Or.inl ⟨rfl, rfl⟩)
      exact ⟨bs, st, b1, t1, t2, b2, b3⟩
    obtain ⟨out, o1, o2, o3⟩ := parEach (s' p 10) ((fan p).length - 1) (fun a => (fanMembers (fan p) a).bind (fun bs =>
      (bestOwner (clients p) (D' p).rev.peers (sizes p) (idxs p) bs (-1, -1, -1)).map (fun v => (v.1, v.2.2)))) (by
        intro x hx
        obtain ⟨bs, st, b1, b2, _⟩ := key x (by omega)
        rw [b1, Option.bind_some, b2]; rfl)
    refine ⟨out, ?_, by omega, ?_⟩
    · rw [world_get _ hp, Option.bind_some, hN.rroots p hp, Option.bind_some, world_get _ hp, Option.bind_some, world_get _ hp,
        Option.bind_some, world_get _ hp, Option.bind_some]
      exact o1
    · intro x r i hr hx
      obtain ⟨d1, d2⟩ := destOf_eq.1 hx
      have hxl := h.idx r hr i p x d1 d2
      obtain ⟨bs, st, b1, b2, b3, b4, b5⟩ := key x hxl
      have hmem : ∀ q k : Nat, q < n → destOf dests q k = some (p, x) → (q, k) ∈ bs.filterMap (fun k => (order p)[k]?) := by
        intro q k hq hqk
        obtain ⟨j, j1, j2⟩ := b5 q k hq hqk
        exact List.mem_filterMap.2 ⟨j, j1, j2⟩
      rcases b3 with ⟨hnil, _⟩ | ⟨q, k, m1, rfl, m3⟩
      · have := hmem r i hr hx
        rw [hnil] at this
        simp at this
      · obtain ⟨j, j1, j2⟩ := List.mem_filterMap.1 m1
        obtain ⟨q', k', g1, g2, g3⟩ := b4 j j1
        obtain ⟨rfl, rfl⟩ := Prod.mk.inj (Option.some.inj (j2.symm.trans g2))
        refine ⟨q, k, g1, g3, ?_, ?_⟩
        · rw [o3 x (by omega), b1, Option.bind_some, b2]; rfl
        · intro q' k' hq' hk'
          exact m3 q' k' (hmem q' k' hq' hk'))
  rw [w1, Option.bind_some, world_map n own, world_map n own]
  obtain ⟨ranks, r1, r0, r2⟩ := exch_back_one hN (fun r k => s' r (k + 11)) (fun p => (own p).map Prod.fst)
    (fun p hp => by rw [List.length_map]; exact (w2 p hp).1)
  obtain ⟨oidxs, i1, i0, i2⟩ := exch_back_one hN (fun r k => s' r (k + 15)) (fun p => (own p).map Prod.snd)
    (fun p hp => by rw [List.length_map]; exact (w2 p hp).1)
  rw [r1, Option.bind_some, i1]
  have hend : ∀ p x r i : Nat, r < n → destOf dests r i = some (p, x) → ∃ q k : Nat, q < n ∧ destOf dests q k = some (p, x) ∧
      (∀ r' i' : Nat, r' < n → destOf dests r' i' = some (p, x) →
        (ranks r')[i']? = some (q : Int) ∧ (oidxs r')[i']? = some (k : Int)) ∧
      ∀ q' k' : Nat, q' < n → destOf dests q' k' = some (p, x) → (dests q).ranks.length < (dests q').ranks.length ∨
        ((dests q).ranks.length = (dests q').ranks.length ∧ q ≤ q') := by
    intro p x r i hr hx
    have hp := h.rank r hr p (List.mem_of_getElem? (destOf_eq.1 hx).1)
    obtain ⟨q, k, h1, h2, h3, h4⟩ := (w2 p hp).2 x r i hr hx
    refine ⟨q, k, h1, h2, ?_, h4⟩
    intro r' i' hr' hx'
    rw [r2 r' i' p x hr' hx', i2 r' i' p x hr' hx', List.getElem?_map, List.getElem?_map, h3]
    exact ⟨rfl, rfl⟩
  refine ⟨ranks, oidxs, rfl, fun r hr => ⟨r0 r hr, i0 r hr⟩, ?_, ?_⟩
  · rintro ⟨p, x⟩ r i hr hx
    obtain ⟨q, k, h1, h2, h3, _⟩ := hend p x r i hr hx
    exact ⟨q, k, h1, h2, h3⟩
  · rintro ⟨p, x⟩ r i q0 hr hx hq0 q' k' hq' hk'
    obtain ⟨q, k, h1, h2, h3, h4⟩ := hend p x r i hr hx
    have := Option.some.inj ((h3 r i hr hx).1.symm.trans hq0)
    obtain rfl : q = q0 := by omega
    exact h4 q' k' hq' hk'

/-- With suggested ranks on which the copies agree, the ranks are returned as they are. If a copy is on the suggested rank, that copy
becomes the owner of all copies. If none is, every copy gets the index -1. -/
theorem update_suggested_spec {n : Nat} {dests : Nat → Remotes} {nroots : Nat → Nat} {D' : Nat → Dist} {order : Nat → List (Nat × Nat)}
    {fan : Nat → List Nat} (hN : CopyDist n dests nroots D' order fan) (s' : Nat → Nat → Sched) (own : Nat → List Int)
    (hown : ∀ r, r < n → (own r).length = (dests r).ranks.length) (hagree : Agreed n (destOf dests) own) :
    ∃ idxs : Nat → List Int, updateOwnership s' (world n D') (some (world n own)) = some (world n own, world n idxs) ∧
      (∀ r, r < n → (idxs r).length = (dests r).ranks.length) ∧
      (∀ e, Available n (destOf dests) own e → ∃ q k : Nat, q < n ∧ destOf dests q k = some e ∧
        ∀ r' i' : Nat, r' < n → destOf dests r' i' = some e → (own r')[i']? = some (q : Int) ∧ (idxs r')[i']? = some (k : Int)) ∧
      (∀ e, ¬ Available n (destOf dests) own e → ∀ r i : Nat, r < n → destOf dests r i = some e → (idxs r)[i]? = some (-1)) := by
  have h := hN.dest
  show ∃ idxs : Nat → List Int, updateOwnershipRanks s' _ _ = _ ∧ _
  unfold updateOwnershipRanks
  obtain ⟨idxs, clients, e1, hS⟩ := server_spec hN s'
  rw [e1, Option.bind_some]
  dsimp only
  obtain ⟨serv, z1, z2⟩ := exch_items hN (fun r k => s' r (k + 6)) own hown
  rw [z1, Option.bind_some, world_length]
  have hget : ∀ r i p x : Nat, r < n → destOf dests r i = some (p, x) → ∃ o, (own r)[i]? = some o := by
    intro r i p x hr hx
    have := (List.getElem?_eq_some_iff.1 (destOf_eq.1 hx).1).1
    exact ⟨_, List.getElem?_eq_getElem (by rw [hown r hr]; exact this)⟩
  obtain ⟨res, w1, w2⟩ := choose_world (n := n)
    (fun r => ((world n D')[r]?).bind (fun d => (d.rev.roots2items).bind (fun fan =>
      ((world n idxs)[r]?).bind (fun ix => ((world n clients)[r]?).bind (fun cl => ((world n serv)[r]?).bind (fun ow =>
      (parScatter (s' r 10) (fan.length - 1) (fun a => ((fanMembers fan a).bind (fun bs =>
        searchOwner cl d.rev.peers ow ix bs)).map (fun v => [(a, v)])) (Mem.alloc (fan.length - 1))).bind Mem.toArray?))))))
    (fun p out => out.length = nroots p ∧ ∀ x, x < nroots p →
      (∃ q k : Nat, q < n ∧ destOf dests q k = some (p, x) ∧ (own q)[k]? = some (q : Int) ∧ out[x]? = some (k : Int)) ∨
      (out[x]? = some (-1) ∧ ¬ Available n (destOf dests) own (p, x))) (by
    intro p hp
    have hlen : (fan p).length - 1 = nroots p := by rw [(hN.fanOk p hp).2.1]; rfl
    have key : ∀ x, x < nroots p → ∃ bs v, fanMembers (fan p) x = some bs ∧
        searchOwner (clients p) (D' p).rev.peers (serv p) (idxs p) bs = some v ∧
        ((∃ q k : Nat, q < n ∧ destOf dests q k = some (p, x) ∧ (own q)[k]? = some (q : Int) ∧ v = (k : Int)) ∨
          (v = -1 ∧ ¬ Available n (destOf dests) own (p, x))) := by
      intro x hx
      obtain ⟨bs, b1, b2, b3⟩ := members_spec hN hp hx
      obtain ⟨v, t1, t2⟩ := searchOwner_spec (order := order p) (clients := clients p) (ranks := (D' p).rev.peers) (own := serv p)
        (idxs := idxs p) (fun k r i hk => hS.client p k r i hp hk) (fun k r i hk => hS.idx p k r i hp hk)
        (fun k r i hk => by
          have hm := (hN.mem p hp r i).1 (List.mem_of_getElem? hk)
          have hl := (List.getElem?_eq_some_iff.1 hm.2).1
          exact ⟨_, by rw [z2 p k r i hp hk]; exact List.getElem?_eq_getElem (by rw [hown r hm.1]; exact hl)⟩) bs
        (fun k hk => by obtain ⟨r, i, _, e, _⟩ := b2 k hk; exact ⟨r, i, e⟩)
      refine ⟨bs, v, b1, t1, ?_⟩
      rcases t2 with ⟨k, hk, r, i, f1, f2, f3⟩ | ⟨f1, f2⟩
      · obtain ⟨r', i', g1, g2, g3⟩ := b2 k hk
        obtain ⟨rfl, rfl⟩ := Prod.mk.inj (Option.some.inj (f1.symm.trans g2))
        exact Or.inl ⟨r, i, g1, g3, by rw [← z2 p k r i hp f1]; exact f2, f3⟩
      · refine Or.inr ⟨f1, ?_⟩
        rintro ⟨q, k, g1, g2, g3⟩
        obtain ⟨j, j1, j2⟩ := b3 q k g1 g2
        exact f2 j j1 q k j2 (by rw [z2 p j q k hp j2]; exact g3)
    obtain ⟨out, o1, o2, o3⟩ := parEach (s' p 10) ((fan p).length - 1) (fun a => (fanMembers (fan p) a).bind (fun bs =>
      searchOwner (clients p) (D' p).rev.peers (serv p) (idxs p) bs)) (by
        intro x hx
        obtain ⟨bs, st, b1, b2, _⟩ := key x (by omega)
        rw [b1, Option.bind_some, b2]; rfl)
    refine ⟨out, ?_, by omega, ?_⟩
    · rw [world_get _ hp, Option.bind_some, hN.rroots p hp, Option.bind_some, world_get _ hp, Option.bind_some, world_get _ hp,
        Option.bind_some, world_get _ hp, Option.bind_some]
      exact o1
    · intro x hx
      obtain ⟨bs, v, b1, b2, b3⟩ := key x hx
      have hv : out[x]? = some v := by rw [o3 x (by omega), b1, Option.bind_some, b2]
      rcases b3 with ⟨q, k, g1, g2, g3, rfl⟩ | ⟨rfl, g⟩
      · exact Or.inl ⟨q, k, g1, g2, g3, hv⟩
      · exact Or.inr ⟨hv, g⟩)
  rw [w1, Option.bind_some]
  obtain ⟨oidxs, i1, i0, i2⟩ := exch_back_one hN (fun r k => s' r (k + 11)) res (fun p hp => (w2 p hp).1)
  rw [i1]
  refine ⟨oidxs, rfl, i0, ?_, ?_⟩
  · rintro ⟨p, x⟩ hav
    obtain ⟨q0, k0, f1, f2, f3⟩ := hav
    obtain ⟨d1, d2⟩ := destOf_eq.1 f2
    have hp := h.rank q0 f1 p (List.mem_of_getElem? d1)
    rcases (w2 p hp).2 x (h.idx q0 f1 k0 p x d1 d2) with ⟨q, k, g1, g2, g3, g4⟩ | ⟨_, g⟩
    · refine ⟨q, k, g1, g2, ?_⟩
      intro r' i' hr' hx'
      refine ⟨?_, by rw [i2 r' i' p x hr' hx']; exact g4⟩
      rw [hagree (p, x) r' i' q k hr' g1 hx' g2]
      exact g3
    · exact absurd ⟨q0, k0, f1, f2, f3⟩ g
  · rintro ⟨p, x⟩ hav r i hr hx
    obtain ⟨d1, d2⟩ := destOf_eq.1 hx
    have hp := h.rank r hr p (List.mem_of_getElem? d1)
    rw [i2 r i p x hr hx]
    rcases (w2 p hp).2 x (h.idx r hr i p x d1 d2) with ⟨q, k, g1, g2, g3, g4⟩ | ⟨g, _⟩
    · exact absurd ⟨q, k, g1, g2, g3⟩ hav
    · exact g

/-- Without suggested ranks, `update_ownership` chooses for every entity one of its copies as owner, the same for all copies: one on a
rank with the fewest items and, among those, on the lowest rank. -/
theorem C21_update {s : Nat → Nat → Sched} {n : Nat} {dests : Nat → Remotes} {nroots : Nat → Nat} (h : DestsOk n dests nroots)
    {D : List Dist} (hD : newDist s (world n dests) (world n nroots) = some D) (s' : Nat → Nat → Sched) :
    ∃ ranks idxs : Nat → List Int, updateOwnership s' D none = some (world n ranks, world n idxs) ∧
      (∀ r, r < n → (ranks r).length = (dests r).ranks.length ∧ (idxs r).length = (dests r).ranks.length) ∧
      OwnersOk n (destOf dests) ranks idxs ∧
      OwnersFewest n (destOf dests) (fun r => (dests r).ranks.length) ranks := by
  obtain ⟨D', order, fan, rfl, hN⟩ := copyDist_of h hD
  exact update_spec hN s'

/-- With suggested ranks on which the copies agree, the ranks are returned as they are. If a copy is on the suggested rank, that copy
becomes the owner of all copies. If none is, every copy gets the index -1. -/
theorem C21_update_suggested {s : Nat → Nat → Sched} {n : Nat} {dests : Nat → Remotes} {nroots : Nat → Nat} (h : DestsOk n dests nroots)
    {D : List Dist} (hD : newDist s (world n dests) (world n nroots) = some D) (s' : Nat → Nat → Sched) (own : Nat → List Int)
    (hown : ∀ r, r < n → (own r).length = (dests r).ranks.length) (hagree : Agreed n (destOf dests) own) :
    ∃ idxs : Nat → List Int, updateOwnership s' D (some (world n own)) = some (world n own, world n idxs) ∧
      (∀ r, r < n → (idxs r).length = (dests r).ranks.length) ∧
      (∀ e, Available n (destOf dests) own e → ∃ q k : Nat, q < n ∧ destOf dests q k = some e ∧
        ∀ r' i' : Nat, r' < n → destOf dests r' i' = some e → (own r')[i']? = some (q : Int) ∧ (idxs r')[i']? = some (k : Int)) ∧
      (∀ e, ¬ Available n (destOf dests) own e → ∀ r i : Nat, r < n → destOf dests r i = some e → (idxs r)[i]? = some (-1)) := by
  obtain ⟨D', order, fan, rfl, hN⟩ := copyDist_of h hD
  exact update_suggested_spec hN s' own hown hagree

/-- Two descriptions of the items have the same copies. -/
def SameCopies {E F : Type} (n : Nat) (ent : Nat → Nat → Option E) (ent' : Nat → Nat → Option F) : Prop :=
  ∀ r i e, r < n → ent' r i = some e → ∃ d, ent r i = some d ∧ ∀ r' i', r' < n → (ent r' i' = some d ↔ ent' r' i' = some e)

theorem SameCopies.owners {E F : Type} {n : Nat} {ent : Nat → Nat → Option E} {ent' : Nat → Nat → Option F} (h : SameCopies n ent ent')
    {ranks idxs : Nat → List Int} (ho : OwnersOk n ent ranks idxs) : OwnersOk n ent' ranks idxs := by
  intro e r i hr he
  obtain ⟨d, d1, d2⟩ := h r i e hr he
  obtain ⟨q, k, q1, q2, q3⟩ := ho d r i hr d1
  exact ⟨q, k, q1, (d2 q k q1).1 q2, fun r' i' hr' he' => q3 r' i' hr' ((d2 r' i' hr').2 he')⟩

theorem SameCopies.fewest {E F : Type} {n : Nat} {ent : Nat → Nat → Option E} {ent' : Nat → Nat → Option F} (h : SameCopies n ent ent')
    {ranks : Nat → List Int} {size : Nat → Nat} (ho : OwnersFewest n ent size ranks) : OwnersFewest n ent' size ranks := by
  intro e r i q hr he hq q' k' hq' hk'
  obtain ⟨d, d1, d2⟩ := h r i e hr he
  exact ho d r i q hr d1 hq q' k' hq' ((d2 q' k' hq').2 hk')

/-- The linear partition as a communication pattern: where every global number goes and what every rank gets. -/
theorem linear_full (s : Nat → Nat → Sched) {n T : Nat} (hn : 0 < n) (hn' : n < 2 ^ 31) (globals : Nat → List Nat)
    (hT : ∀ r, r < n → ∀ g ∈ globals r, g < T) (hsz : T / n + 1 < 2 ^ 31) :
    ∃ (dests : Nat → Remotes) (nroots : Nat → Nat) (total : Nat), DestsOk n dests nroots ∧
      copiesToLinearOwners s (world n (fun r => (globals r).map Int.ofNat)) =
        newDist (fun r k => s r (k + 1)) (world n dests) (world n nroots) ∧
      (∀ r, r < n → (dests r).ranks.length = (globals r).length) ∧
      SameCopies n (destOf dests) (fun r i => (globals r)[i]?) ∧
      findTotalGlobals (world n (fun r => (globals r).map Int.ofNat)) = (total : Int) ∧ total ≤ T ∧ Balanced nroots total n ∧
      (∀ r : Nat, r < n → linearPartitionSize total n r = some (nroots r : Int)) ∧
      ∀ r (k g : Nat), r < n → (globals r)[k]? = some g → ∃ p x : Nat, destOf dests r k = some (p, x) ∧ p < n ∧ x < nroots p ∧
        g = globalOf nroots p x := by
  have hnn : ∀ l ∈ world n (fun r => (globals r).map Int.ofNat), ∀ g ∈ l, 0 ≤ g := by
    intro l hl g hg
    obtain ⟨r, _, rfl⟩ := List.mem_map.1 hl
    obtain ⟨v, _, rfl⟩ := List.mem_map.1 hg
    exact Int.natCast_nonneg v
  obtain ⟨f1, f2⟩ := C07_find_total_globals _ hnn
  obtain ⟨total, htot⟩ : ∃ total : Nat, findTotalGlobals (world n (fun r => (globals r).map Int.ofNat)) = (total : Int) := by
    refine ⟨(findTotalGlobals (world n (fun r => (globals r).map Int.ofNat))).toNat, ?_⟩
    rcases f2 with ⟨h0, _⟩ | ⟨l, hl, hm⟩
    · rw [h0]; rfl
    · have := hnn l hl _ hm
      omega
  rw [htot] at f1 f2
  have htT : total ≤ T := by
    rcases f2 with ⟨h0, _⟩ | ⟨l, hl, hm⟩
    · omega
    · obtain ⟨r, hr, rfl⟩ := List.mem_map.1 hl
      obtain ⟨v, hv, hv'⟩ := List.mem_map.1 hm
      have := hT r (List.mem_range.1 hr) v hv
      have hv' : (v : Int) = (total : Int) - 1 := hv'
      omega
  have hg : ∀ r, r < n → ∀ g ∈ globals r, g < total := by
    intro r hr g hgm
    have := f1 _ (List.mem_map.2 ⟨r, List.mem_range.2 hr, rfl⟩) (Int.ofNat g) (List.mem_map.2 ⟨g, hgm, rfl⟩)
    have this : (g : Int) < (total : Int) := this
    omega
  have hsz' : total / n + 1 < 2 ^ 31 := by
    have := Nat.div_le_div_right (c := n) htT
    omega
  obtain ⟨size, hbal, hsize⟩ := C07_partition_sizes total n hn hn' hsz'
  have hbij := (C07_deal_bijection size total n hbal).2.1
  obtain ⟨dests, d1, d2⟩ := choose_world (n := n)
    (fun r => ((world n (fun r => (globals r).map Int.ofNat))[r]?).bind (fun g =>
      (globalsToLinearOwners (s r 0) g total n).bind (fun os =>
      (toIndices? (os.map Prod.fst)).bind (fun ranks => (toIndices? (os.map Prod.snd)).map (fun idxs =>
        (⟨ranks, idxs⟩ : Remotes))))))
    (fun r d => d.ranks.length = (globals r).length ∧ d.idxs.length = (globals r).length ∧
      ∀ k g : Nat, (globals r)[k]? = some g → ∃ p x : Nat, d.ranks[k]? = some p ∧ d.idxs[k]? = some x ∧ p < n ∧ x < size p ∧
        g = globalOf size p x) (by
    intro r hr
    obtain ⟨size', out, o1, o2, o3, o4⟩ := C07_linear_owners (s r 0) (globals r) total n hn hn' hsz' (hg r hr)
    have hsame : ∀ q, q < n → size' q = size q := by
      intro q hq
      have := Option.some.inj ((o3 q hq).symm.trans (hsize q hq))
      omega
    have hval : ∀ (k : Nat) o, out[k]? = some o → ∃ p x : Nat, o = ((p : Int), (x : Int)) := by
      intro k o hk
      have hkl := (List.getElem?_eq_some_iff.1 hk).1
      obtain ⟨p, x, h1, _⟩ := o4 k _ (List.getElem?_eq_getElem (show k < (globals r).length by omega))
      exact ⟨p, x, Option.some.inj (hk.symm.trans h1)⟩
    obtain ⟨ranks, a1, a2⟩ := toIndices?_of_nonneg (out.map Prod.fst) (by
      intro v hv
      obtain ⟨o, ho, rfl⟩ := List.mem_map.1 hv
      obtain ⟨k, hk⟩ := List.getElem?_of_mem ho
      obtain ⟨p, x, rfl⟩ := hval k o hk
      exact Int.natCast_nonneg p)
    obtain ⟨idxs, b1, b2⟩ := toIndices?_of_nonneg (out.map Prod.snd) (by
      intro v hv
      obtain ⟨o, ho, rfl⟩ := List.mem_map.1 hv
      obtain ⟨k, hk⟩ := List.getElem?_of_mem ho
      obtain ⟨p, x, rfl⟩ := hval k o hk
      exact Int.natCast_nonneg x)
    have hlr : ranks.length = out.length := by
      have := congrArg List.length a2
      simpa using this.symm
    have hli : idxs.length = out.length := by
      have := congrArg List.length b2
      simpa using this.symm
    refine ⟨⟨ranks, idxs⟩, ?_, by show ranks.length = _; omega, by show idxs.length = _; omega, ?_⟩
    · rw [world_get _ hr, Option.bind_some, o1, Option.bind_some, a1, Option.bind_some, b1]; rfl
    · intro k g hk
      obtain ⟨p, x, h1, h2, h3, h4⟩ := o4 k g hk
      have hget : ∀ (l : List Int) (m : List Nat) (v : Nat), l = m.map Int.ofNat → l[k]? = some (v : Int) → m[k]? = some v := by
        intro l m v e hv
        rw [e, List.getElem?_map] at hv
        cases hm : m[k]? with
        | none => rw [hm] at hv; simp at hv
        | some y =>
          rw [hm] at hv
          have hv : Int.ofNat y = (v : Int) := Option.some.inj hv
          rw [Int.ofNat.inj hv]
      refine ⟨p, x, hget _ _ p a2 (by rw [List.getElem?_map, h1]; rfl), hget _ _ x b2 (by rw [List.getElem?_map, h1]; rfl), h2, ?_, ?_⟩
      · rw [← hsame p h2]; exact h3
      · rw [h4]
        unfold globalOf
        congr 2
        apply List.map_congr_left
        intro q hq
        exact hsame q (by have := List.mem_range.1 hq; omega))
  have hlen : ∀ r, r < n → ∀ k p : Nat, (dests r).ranks[k]? = some p → ∃ g, (globals r)[k]? = some g := by
    intro r hr k p hk
    have hkl := (List.getElem?_eq_some_iff.1 hk).1
    rw [(d2 r hr).1] at hkl
    exact ⟨_, List.getElem?_eq_getElem hkl⟩
  refine ⟨dests, size, total, ⟨by omega, ?_, ?_, ?_⟩, ?_, fun r hr => (d2 r hr).1, ?_, htot, htT, hbal, hsize, ?_⟩
  · intro r hr p hp
    obtain ⟨k, hk⟩ := List.getElem?_of_mem hp
    obtain ⟨g, hgk⟩ := hlen r hr k p hk
    obtain ⟨p', x, h1, _, h3, _⟩ := (d2 r hr).2.2 k g hgk
    obtain rfl := Option.some.inj (h1.symm.trans hk)
    exact h3
  · intro r hr
    rw [(d2 r hr).1, (d2 r hr).2.1]
  · intro r hr k p x hk hx
    obtain ⟨g, hgk⟩ := hlen r hr k p hk
    obtain ⟨p', x', h1, h2, h3, h4, _⟩ := (d2 r hr).2.2 k g hgk
    obtain rfl := Option.some.inj (h1.symm.trans hk)
    obtain rfl := Option.some.inj (h2.symm.trans hx)
    exact h4
  · unfold copiesToLinearOwners
    rw [htot, world_length]
    dsimp only
    rw [mapM_range_some n _ size (fun r hr => by rw [hsize r hr]; rfl), Option.bind_some]
    rw [d1, Option.bind_some]
    rfl
  · intro r k g hr hgk
    have hgk : (globals r)[k]? = some g := hgk
    obtain ⟨p, x, h1, h2, h3, h4, h5⟩ := (d2 r hr).2.2 k g hgk
    refine ⟨(p, x), destOf_eq.2 ⟨h1, h2⟩, ?_⟩
    intro r' k' hr'
    rw [destOf_eq]
    constructor
    · rintro ⟨e1, e2⟩
      obtain ⟨g', hg'⟩ := hlen r' hr' k' p e1
      obtain ⟨p', x', g1, g2, g3, g4, g5⟩ := (d2 r' hr').2.2 k' g' hg'
      obtain rfl := Option.some.inj (g1.symm.trans e1)
      obtain rfl := Option.some.inj (g2.symm.trans e2)
      show (globals r')[k']? = some g
      rw [hg', g5, h5]
    · intro hg'
      obtain ⟨p', x', g1, g2, g3, g4, g5⟩ := (d2 r' hr').2.2 k' g hg'
      obtain ⟨rfl, rfl⟩ := hbij p x p' x' h4 g4 (h5.symm.trans g5)
      exact ⟨g1, g2⟩
  · intro r k g hr hgk
    obtain ⟨p, x, h1, h2, h3, h4, h5⟩ := (d2 r hr).2.2 k g hgk
    exact ⟨p, x, destOf_eq.2 ⟨h1, h2⟩, h3, h4, h5⟩

/-- The linear partition as a communication pattern. -/
theorem linear_spec (s : Nat → Nat → Sched) {n T : Nat} (hn : 0 < n) (hn' : n < 2 ^ 31) (globals : Nat → List Nat)
    (hT : ∀ r, r < n → ∀ g ∈ globals r, g < T) (hsz : T / n + 1 < 2 ^ 31) :
    ∃ dests nroots, DestsOk n dests nroots ∧
      copiesToLinearOwners s (world n (fun r => (globals r).map Int.ofNat)) =
        newDist (fun r k => s r (k + 1)) (world n dests) (world n nroots) ∧
      (∀ r, r < n → (dests r).ranks.length = (globals r).length) ∧
      SameCopies n (destOf dests) (fun r i => (globals r)[i]?) := by
  obtain ⟨dests, nroots, _, h1, h2, h3, h4, _⟩ := linear_full s hn hn' globals hT hsz
  exact ⟨dests, nroots, h1, h2, h3, h4⟩

/-- `owners_from_globals` without suggested ranks: copies are items with the same global number. -/
theorem C21_from_globals (s : Nat → Nat → Sched) {n T : Nat} (hn : 0 < n) (hn' : n < 2 ^ 31) (globals : Nat → List Nat)
    (hT : ∀ r, r < n → ∀ g ∈ globals r, g < T) (hsz : T / n + 1 < 2 ^ 31) :
    ∃ ranks idxs : Nat → List Int,
      ownersFromGlobals s (world n (fun r => (globals r).map Int.ofNat)) none = some (world n ranks, world n idxs) ∧
      OwnersOk n (fun r i => (globals r)[i]?) ranks idxs ∧
      OwnersFewest n (fun r i => (globals r)[i]?) (fun r => (globals r).length) ranks := by
  obtain ⟨dests, nroots, h1, h2, h3, h4⟩ := linear_spec s hn hn' globals hT hsz
  obtain ⟨D, hD⟩ := C20_new (fun r k => s r (k + 1)) h1
  obtain ⟨ranks, idxs, e1, _, e2, e3⟩ := C21_update h1 hD (fun r k => s r (k + 11))
  refine ⟨ranks, idxs, ?_, h4.owners e2, h4.fewest ?_⟩
  · unfold ownersFromGlobals
    rw [h2, hD, Option.bind_some]
    exact e1
  · intro e r i q hr he hq q' k' hq' hk'
    have := e3 e r i q hr he hq q' k' hq' hk'
    simp only at this
    have hqn : q < n := by
      obtain ⟨q2, k2, f1, _, f3⟩ := e2 e r i hr he
      have := Option.some.inj ((f3 r i hr he).1.symm.trans hq)
      omega
    rw [h3 q hqn, h3 q' hq'] at this
    exact this

/-- `owners_from_globals` with suggested ranks. -/
theorem C21_from_globals_suggested (s : Nat → Nat → Sched) {n T : Nat} (hn : 0 < n) (hn' : n < 2 ^ 31) (globals : Nat → List Nat)
    (hT : ∀ r, r < n → ∀ g ∈ globals r, g < T) (hsz : T / n + 1 < 2 ^ 31) (own : Nat → List Int)
    (hown : ∀ r, r < n → (own r).length = (globals r).length) (hagree : Agreed n (fun r i => (globals r)[i]?) own)
    (hav : ∀ r, r < n → ∀ g ∈ globals r, Available n (fun r i => (globals r)[i]?) own g) :
    ∃ idxs : Nat → List Int,
      ownersFromGlobals s (world n (fun r => (globals r).map Int.ofNat)) (some (world n own)) = some (world n own, world n idxs) ∧
      OwnersOk n (fun r i => (globals r)[i]?) own idxs := by
  obtain ⟨dests, nroots, h1, h2, h3, h4⟩ := linear_spec s hn hn' globals hT hsz
  obtain ⟨D, hD⟩ := C20_new (fun r k => s r (k + 1)) h1
  have hback : ∀ r i d, r < n → destOf dests r i = some d → ∃ g, (globals r)[i]? = some g ∧
      ∀ r' i', r' < n → (destOf dests r' i' = some d ↔ (globals r')[i']? = some g) := by
    rintro r i ⟨p, x⟩ hr hd
    have hil := (List.getElem?_eq_some_iff.1 (destOf_eq.1 hd).1).1
    rw [h3 r hr] at hil
    obtain ⟨d', e1, e2⟩ := h4 r i _ hr (List.getElem?_eq_getElem hil)
    obtain rfl := Option.some.inj (hd.symm.trans e1)
    exact ⟨_, List.getElem?_eq_getElem hil, e2⟩
  have hag : Agreed n (destOf dests) own := by
    intro d r i r' i' hr hr' e1 e2
    obtain ⟨g, g1, g2⟩ := hback r i d hr e1
    exact hagree g r i r' i' hr hr' g1 ((g2 r' i' hr').1 e2)
  obtain ⟨idxs, e1, _, e2, _⟩ := C21_update_suggested h1 hD (fun r k => s r (k + 11)) own (fun r hr => by rw [h3 r hr]; exact hown r hr) hag
  refine ⟨idxs, ?_, h4.owners ?_⟩
  · unfold ownersFromGlobals
    rw [h2, hD, Option.bind_some]
    exact e1
  · intro d r i hr hd
    obtain ⟨g, g1, g2⟩ := hback r i d hr hd
    obtain ⟨q, k, k1, k2, k3⟩ := hav r hr g (List.mem_of_getElem? g1)
    obtain ⟨q', k', f1, f2, f3⟩ := e2 d ⟨q, k, k1, (g2 q k k1).2 k2, k3⟩
    exact ⟨q', k', f1, f2, f3⟩

theorem rescanLocal_spec (s : Sched) (counts : List Int) (start : Int) :
    ∃ out, rescanLocal s counts start = some out ∧ out.length = counts.length ∧
      ∀ i, i < counts.length → out[i]? = some ((counts.take i).sum + start) := by
  obtain ⟨out, o1, o2, o3⟩ := parEach s counts.length (fun i => ((offsetScan counts)[i]?).map (fun o => o + start)) (by
    intro i hi
    rw [offsetScan_int_getElem? _ _ (by omega)]; rfl)
  refine ⟨out, ?_, o2, ?_⟩
  · unfold rescanLocal
    dsimp only
    simp only [Option.map_map] at o1
    exact o1
  · intro i hi
    rw [o3 i hi, offsetScan_int_getElem? _ _ (by omega)]; rfl

theorem marks_sum (l : List Nat) (q : Nat) : (l.map (fun p => if p = q then (1 : Int) else 0)).sum = (l.count q : Int) := by
  induction l with
  | nil => rfl
  | cons a l ih =>
    rw [List.map_cons, List.sum_cons, ih, List.count_cons]
    by_cases h : a = q <;> (simp [h]; try omega)

/-- The number of items of the ranks below `q` that their own rank owns. -/
def ownedBelow (owners : Nat → Remotes) (q : Nat) : Nat := ((List.range q).map (fun r => (owners r).ranks.count r)).sum

theorem ownedBelow_succ (owners : Nat → Remotes) (q : Nat) :
    ownedBelow owners (q + 1) = ownedBelow owners q + (owners q).ranks.count q := by
  unfold ownedBelow
  rw [List.range_succ, List.map_append, List.sum_append]
  simp

theorem ownedBelow_mono (owners : Nat → Remotes) {q q' : Nat} (h : q < q') :
    ownedBelow owners q + (owners q).ranks.count q ≤ ownedBelow owners q' := by
  induction q' with
  | zero => omega
  | succ m ih =>
    rw [ownedBelow_succ]
    rcases Nat.lt_or_ge q m with h1 | h1
    · have := ih h1; omega
    · obtain rfl : q = m := by omega
      exact Nat.le_refl _

/-- The number that an owner gets: the owned items of lower ranks and those before it count. -/
def ownerNumber (owners : Nat → Remotes) (q k : Nat) : Nat := ownedBelow owners q + ((owners q).ranks.take k).count q

theorem ownerNumber_lt {owners : Nat → Remotes} {q k q' k' : Nat} (h : (owners q).ranks[k]? = some q)
    (hlt : q < q' ∨ (q = q' ∧ k < k')) : ownerNumber owners q k < ownerNumber owners q' k' := by
  unfold ownerNumber
  rcases hlt with h1 | ⟨rfl, h1⟩
  · have := ownedBelow_mono owners h1
    have := count_take_lt h
    omega
  · have := count_take_mono h h1
    omega

theorem globals_spec (s : Nat → Nat → Sched) {n : Nat} {owners : Nat → Remotes} (h : DestsOk n owners (fun r => (owners r).ranks.length)) :
    ∃ g : Nat → List Int, globalsFromOwners s (world n owners) = some (world n g) ∧
      ∀ r i q k : Nat, r < n → destOf owners r i = some (q, k) → (g r)[i]? = some ((ownerNumber owners q k : Nat) : Int) := by
  unfold globalsFromOwners
  dsimp only
  rw [world_zipIdx, world_map, world_map]
  unfold rescanGlobals
  rw [world_length]
  obtain ⟨new, w1, w2⟩ := choose_world (n := n)
    (fun r => ((world n (fun r => (owners r).ranks.map (fun q => if q = r then (1 : Int) else 0)))[r]?).bind (fun c =>
      rescanLocal (s r 0) c ((((world n (fun r => (owners r).ranks.map (fun q => if q = r then (1 : Int) else 0))).take r).map List.sum).sum)))
    (fun r out => out.length = (owners r).ranks.length ∧ ∀ k, k < (owners r).ranks.length → out[k]? = some ((ownerNumber owners r k : Nat) : Int)) (by
    intro r hr
    rw [world_get _ hr, Option.bind_some]
    obtain ⟨out, o1, o2, o3⟩ := rescanLocal_spec (s r 0) ((owners r).ranks.map (fun q => if q = r then (1 : Int) else 0))
      ((((world n (fun r => (owners r).ranks.map (fun q => if q = r then (1 : Int) else 0))).take r).map List.sum).sum)
    rw [List.length_map] at o2 o3
    refine ⟨out, o1, o2, ?_⟩
    intro k hk
    rw [o3 k hk]
    congr 1
    rw [← List.map_take, marks_sum]
    have : (((world n (fun r => (owners r).ranks.map (fun q => if q = r then (1 : Int) else 0))).take r).map List.sum).sum =
        ((ownedBelow owners r : Nat) : Int) := by
      unfold world ownedBelow
      rw [← List.map_take, List.take_range, Nat.min_eq_left (by omega), List.map_map]
      generalize List.range r = l
      induction l with
      | nil => rfl
      | cons a l ih =>
        rw [List.map_cons, List.sum_cons, ih, List.map_cons, List.sum_cons]
        show (List.map (fun q => if q = a then (1 : Int) else 0) (owners a).ranks).sum + _ = _
        rw [marks_sum]
        push_cast
        rfl
    rw [this]
    unfold ownerNumber
    push_cast
    omega)
  rw [w1, Option.bind_some]
  obtain ⟨D, hD⟩ := C20_new (fun r k => s r (k + 1)) h
  obtain ⟨D', order, fan, rfl, hN⟩ := copyDist_of h hD
  rw [hD, Option.bind_some]
  obtain ⟨g, g1, _, g2⟩ := exch_back_one hN (fun r k => s r (k + 11)) new (fun p hp => (w2 p hp).1)
  refine ⟨g, g1, ?_⟩
  intro r i q k hr hd
  rw [g2 r i q k hr hd]
  obtain ⟨d1, d2⟩ := destOf_eq.1 hd
  exact (w2 q (h.rank r hr q (List.mem_of_getElem? d1))).2 k (h.idx r hr i q k d1 d2)

/-- `globals_from_owners` gives two items the same number if and only if they have the same owner, provided that owners are owned by
their own rank. -/
theorem C21_globals (s : Nat → Nat → Sched) {n : Nat} {owners : Nat → Remotes} (h : DestsOk n owners (fun r => (owners r).ranks.length))
    (hself : ∀ r i q k : Nat, r < n → destOf owners r i = some (q, k) → destOf owners q k = some (q, k)) :
    ∃ g : Nat → List Int, globalsFromOwners s (world n owners) = some (world n g) ∧
      ∀ r i r' i' o o', r < n → r' < n → destOf owners r i = some o → destOf owners r' i' = some o' →
        ∃ v v' : Nat, (g r)[i]? = some (v : Int) ∧ (g r')[i']? = some (v' : Int) ∧ (v = v' ↔ o = o') := by
  obtain ⟨g, g1, g2⟩ := globals_spec s h
  refine ⟨g, g1, ?_⟩
  rintro r i r' i' ⟨q, k⟩ ⟨q', k'⟩ hr hr' e e'
  refine ⟨_, _, g2 r i q k hr e, g2 r' i' q' k' hr' e', ?_, ?_⟩
  · intro hv
    have o1 := (destOf_eq.1 (hself r i q k hr e)).1
    have o2 := (destOf_eq.1 (hself r' i' q' k' hr' e')).1
    by_contra hne
    have hcases : (q < q' ∨ (q = q' ∧ k < k')) ∨ (q' < q ∨ (q' = q ∧ k' < k)) := by
      rcases Nat.lt_trichotomy q q' with c | c | c
      · exact Or.inl (Or.inl c)
      · rcases Nat.lt_trichotomy k k' with c2 | c2 | c2
        · exact Or.inl (Or.inr ⟨c, c2⟩)
        · exact absurd (by rw [c, c2]) hne
        · exact Or.inr (Or.inr ⟨c.symm, c2⟩)
      · exact Or.inr (Or.inl c)
    rcases hcases with c | c
    · have := ownerNumber_lt o1 c; omega
    · have := ownerNumber_lt o2 c; omega
  · rintro he
    obtain ⟨rfl, rfl⟩ := Prod.mk.inj he
    rfl

/-- If moreover an item that its own rank owns is its own owner, the numbers are exactly `0 … total-1`, and they follow the order of the
owners. -/
theorem C21_globals_dense (s : Nat → Nat → Sched) {n : Nat} {owners : Nat → Remotes} (h : DestsOk n owners (fun r => (owners r).ranks.length))
    (hself : ∀ r i q k : Nat, r < n → destOf owners r i = some (q, k) → destOf owners q k = some (q, k))
    (hlocal : ∀ q k x : Nat, q < n → destOf owners q k = some (q, x) → x = k) :
    ∃ g : Nat → List Int, globalsFromOwners s (world n owners) = some (world n g) ∧
      (∀ v : Nat, v < ((List.range n).map (fun r => (owners r).ranks.count r)).sum ↔
        ∃ r i : Nat, r < n ∧ (destOf owners r i).isSome ∧ (g r)[i]? = some (v : Int)) ∧
      ∀ r i r' i' q k q' k' : Nat, r < n → r' < n → destOf owners r i = some (q, k) → destOf owners r' i' = some (q', k') →
        q < q' ∨ (q = q' ∧ k < k') → ∃ v v' : Nat, (g r)[i]? = some (v : Int) ∧ (g r')[i']? = some (v' : Int) ∧ v < v' := by
  obtain ⟨g, g1, g2⟩ := globals_spec s h
  refine ⟨g, g1, ?_, ?_⟩
  · intro v
    constructor
    · intro hv
      have hfind : ∀ m, v < ownedBelow owners m → ∃ q, q < m ∧ ownedBelow owners q ≤ v ∧ v < ownedBelow owners q + (owners q).ranks.count q := by
        intro m
        induction m with
        | zero => intro hm; simp [ownedBelow] at hm
        | succ m ih =>
          intro hm
          rw [ownedBelow_succ] at hm
          rcases Nat.lt_or_ge v (ownedBelow owners m) with c | c
          · obtain ⟨q, q1, q2⟩ := ih c
            exact ⟨q, by omega, q2⟩
          · exact ⟨m, by omega, c, hm⟩
      obtain ⟨q, q1, q2, q3⟩ := hfind n hv
      have hlt : v - ownedBelow owners q < (itemsTo (owners q).ranks q).length := by rw [itemsTo_length]; omega
      obtain ⟨m1, m2⟩ := itemsTo_mem (List.getElem?_eq_getElem hlt)
      generalize (itemsTo (owners q).ranks q)[v - ownedBelow owners q] = k at m1 m2
      obtain ⟨x, hx⟩ : ∃ x, (owners q).idxs[k]? = some x :=
        ⟨_, List.getElem?_eq_getElem (by rw [h.len q q1]; exact (List.getElem?_eq_some_iff.1 m1).1)⟩
      have hd := destOf_eq.2 ⟨m1, hx⟩
      obtain rfl := hlocal q k x q1 hd
      refine ⟨q, x, q1, by rw [hd]; rfl, ?_⟩
      rw [g2 q x q x q1 hd]
      congr 2
      unfold ownerNumber
      omega
    · rintro ⟨r, i, hr, hs, hv⟩
      obtain ⟨⟨q, k⟩, hd⟩ := Option.isSome_iff_exists.1 hs
      have := Option.some.inj ((g2 r i q k hr hd).symm.trans hv)
      have hv : ownerNumber owners q k = v := by omega
      have hq := h.rank r hr q (List.mem_of_getElem? (destOf_eq.1 hd).1)
      have h1 := (destOf_eq.1 (hself r i q k hr hd)).1
      have h2 := count_take_lt h1
      have h3 := ownedBelow_mono owners hq
      show v < ownedBelow owners n
      unfold ownerNumber at hv
      omega
  · intro r i r' i' q k q' k' hr hr' hd hd' hlt
    exact ⟨_, _, g2 r i q k hr hd, g2 r' i' q' k' hr' hd', ownerNumber_lt (destOf_eq.1 (hself r i q k hr hd)).1 hlt⟩

/-- Entities that are not shared: rank by rank, the items are numbered on. -/
theorem C21_globals_unshared (n : Nat) (nents : Nat → Nat) (r i : Nat) (hr : r < n) :
    ((globalsUnshared (world n nents))[r]?).bind (fun l => l[i]?) =
      if i < nents r then some ((globalOf nents r i : Nat) : Int) else none := by
  unfold globalsUnshared
  rw [world_zipIdx, world_map, world_get _ hr, Option.bind_some]
  dsimp only
  rw [List.getElem?_map]
  by_cases hi : i < nents r
  · rw [List.getElem?_range hi, if_pos hi]
    unfold world globalOf
    rw [← List.map_take, List.take_range, Nat.min_eq_left (by omega)]
    rfl
  · rw [List.getElem?_eq_none (by rw [List.length_range]; omega), if_neg hi]; rfl

/-- `reduce_data_to_owners` gives every owner the data of one of its copies, if every owner has a copy. -/
theorem C21_reduce {s : Nat → Nat → Sched} {n : Nat} {dests : Nat → Remotes} {nroots : Nat → Nat} (h : DestsOk n dests nroots)
    {D : List Dist} (hD : newDist s (world n dests) (world n nroots) = some D) (s' : Nat → Nat → Sched)
    (hcopy : ∀ p x, p < n → x < nroots p → ∃ r i, r < n ∧ destOf dests r i = some (p, x))
    {α : Type} (w : Nat) (data : Nat → List α) (hw : 0 < w) (hl : ∀ r, r < n → (data r).length = (dests r).ranks.length * w) :
    ∃ out, reduceDataToOwners s' D w (world n data) = some (world n out) ∧
      ∀ p, p < n → (out p).length = nroots p * w ∧ ∀ x, x < nroots p → ∃ r i, r < n ∧ destOf dests r i = some (p, x) ∧
        ∀ j, j < w → entry (out p) w x j = entry (data r) w i j := by
  obtain ⟨D', order, fan, rfl, hN⟩ := copyDist_of h hD
  unfold reduceDataToOwners
  obtain ⟨serv, o1, o2, o3⟩ := exch_spec s' hN.ok hw data hl
  rw [o1, Option.bind_some, world_length]
  obtain ⟨out, w1, w2⟩ := choose_world (n := n)
    (fun r => ((world n D')[r]?).bind (fun d => ((world n serv)[r]?).bind (fun x => (d.rev.roots2items).bind (fun fan =>
      unmap (s' r 4) (fan.take (fan.length - 1)) x w))))
    (fun p out => out.length = nroots p * w ∧ ∀ x, x < nroots p → ∃ r i, r < n ∧ destOf dests r i = some (p, x) ∧
        ∀ j, j < w → entry out w x j = entry (data r) w i j) (by
    intro p hp
    obtain ⟨f1, f2, f3⟩ := hN.fanOk p hp
    have hfirst : ∀ x, x < nroots p → ∃ lo r i : Nat, (fan p)[x]? = some lo ∧ lo < (order p).length ∧ r < n ∧
        (order p)[lo]? = some (r, i) ∧ destOf dests r i = some (p, x) := by
      intro x hx
      obtain ⟨bs, b1, b2, b3⟩ := members_spec hN hp hx
      obtain ⟨r, i, hr, hd⟩ := hcopy p x hp hx
      obtain ⟨d1, d2⟩ := destOf_eq.1 hd
      obtain ⟨k, hk, hk'⟩ := b3 r i hr hd
      obtain ⟨lo, hi, e1, e2, e3, e4⟩ := (hN.group p hp k r i x hk').2 d2
      have hkl := (List.getElem?_eq_some_iff.1 hk').1
      have hlo : lo < (order p).length := by omega
      have hget := List.getElem?_eq_getElem hlo
      generalize (order p)[lo] = y at hget
      obtain ⟨r', i'⟩ := y
      have hm := (hN.mem p hp r' i').1 (List.mem_of_getElem? hget)
      exact ⟨lo, r', i', e1, hlo, hm.1, hget, destOf_eq.2 ⟨hm.2, (hN.group p hp lo r' i' x hget).1 ⟨lo, hi, e1, e2, by omega, by omega⟩⟩⟩
    have htake : ∀ x : Nat, x < nroots p → ((fan p).take ((fan p).length - 1))[x]? = (fan p)[x]? := by
      intro x hx
      rw [List.getElem?_take_of_lt (by omega)]
    obtain ⟨out, u1, u2, u3⟩ := C05_unmap (s' p 4) ((fan p).take ((fan p).length - 1)) (serv p) w (order p).length
      (by rw [o2 p hp]) (by
        intro b hb
        obtain ⟨x, hx⟩ := List.getElem?_of_mem hb
        have hxl := (List.getElem?_eq_some_iff.1 hx).1
        rw [List.length_take] at hxl
        have hxl : x < nroots p := by omega
        obtain ⟨lo, r, i, e1, e2, _⟩ := hfirst x hxl
        rw [htake x hxl, e1] at hx
        obtain rfl := Option.some.inj hx
        exact e2)
    refine ⟨out, ?_, ?_, ?_⟩
    · rw [world_get _ hp, Option.bind_some, world_get _ hp, Option.bind_some, hN.rroots p hp, Option.bind_some]
      exact u1
    · rw [u2, List.length_take, f2]
      congr 1
      omega
    · intro x hx
      obtain ⟨lo, r, i, e1, e2, e3, e4, e5⟩ := hfirst x hx
      refine ⟨r, i, e3, e5, ?_⟩
      intro j hj
      rw [u3 x lo j (by rw [htake x hx]; exact e1) hj]
      exact o3 r i i p lo e3 (by unfold RootOf; rw [hN.froots r e3]) ((hN.route r i p lo e3 hp).2 e4) j hj)
  rw [w1]
  exact ⟨out, rfl, w2⟩

/-- An owner without copies in the middle gets the data of another one; at the end it reads out of range. -/
example : ((newDist (fun _ _ => Sched.serial) [⟨[0, 0], [0, 2]⟩] [3]).bind (fun D =>
    reduceDataToOwners (fun _ _ => Sched.serial) D 1 [[5, 6]])) = some [[5, 6, 6]] := by decide +kernel
example : ((newDist (fun _ _ => Sched.serial) [⟨[0, 0], [0, 1]⟩] [3]).bind (fun D =>
    reduceDataToOwners (fun _ _ => Sched.serial) D 1 [[5, 6]])) = none := by decide +kernel

/-! ## Examples -/

/-- Three ranks share the entities 0 … 4. -/
def exampleGlobals : Nat → List Nat
  | 0 => [0, 1, 2]
  | 1 => [2, 3]
  | 2 => [3, 4, 0, 2]
  | _ => []

example : ∀ r, r < 3 → ∀ g ∈ exampleGlobals r, g < 5 := by
  intro r hr
  match r, hr with
  | 0, _ => decide
  | 1, _ => decide
  | 2, _ => decide

/-- Entity 2 has copies on all ranks; rank 1 has the fewest items. -/
example : ownersFromGlobals (fun _ _ => Sched.serial) (world 3 (fun r => (exampleGlobals r).map Int.ofNat)) none =
    some ([[0, 0, 1], [1, 1], [1, 2, 0, 1]], [[0, 1, 0], [0, 1], [1, 1, 0, 0]]) := by decide +kernel

/-- Suggestions: rank 2 for the entities 0, 2, 3 and 4, rank 0 for 1. -/
example : ownersFromGlobals (fun _ _ => Sched.serial) (world 3 (fun r => (exampleGlobals r).map Int.ofNat))
    (some [[2, 0, 2], [2, 2], [2, 2, 2, 2]]) =
    some ([[2, 0, 2], [2, 2], [2, 2, 2, 2]], [[2, 1, 3], [3, 0], [0, 1, 2, 3]]) := by decide +kernel

/-- A suggestion of a rank without a copy (entity 1 is only on rank 0) is kept, with index -1, instead of falling back to a rank that has
one. -/
theorem C21_suggestion_refuted :
    ownersFromGlobals (fun _ _ => Sched.serial) (world 3 (fun r => (exampleGlobals r).map Int.ofNat))
      (some [[2, 1, 2], [2, 2], [2, 2, 2, 2]]) =
      some ([[2, 1, 2], [2, 2], [2, 2, 2, 2]], [[2, -1, 3], [3, 0], [0, 1, 2, 3]]) := by decide +kernel

example : globalsFromOwners (fun _ _ => Sched.serial)
    [⟨[0, 0, 1], [0, 1, 0]⟩, ⟨[1, 1], [0, 1]⟩, ⟨[1, 2, 0, 1], [1, 1, 0, 0]⟩] =
    some [[0, 1, 2], [2, 3], [3, 4, 0, 2]] := by decide +kernel

/-- Owners that are not owned by their own rank spoil the numbering: different owners, equal numbers. -/
example : globalsFromOwners (fun _ _ => Sched.serial) [⟨[1, 1], [0, 1]⟩, ⟨[0, 0], [0, 1]⟩] = some [[0, 0], [0, 0]] := by decide +kernel

end OmegaH
