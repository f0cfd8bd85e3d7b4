import Verif.Props.C20
/-!
# Patterns from copies to roots: what `Dist(comm, destinations, nroots)` builds and what migration builds
-/
namespace OmegaH
open Spec

/-- The destination of an item. -/
def destOf (dests : Nat → Remotes) (r i : Nat) : Option (Nat × Nat) :=
  ((dests r).ranks[i]?).bind (fun p => ((dests r).idxs[i]?).map (fun x => (p, x)))

theorem destOf_eq {dests : Nat → Remotes} {r i p x : Nat} :
    destOf dests r i = some (p, x) ↔ (dests r).ranks[i]? = some p ∧ (dests r).idxs[i]? = some x := by
  unfold destOf
  cases (dests r).ranks[i]? with
  | none => simp
  | some a =>
    cases (dests r).idxs[i]? with
    | none => simp
    | some b => simp

theorem mem_order {n : Nat} {dests : Nat → Remotes} {nroots : Nat → Nat} {D : Nat → Dist} {order : Nat → List (Nat × Nat)}
    {fan : Nat → List Nat} (h : NewDist n dests nroots D order fan) {p : Nat} (hp : p < n) {r i : Nat} :
    (r, i) ∈ order p ↔ r < n ∧ (dests r).ranks[i]? = some p := by
  rw [(h.perm p hp).mem_iff]
  constructor
  · intro hm; exact arrivals_mem hm
  · rintro ⟨hr, hi⟩
    obtain ⟨j, hj⟩ := List.getElem?_of_mem ((mem_sendersTo (dest := fun r => (dests r).ranks) (n := n) (r := r) (p := p)).2
      ⟨hr, List.mem_of_getElem? hi⟩)
    exact List.mem_of_getElem? (arrivals_get hj hi)

/-- A pattern in which item `i` of rank `r` is a copy of the root `destOf dests r i`, with offsets from the roots to the copies. -/
structure CopyDist (n : Nat) (dests : Nat → Remotes) (nroots : Nat → Nat) (D : Nat → Dist)
    (order : Nat → List (Nat × Nat)) (fan : Nat → List Nat) : Prop where
  dest : DestsOk n dests nroots
  ok : DistOk n D (fun r => (dests r).ranks.length) (fun p => (order p).length) (fun r => (dests r).ranks.length) nroots
  froots : ∀ r, r < n → (D r).fwd.roots2items = none
  rroots : ∀ r, r < n → (D r).rev.roots2items = some (fan r)
  rperm : ∀ r, r < n → ∃ q, (D r).rev.items2content = some q
  route : ∀ r i p k : Nat, r < n → p < n → (Route D r i p k ↔ (order p)[k]? = some (r, i))
  mem : ∀ p, p < n → ∀ r i : Nat, (r, i) ∈ order p ↔ r < n ∧ (dests r).ranks[i]? = some p
  fanOk : ∀ p, p < n → IsFan (fan p) ∧ (fan p).length = nroots p + 1 ∧ (fan p).getLast? = some (order p).length
  group : ∀ p, p < n → ∀ k r i x : Nat, (order p)[k]? = some (r, i) → (InFan (fan p) x k ↔ (dests r).idxs[i]? = some x)

/-- The positions that the root `x` owns are those of the items addressed to it. -/
theorem members_spec {n : Nat} {dests : Nat → Remotes} {nroots : Nat → Nat} {D : Nat → Dist} {order : Nat → List (Nat × Nat)}
    {fan : Nat → List Nat} (h : CopyDist n dests nroots D order fan) {p x : Nat} (hp : p < n) (hx : x < nroots p) :
    ∃ bs, fanMembers (fan p) x = some bs ∧ (∀ k ∈ bs, ∃ r i, r < n ∧ (order p)[k]? = some (r, i) ∧ destOf dests r i = some (p, x)) ∧
      ∀ r i, r < n → destOf dests r i = some (p, x) → ∃ k ∈ bs, (order p)[k]? = some (r, i) := by
  obtain ⟨f1, f2, f3⟩ := h.fanOk p hp
  obtain ⟨bs, b1, _, b3⟩ := fanMembers_spec (o := fan p) (a := x) (by omega)
  refine ⟨bs, b1, ?_, ?_⟩
  · intro k hk
    have hin := (b3 k).1 hk
    have hkl : k < (order p).length := (inFan_lt f1 hin (by rw [← List.getLast?_eq_getElem?]; exact f3)).1
    obtain ⟨⟨r, i⟩, hri⟩ : ∃ y, (order p)[k]? = some y := ⟨_, List.getElem?_eq_getElem hkl⟩
    have hm := (h.mem p hp r i).1 (List.mem_of_getElem? hri)
    exact ⟨r, i, hm.1, hri, destOf_eq.2 ⟨hm.2, (h.group p hp k r i x hri).1 hin⟩⟩
  · intro r i hr hd
    obtain ⟨d1, d2⟩ := destOf_eq.1 hd
    obtain ⟨k, hk⟩ := List.getElem?_of_mem ((h.mem p hp r i).2 ⟨hr, d1⟩)
    exact ⟨k, (b3 k).2 ((h.group p hp k r i x hk).2 d2), hk⟩

theorem mapM_world {α β : Type} [Inhabited β] {n : Nat} (f : Nat → α) (g : α → Option β) (W : Nat → β)
    (h : ∀ r, r < n → g (f r) = some (W r)) : (world n f).mapM g = some (world n W) := by
  unfold world
  rw [List.mapM_map]
  exact mapM_range_some n _ W h

theorem exch_items {n : Nat} {dests : Nat → Remotes} {nroots : Nat → Nat} {D : Nat → Dist} {order : Nat → List (Nat × Nat)}
    {fan : Nat → List Nat} (h : CopyDist n dests nroots D order fan) {α : Type} (s : Nat → Nat → Sched) (data : Nat → List α)
    (hl : ∀ r, r < n → (data r).length = (dests r).ranks.length) :
    ∃ out, Dist.exch s (world n D) 1 (world n data) = some (world n out) ∧
      ∀ p k r i : Nat, p < n → (order p)[k]? = some (r, i) → (out p)[k]? = (data r)[i]? := by
  obtain ⟨out, o1, _, o3⟩ := exch_spec s h.ok (w := 1) (by omega) data (fun r hr => by rw [hl r hr, Nat.mul_one])
  refine ⟨out, o1, ?_⟩
  intro p k r i hp hk
  have hr := ((h.mem p hp r i).1 (List.mem_of_getElem? hk)).1
  have := o3 r i i p k hr (by unfold RootOf; rw [h.froots r hr]) ((h.route r i p k hr hp).2 hk) 0 (by omega)
  rw [entry_one, entry_one] at this
  exact this

/-- What the copies get from the roots they are addressed to. -/
theorem exch_back {n : Nat} {dests : Nat → Remotes} {nroots : Nat → Nat} {D : Nat → Dist} {order : Nat → List (Nat × Nat)}
    {fan : Nat → List Nat} (h : CopyDist n dests nroots D order fan) {α : Type} (s : Nat → Nat → Sched) (w : Nat) (hw : 0 < w)
    (data : Nat → List α) (hl : ∀ p, p < n → (data p).length = nroots p * w) :
    ∃ out, Dist.exch s ((world n D).map Dist.invert) w (world n data) = some (world n out) ∧
      ∀ r, r < n → (out r).length = (dests r).ranks.length * w ∧
      ∀ i p x : Nat, destOf dests r i = some (p, x) → ∀ j, j < w → entry (out r) w i j = entry (data p) w x j := by
  obtain ⟨out, o1, o2, o3⟩ := exch_spec s h.ok.invert hw data hl
  refine ⟨out, by rw [world_map]; exact o1, ?_⟩
  intro r hr
  refine ⟨o2 r hr, ?_⟩
  intro i p x hd j hj
  obtain ⟨hp, hx⟩ := destOf_eq.1 hd
  have hpn := h.dest.rank r hr p (List.mem_of_getElem? hp)
  obtain ⟨k, hk⟩ := List.getElem?_of_mem ((h.mem p hpn r i).2 ⟨hr, hp⟩)
  have hroute := (h.route r i p k hr hpn).2 hk
  refine o3 p x k r i hpn ?_ (route_invert h.ok hr hroute) j hj
  have : RootOf (D p).rev x k := by
    unfold RootOf
    rw [h.rroots p hpn]
    exact (h.group p hpn k r i x hk).2 hx
  exact this

theorem exch_back_one {n : Nat} {dests : Nat → Remotes} {nroots : Nat → Nat} {D : Nat → Dist} {order : Nat → List (Nat × Nat)}
    {fan : Nat → List Nat} (h : CopyDist n dests nroots D order fan) {α : Type} (s : Nat → Nat → Sched)
    (data : Nat → List α) (hl : ∀ p, p < n → (data p).length = nroots p) :
    ∃ out, Dist.exch s ((world n D).map Dist.invert) 1 (world n data) = some (world n out) ∧
      (∀ r, r < n → (out r).length = (dests r).ranks.length) ∧
      ∀ r i p x : Nat, r < n → destOf dests r i = some (p, x) → (out r)[i]? = (data p)[x]? := by
  obtain ⟨out, o1, o2⟩ := exch_back h s 1 (by omega) data (fun p hp => by rw [hl p hp, Nat.mul_one])
  refine ⟨out, o1, fun r hr => by rw [(o2 r hr).1, Nat.mul_one], ?_⟩
  intro r i p x hr hx
  have := (o2 r hr).2 i p x hx 0 (by omega)
  rw [entry_one, entry_one] at this
  exact this

/-- Which message brings an item to a rank. -/
theorem items2msgs_rev {n : Nat} {dests : Nat → Remotes} {nroots : Nat → Nat} {D : Nat → Dist} {order : Nat → List (Nat × Nat)}
    {fan : Nat → List Nat} (h : CopyDist n dests nroots D order fan) (s1 s2 : Sched) {p : Nat} (hp : p < n) :
    ∃ msgs, (D p).invert.items2msgs s1 s2 = some msgs ∧ msgs.length = (order p).length ∧
      ∀ k r i : Nat, (order p)[k]? = some (r, i) → ∃ c : Nat, msgs[k]? = some c ∧ (D p).rev.peers[c]? = some r := by
  have hrev := h.ok.wired.rev p hp
  obtain ⟨inv, i1, i2, i3⟩ := C06_invert_fan s1 (D p).rev.msgs2content hrev.fan
  have hinv : inv.length = (order p).length := Option.some.inj (i2.symm.trans hrev.last)
  obtain ⟨perm, q1⟩ := h.rperm p hp
  have hperm := (h.ok.rev p hp).perm perm q1
  obtain ⟨msgs, m1, m2, m3⟩ := C05_unmap s2 perm inv 1 (order p).length (by omega) hperm.2.1
  have hmsg : ∀ k r i : Nat, (order p)[k]? = some (r, i) → ∃ c : Nat, msgs[k]? = some (c : Int) ∧ (D p).rev.peers[c]? = some r := by
    intro k r i hk
    have hr := ((h.mem p hp r i).1 (List.mem_of_getElem? hk)).1
    obtain ⟨c, c', _, hlink, hat⟩ := (h.route r i p k hr hp).2 hk
    unfold ItemAt at hat
    rw [q1] at hat
    have hlt := (linked_lt h.ok.wired hr hlink).2
    have hlink' := linked_invert h.ok.wired hr (linked_lt h.ok.wired hr hlink).1 hlink
    obtain ⟨j, i', lo, hi, _, _, t, e1, _, e3, e4, _, _, e5, e6, _⟩ := hlink'
    refine ⟨j, ?_, e1⟩
    have := m3 k c' 0 hat (by omega)
    rw [entry_one, entry_one] at this
    rw [this]
    exact (i3 j c').1 ⟨lo, hi, e3, e4, by omega, by omega⟩
  have hlen : msgs.length = (order p).length := by rw [m2, Nat.mul_one, hperm.1]
  obtain ⟨msgsN, t1, t2⟩ := toIndices?_of_nonneg msgs (by
    intro v hv
    obtain ⟨k, hk⟩ := List.getElem?_of_mem hv
    have hkl := (List.getElem?_eq_some_iff.1 hk).1
    obtain ⟨c, hc, _⟩ := hmsg k _ _ (List.getElem?_eq_getElem (show k < (order p).length by omega))
    obtain rfl := Option.some.inj (hk.symm.trans hc)
    exact Int.natCast_nonneg c)
  refine ⟨msgsN, ?_, ?_, ?_⟩
  · unfold Dist.items2msgs
    show (invertFan s1 (D p).rev.msgs2content).bind _ = _
    rw [i1, Option.bind_some]
    show (D p).rev.items2content.bind _ = _
    rw [q1, Option.bind_some, m1, Option.bind_some, t1]
  · rw [← hlen, t2, List.length_map]
  · intro k r i hk
    obtain ⟨c, e1, e2⟩ := hmsg k r i hk
    refine ⟨c, ?_, e2⟩
    rw [t2, List.getElem?_map] at e1
    cases hmn : msgsN[k]? with
    | none => rw [hmn] at e1; simp at e1
    | some y =>
      rw [hmn] at e1
      have e1 : Int.ofNat y = (c : Int) := Option.some.inj e1
      rw [Int.ofNat.inj e1]

/-- The ranks of the items that arrive. -/
theorem items2ranks_rev {n : Nat} {dests : Nat → Remotes} {nroots : Nat → Nat} {D : Nat → Dist} {order : Nat → List (Nat × Nat)}
    {fan : Nat → List Nat} (h : CopyDist n dests nroots D order fan) (s1 s2 s3 : Sched) {p : Nat} (hp : p < n) :
    (D p).invert.items2ranks s1 s2 s3 = some ((order p).map Prod.fst) := by
  obtain ⟨msgs, m1, m2, m3⟩ := items2msgs_rev h s1 s2 hp
  unfold Dist.items2ranks
  rw [m1, Option.bind_some]
  have hmr : ∀ k c : Nat, msgs[k]? = some c → ∃ y, (order p)[k]? = some y ∧ (D p).rev.peers[c]? = some y.1 := by
    intro k c hk
    have hkl := (List.getElem?_eq_some_iff.1 hk).1
    have hk2 := List.getElem?_eq_getElem (show k < (order p).length by omega)
    refine ⟨_, hk2, ?_⟩
    obtain ⟨c', e1, e2⟩ := m3 k _ _ hk2
    obtain rfl := Option.some.inj (hk.symm.trans e1)
    exact e2
  obtain ⟨out, o1, o2, o3⟩ := C05_compound_maps s3 msgs (D p).invert.fwd.peers (by
    intro c hc
    obtain ⟨k, hk⟩ := List.getElem?_of_mem hc
    obtain ⟨y, _, hy⟩ := hmr k c hk
    exact (List.getElem?_eq_some_iff.1 hy).1)
  rw [o1]
  congr 1
  apply List.ext_getElem?
  intro k
  rw [List.getElem?_map]
  rcases Nat.lt_or_ge k msgs.length with hk | hk
  · have hk1 := List.getElem?_eq_getElem hk
    obtain ⟨y, h1, h2⟩ := hmr k _ hk1
    rw [o3 k _ hk1, h1]
    exact h2
  · rw [List.getElem?_eq_none (by omega), List.getElem?_eq_none (by omega)]; rfl

theorem NewDist.copyDist {n : Nat} {dests : Nat → Remotes} {nroots : Nat → Nat} {D : Nat → Dist} {order : Nat → List (Nat × Nat)}
    {fan : Nat → List Nat} (h : NewDist n dests nroots D order fan) (hd : DestsOk n dests nroots) : CopyDist n dests nroots D order fan :=
  ⟨hd, h.ok, h.froots, h.rroots, h.rperm, h.route, fun _ hp _ _ => mem_order h hp, h.fanOk, h.group⟩

theorem copyDist_of {s : Nat → Nat → Sched} {n : Nat} {dests : Nat → Remotes} {nroots : Nat → Nat} (h : DestsOk n dests nroots)
    {D : List Dist} (hD : newDist s (world n dests) (world n nroots) = some D) :
    ∃ D' order fan, D = world n D' ∧ CopyDist n dests nroots D' order fan := by
  obtain ⟨D', order, fan, h1, h2⟩ := newDist_of h hD
  exact ⟨D', order, fan, h1, h2.copyDist h⟩

end OmegaH
