import Verif.Model.Ghost
import Verif.Spec.Ghost
import Verif.Props.C22
import Verif.Props.C36
import Verif.Props.C37
/-!
# Lemmas for ghost layers
-/
namespace OmegaH
open Spec

/-- Exchange of one remote per item. -/
theorem exchRemotes_items {n : Nat} {dests : Nat → Remotes} {nroots : Nat → Nat} {D : Nat → Dist} {order : Nat → List (Nat × Nat)}
    {fan : Nat → List Nat} (h : CopyDist n dests nroots D order fan) (s : Nat → Nat → Sched) (data : Nat → Remotes)
    (hl : ∀ r, r < n → (data r).ranks.length = (dests r).ranks.length) (hl' : ∀ r, r < n → (data r).idxs.length = (dests r).ranks.length) :
    ∃ V : Nat → Remotes, exchRemotes s (world n D) 1 (world n data) = some (world n V) ∧
      (∀ p, p < n → (V p).ranks.length = (order p).length ∧ (V p).idxs.length = (order p).length) ∧
      ∀ p k r i : Nat, p < n → (order p)[k]? = some (r, i) → destOf V p k = destOf data r i := by
  obtain ⟨X, x1, x2, x3⟩ := exch_spec s h.ok (w := 1) (by omega) (fun r => (data r).ranks) (fun r hr => by rw [hl r hr, Nat.mul_one])
  obtain ⟨Y, y1, y2, y3⟩ := exch_spec (fun r k => s r (k + 4)) h.ok (w := 1) (by omega) (fun r => (data r).idxs)
    (fun r hr => by rw [hl' r hr, Nat.mul_one])
  refine ⟨fun r => ⟨X r, Y r⟩, ?_, ?_, ?_⟩
  · unfold exchRemotes
    rw [world_map n data, world_map n data, x1, Option.bind_some, y1, Option.map_some, world_zip, world_map]
  · intro p hp
    exact ⟨by rw [x2 p hp, Nat.mul_one], by rw [y2 p hp, Nat.mul_one]⟩
  · intro p k r i hp hk
    have hr := ((h.mem p hp r i).1 (List.mem_of_getElem? hk)).1
    have hroot : RootOf (D r).fwd i i := by unfold RootOf; rw [h.froots r hr]
    have hroute := (h.route r i p k hr hp).2 hk
    have e1 := x3 r i i p k hr hroot hroute 0 (by omega)
    have e2 := y3 r i i p k hr hroot hroute 0 (by omega)
    rw [entry_one, entry_one] at e1 e2
    unfold destOf
    dsimp only
    rw [e1, e2]

/-- The graph from owned vertices to elements that the code builds. -/
structure RemoteGraphOk (n deg : Nat) (A B : OldLevel) (fans : Nat → List Nat) (E : Nat → Remotes) : Prop where
  isFan : ∀ p, p < n → IsFan (fans p) ∧ (fans p).length = B.nents p + 1 ∧ (fans p).getLast? = some (E p).ranks.length
  dest : DestsOk n E A.nents
  edge : ∀ p v e, p < n → ((∃ k, InFan (fans p) v k ∧ destOf E p k = some e) ↔ IsElem n A e ∧ Touches deg A B (p, v) e)

theorem expandRemotes_spec (s1 s2 : Sched) (o : Remotes) (fan : List Nat) (m : Nat) (hf : IsFan fan) (hm : fan.getLast? = some m)
    (h1 : o.ranks.length = fan.length - 1) (h2 : o.idxs.length = fan.length - 1) :
    ∃ u, expandRemotes s1 s2 o fan = some u ∧ u.ranks.length = m ∧ u.idxs.length = m ∧
      ∀ w k : Nat, InFan fan w k → u.ranks[k]? = o.ranks[w]? ∧ u.idxs[k]? = o.idxs[w]? := by
  obtain ⟨x, x1, x2, x3⟩ := C05_expand s1 o.ranks fan 1 m hf hm (by omega)
  obtain ⟨y, y1, y2, y3⟩ := C05_expand s2 o.idxs fan 1 m hf hm (by omega)
  refine ⟨⟨x, y⟩, ?_, by rw [← Nat.mul_one m]; exact x2, by rw [← Nat.mul_one m]; exact y2, ?_⟩
  · unfold expandRemotes
    rw [x1, Option.bind_some, y1]; rfl
  · intro w k hk
    have e1 := x3 w k 0 hk (by omega)
    have e2 := y3 w k 0 hk (by omega)
    rw [entry_one, entry_one] at e1 e2
    exact ⟨e1, e2⟩

theorem unmapRemotes_spec (s1 s2 : Sched) (l : List Nat) (o : Remotes) (m : Nat) (hl : ∀ i ∈ l, i < m) (h1 : o.ranks.length = m)
    (h2 : o.idxs.length = m) :
    ∃ u, unmapRemotes s1 s2 l o = some u ∧ u.ranks.length = l.length ∧ u.idxs.length = l.length ∧
      ∀ k i : Nat, l[k]? = some i → u.ranks[k]? = o.ranks[i]? ∧ u.idxs[k]? = o.idxs[i]? := by
  obtain ⟨x, x1, x2, x3⟩ := C05_unmap s1 l o.ranks 1 m (by omega) hl
  obtain ⟨y, y1, y2, y3⟩ := C05_unmap s2 l o.idxs 1 m (by omega) hl
  refine ⟨⟨x, y⟩, ?_, by rw [← Nat.mul_one l.length]; exact x2, by rw [← Nat.mul_one l.length]; exact y2, ?_⟩
  · unfold unmapRemotes
    rw [x1, Option.bind_some, y1]; rfl
  · intro k i hk
    have e1 := x3 k i 0 hk (by omega)
    have e2 := y3 k i 0 hk (by omega)
    rw [entry_one, entry_one] at e1 e2
    exact ⟨e1, e2⟩

theorem owner_eq {o : OldLevel} {r i p x : Nat} :
    o.owner (r, i) = some (p, x) ↔ (o.ownRanks r)[i]? = some p ∧ (o.ownIdxs r)[i]? = some x :=
  destOf_eq (dests := fun r => ⟨o.ownRanks r, o.ownIdxs r⟩)

theorem ownerDests {n : Nat} (hn : n ≤ 2147483648) {o : OldLevel} (h : o.Ok n) :
    DestsOk n (fun r => ⟨o.ownRanks r, o.ownIdxs r⟩) o.nents := by
  have hlen : ∀ r, r < n → (o.ownIdxs r).length = (o.ownRanks r).length := fun r hr => by rw [h.ranksLen r hr, h.idxsLen r hr]
  refine ⟨hn, ?_, hlen, ?_⟩
  · intro r hr p hp
    obtain ⟨i, hi⟩ := List.getElem?_of_mem hp
    have hi : (o.ownRanks r)[i]? = some p := hi
    have hx := List.getElem?_eq_getElem (show i < (o.ownIdxs r).length by
      rw [hlen r hr]; exact (List.getElem?_eq_some_iff.1 hi).1)
    exact (h.ownerOk r i p _ hr (owner_eq.2 ⟨hi, hx⟩)).1
  · intro r hr i p x h1 h2
    exact (h.ownerOk r i p x hr (owner_eq.2 ⟨h1, h2⟩)).2

/-- `get_own_verts2own_elems`. -/
theorem graph_spec (s : Nat → Nat → Sched) {n deg : Nat} (hn : n ≤ 2147483648) {A B : OldLevel} (hA : A.Ok n) (hB : B.Ok n)
    (_hAB : LowsOk n deg A B) {fans upElems : Nat → List Nat} (hG : GhostOk n deg A B fans upElems) :
    ∃ gfans E, ownVerts2ownElems s (levelOf n A) (levelOf n B) ⟨world n fans, world n upElems⟩ = some ⟨world n gfans, world n E⟩ ∧
      RemoteGraphOk n deg A B gfans E := by
  have hup : ∀ r, r < n → ∀ i ∈ upElems r, i < A.nents r := by
    intro r hr i hi
    obtain ⟨k, hk⟩ := List.getElem?_of_mem hi
    obtain ⟨f1, f2, f3⟩ := hG.isFan r hr
    obtain ⟨w, hw⟩ := inFan_cover f1 (by rw [← List.getLast?_eq_getElem?]; exact f3) (List.getElem?_eq_some_iff.1 hk).1
    exact ((hG.up r w i hr).1 ⟨k, hw, hk⟩).1
  -- the elements of the local uses
  obtain ⟨W, w1, w2⟩ := choose_world (n := n)
    (fun r => ((world n upElems)[r]?).bind (fun l => ((levelOf n A).owners[r]?).bind (fun o => unmapRemotes (s r 0) (s r 1) l o)))
    (fun r (u : Remotes) => u.ranks.length = (upElems r).length ∧ u.idxs.length = (upElems r).length ∧
      ∀ k i : Nat, (upElems r)[k]? = some i → u.ranks[k]? = (A.ownRanks r)[i]? ∧ u.idxs[k]? = (A.ownIdxs r)[i]?) (by
    intro r hr
    obtain ⟨u, u1, u2, u3, u4⟩ := unmapRemotes_spec (s r 0) (s r 1) (upElems r) ⟨A.ownRanks r, A.ownIdxs r⟩ (A.nents r) (hup r hr)
      (hA.ranksLen r hr) (hA.idxsLen r hr)
    refine ⟨u, ?_, u2, u3, u4⟩
    rw [world_get _ hr, Option.bind_some]
    show ((world n (fun r => (⟨A.ownRanks r, A.ownIdxs r⟩ : Remotes)))[r]?).bind _ = _
    rw [world_get _ hr, Option.bind_some, u1])
  -- the vertices of the local uses
  obtain ⟨U, x1, x2⟩ := choose_world (n := n)
    (fun r => ((world n fans)[r]?).bind (fun fan => ((levelOf n B).owners[r]?).bind (fun o => expandRemotes (s r 2) (s r 3) o fan)))
    (fun r (u : Remotes) => u.ranks.length = (upElems r).length ∧ u.idxs.length = (upElems r).length ∧
      ∀ w k : Nat, InFan (fans r) w k → u.ranks[k]? = (B.ownRanks r)[w]? ∧ u.idxs[k]? = (B.ownIdxs r)[w]?) (by
    intro r hr
    obtain ⟨f1, f2, f3⟩ := hG.isFan r hr
    obtain ⟨u, u1, u2, u3, u4⟩ := expandRemotes_spec (s r 2) (s r 3) ⟨B.ownRanks r, B.ownIdxs r⟩ (fans r) _ f1 f3
      (by show (B.ownRanks r).length = _; rw [hB.ranksLen r hr]; omega) (by show (B.ownIdxs r).length = _; rw [hB.idxsLen r hr]; omega)
    refine ⟨u, ?_, u2, u3, u4⟩
    rw [world_get _ hr, Option.bind_some]
    show ((world n (fun r => (⟨B.ownRanks r, B.ownIdxs r⟩ : Remotes)))[r]?).bind _ = _
    rw [world_get _ hr, Option.bind_some, u1])
  have hU : ∀ r k p v, r < n → destOf U r k = some (p, v) → ∃ w, InFan (fans r) w k ∧ B.owner (r, w) = some (p, v) := by
    intro r k p v hr hd
    obtain ⟨d1, d2⟩ := destOf_eq.1 hd
    have hk := (List.getElem?_eq_some_iff.1 d1).1
    rw [(x2 r hr).1] at hk
    obtain ⟨f1, f2, f3⟩ := hG.isFan r hr
    obtain ⟨w, hw⟩ := inFan_cover f1 (by rw [← List.getLast?_eq_getElem?]; exact f3) hk
    obtain ⟨e1, e2⟩ := (x2 r hr).2.2 w k hw
    exact ⟨w, hw, owner_eq.2 ⟨e1 ▸ d1, e2 ▸ d2⟩⟩
  have hUd : DestsOk n U B.nents := by
    have hlen : ∀ r, r < n → (U r).idxs.length = (U r).ranks.length := fun r hr => by rw [(x2 r hr).1, (x2 r hr).2.1]
    refine ⟨hn, ?_, hlen, ?_⟩
    · intro r hr p hp
      obtain ⟨i, hi⟩ := List.getElem?_of_mem hp
      have hx := List.getElem?_eq_getElem (show i < (U r).idxs.length by
        rw [hlen r hr]; exact (List.getElem?_eq_some_iff.1 hi).1)
      obtain ⟨w, _, hw⟩ := hU r i p _ hr (destOf_eq.2 ⟨hi, hx⟩)
      exact (hB.ownerOk _ _ _ _ hr hw).1
    · intro r hr i p x h1 h2
      obtain ⟨w, _, hw⟩ := hU r i p _ hr (destOf_eq.2 ⟨h1, h2⟩)
      exact (hB.ownerOk _ _ _ _ hr hw).2
  obtain ⟨D, order, fan, d1, d2⟩ := newDist_spec (fun r k => s r (k + 4)) hUd.size hUd.rank hUd.len hUd.idx
  have hC := d2.copyDist hUd
  obtain ⟨E, e1, e2, e3⟩ := exchRemotes_items hC (fun r k => s r (k + 12)) W (fun r hr => by rw [(w2 r hr).1, (x2 r hr).1])
    (fun r hr => by rw [(w2 r hr).2.1, (x2 r hr).1])
  have hW : ∀ r k i : Nat, r < n → (upElems r)[k]? = some i → destOf W r k = A.owner (r, i) := by
    intro r k i hr hk
    obtain ⟨g1, g2⟩ := (w2 r hr).2.2 k i hk
    unfold destOf OldLevel.owner
    rw [g1, g2]
  have hedge : ∀ p v e, p < n → ((∃ k, InFan (fan p) v k ∧ destOf E p k = some e) ↔
      ∃ r i, r < n ∧ A.owner (r, i) = some e ∧ Touches deg A B (p, v) (r, i)) := by
    intro p v e hp
    obtain ⟨f1, f2, f3⟩ := hC.fanOk p hp
    constructor
    · rintro ⟨k, hk, hd⟩
      have hkl := (inFan_lt f1 hk (by rw [← List.getLast?_eq_getElem?]; exact f3)).1
      obtain ⟨⟨r, i⟩, ho⟩ : ∃ y, (order p)[k]? = some y := ⟨_, List.getElem?_eq_getElem hkl⟩
      obtain ⟨hr, hrank⟩ := (hC.mem p hp r i).1 (List.mem_of_getElem? ho)
      have hidx := (hC.group p hp k r i v ho).1 hk
      obtain ⟨w, hw, hown⟩ := hU r i p v hr (destOf_eq.2 ⟨hrank, hidx⟩)
      have hil := (List.getElem?_eq_some_iff.1 hrank).1
      rw [(x2 r hr).1] at hil
      have hel := List.getElem?_eq_getElem hil
      rw [e3 p k r i hp ho, hW r i _ hr hel] at hd
      obtain ⟨hlt, j, hj, hlo⟩ := (hG.up r w _ hr).1 ⟨i, hw, hel⟩
      refine ⟨r, _, hr, hd, j, hj, ?_⟩
      unfold lowOwner
      rw [hlo, Option.bind_some, hown]
    · rintro ⟨r, i, hr, hown, j, hj, hlo⟩
      unfold lowOwner at hlo
      cases hent : entry (A.lows r) deg i j with
      | none => rw [hent] at hlo; simp at hlo
      | some w =>
        rw [hent, Option.bind_some] at hlo
        obtain ⟨q, y⟩ := e
        have hi : i < A.nents r := by
          have := (List.getElem?_eq_some_iff.1 (owner_eq.1 hown).1).1
          rw [hA.ranksLen r hr] at this
          exact this
        obtain ⟨k, hk, hkk⟩ := (hG.up r w i hr).2 ⟨hi, j, hj, hent⟩
        obtain ⟨g1, g2⟩ := (x2 r hr).2.2 w k hk
        obtain ⟨o1, o2⟩ := owner_eq.1 hlo
        obtain ⟨k', ho⟩ := List.getElem?_of_mem ((hC.mem p hp r k).2 ⟨hr, by rw [g1, o1]⟩)
        refine ⟨k', (hC.group p hp k' r k v ho).2 (by rw [g2, o2]), ?_⟩
        rw [e3 p k' r k hp ho, hW r k i hr hkk, hown]
  have htotal : ∀ p k x, p < n → destOf E p k = some x → x.1 < n ∧ x.2 < A.nents x.1 := by
    rintro p k ⟨q, y⟩ hp hd
    have hk := (List.getElem?_eq_some_iff.1 (destOf_eq.1 hd).1).1
    rw [(e2 p hp).1] at hk
    obtain ⟨f1, f2, f3⟩ := hC.fanOk p hp
    obtain ⟨v, hv⟩ := inFan_cover f1 (by rw [← List.getLast?_eq_getElem?]; exact f3) hk
    obtain ⟨r, i, hr, ho, _⟩ := (hedge p v _ hp).1 ⟨k, hv, hd⟩
    exact hA.ownerOk r i q y hr ho
  have hElen : ∀ r, r < n → (E r).idxs.length = (E r).ranks.length := fun r hr => by rw [(e2 r hr).1, (e2 r hr).2]
  refine ⟨fan, E, ?_, ?_, ⟨hn, ?_, hElen, ?_⟩, ?_⟩
  · unfold ownVerts2ownElems localUses2ownElems localUses2ownVerts
    dsimp only
    rw [world_length, w1, Option.bind_some, world_length, x1, Option.bind_some]
    show (newDist _ _ (world n B.nents)).bind _ = _
    rw [d1, Option.bind_some, e1, Option.bind_some]
    rw [mapM_world D (fun d : Dist => d.rev.roots2items) fan (fun r hr => hC.rroots r hr)]
    rfl
  · intro p hp
    obtain ⟨f1, f2, f3⟩ := hC.fanOk p hp
    exact ⟨f1, f2, by rw [(e2 p hp).1]; exact f3⟩
  · intro r hr p hp
    obtain ⟨i, hi⟩ := List.getElem?_of_mem hp
    have hx := List.getElem?_eq_getElem (show i < (E r).idxs.length by
      rw [hElen r hr]; exact (List.getElem?_eq_some_iff.1 hi).1)
    exact (htotal r i (p, _) hr (destOf_eq.2 ⟨hi, hx⟩)).1
  · intro r hr i p x h1 h2
    exact (htotal r i (p, x) hr (destOf_eq.2 ⟨h1, h2⟩)).2
  · intro p v e hp
    rw [hedge p v e hp]
    constructor
    · rintro ⟨r, i, hr, ho, j, hj, hlo⟩
      exact ⟨⟨r, i, hr, ho⟩, j, hj, by rw [← hG.copies r i e hr ho j hj]; exact hlo⟩
    · rintro ⟨⟨r, i, hr, ho⟩, j, hj, hlo⟩
      exact ⟨r, i, hr, ho, j, hj, by rw [hG.copies r i e hr ho j hj]; exact hlo⟩

/-- One block of `push_elem_uses`. -/
theorem useBlock_spec (uses verts : List (Nat × Nat)) (su sv : List Nat) (hu : ∀ k ∈ su, k < uses.length)
    (hv : ∀ k ∈ sv, k < verts.length) :
    ∃ block, useBlock uses verts su sv = some block ∧ block.length = su.length * sv.length ∧
      ∀ x, x ∈ block ↔ ∃ u ∈ su, ∃ v ∈ sv, uses[u]? = some x.1 ∧ verts[v]? = some x.2 := by
  unfold useBlock
  induction sv with
  | nil => exact ⟨[], rfl, rfl, by simp⟩
  | cons v sv ih =>
    obtain ⟨block, b1, b2, b3⟩ := ih (fun k hk => hv k (by simp [hk]))
    obtain ⟨vert, hvert⟩ : ∃ y, verts[v]? = some y := ⟨_, List.getElem?_eq_getElem (hv v (by simp))⟩
    obtain ⟨row, r1, r2, r3, _⟩ := mapM_list_spec su (fun u => (uses[u]?).map (fun e => (e, vert))) (by
      intro u hmem
      rw [List.getElem?_eq_getElem (hu u hmem)]; rfl)
    rw [List.mapM_cons, hvert, Option.bind_some, r1]
    cases hm : sv.mapM (fun v => (verts[v]?).bind (fun vert => su.mapM (fun u => (uses[u]?).map (fun e => (e, vert))))) with
    | none => rw [hm] at b1; simp at b1
    | some rows =>
      rw [hm] at b1
      have b1 : rows.flatten = block := Option.some.inj b1
      refine ⟨row ++ block, ?_, ?_, ?_⟩
      · show some (row :: rows).flatten = _
        rw [List.flatten_cons, b1]
      · rw [List.length_append, b2, r2, List.length_cons, Nat.mul_add, Nat.mul_one, Nat.add_comm]
      · rintro ⟨e, w⟩
        rw [List.mem_append, b3, r3]
        constructor
        · rintro (⟨u, h1, h2⟩ | ⟨u, h1, v', h2, h3⟩)
          · cases he : uses[u]? with
            | none => rw [he] at h2; simp at h2
            | some e' =>
              rw [he, Option.map_some] at h2
              obtain ⟨rfl, rfl⟩ := Prod.mk.inj (Option.some.inj h2)
              exact ⟨u, h1, v, by simp, he, hvert⟩
          · exact ⟨u, h1, v', by simp [h2], h3⟩
        · rintro ⟨u, h1, v', h2, h3, h4⟩
          rcases List.mem_cons.1 h2 with rfl | h2
          · rw [hvert] at h4
            obtain rfl := Option.some.inj h4
            exact Or.inl ⟨u, h1, by dsimp only at h3; rw [h3]; rfl⟩
          · exact Or.inr ⟨u, h1, v', h2, h3, h4⟩

theorem fanMembers_length {o : List Nat} {a lo hi : Nat} (h1 : o[a]? = some lo) (h2 : o[a + 1]? = some hi) {bs : List Nat}
    (hb : fanMembers o a = some bs) : bs.length = hi - lo := by
  unfold fanMembers at hb
  rw [h1, h2] at hb
  obtain rfl := Option.some.inj hb
  exact List.length_range'

/-- The loop of `push_elem_uses` on one rank. -/
theorem pushUsesLocal_spec (s : Nat → Sched) {useFan vertFan : List Nat} {uses verts : Remotes} (hu : IsFan useFan) (hv : IsFan vertFan)
    (hlen : useFan.length = vertFan.length) (hul : useFan.getLast? = some uses.ranks.length)
    (hvl : vertFan.getLast? = some verts.ranks.length) (hui : uses.idxs.length = uses.ranks.length)
    (hvi : verts.idxs.length = verts.ranks.length) :
    ∃ items, pushUsesLocal s useFan uses vertFan verts = some items ∧
      ∀ x, x ∈ items ↔ ∃ ov u v : Nat, InFan useFan ov u ∧ InFan vertFan ov v ∧ (uses.ranks.zip uses.idxs)[u]? = some x.1 ∧
        (verts.ranks.zip verts.idxs)[v]? = some x.2 := by
  obtain ⟨out, prods, m1, m2, m3, m4⟩ := C06_multiply_fans (s 0) useFan vertFan hu hv hlen
  -- the blocks
  have hblock : ∀ ov, ov < vertFan.length - 1 → ∃ block sv su, fanMembers vertFan ov = some sv ∧ fanMembers useFan ov = some su ∧
      useBlock (uses.ranks.zip uses.idxs) (verts.ranks.zip verts.idxs) su sv = some block ∧
      prods[ov]? = some (block.length : Int) ∧
      ∀ x, x ∈ block ↔ ∃ u v : Nat, InFan useFan ov u ∧ InFan vertFan ov v ∧ (uses.ranks.zip uses.idxs)[u]? = some x.1 ∧
        (verts.ranks.zip verts.idxs)[v]? = some x.2 := by
    intro ov hov
    obtain ⟨sv, v1, _, v3⟩ := fanMembers_spec hov
    obtain ⟨su, u1, _, u3⟩ := fanMembers_spec (o := useFan) (a := ov) (by omega)
    obtain ⟨block, b1, b2, b3⟩ := useBlock_spec (uses.ranks.zip uses.idxs) (verts.ranks.zip verts.idxs) su sv (by
        intro k hk
        rw [List.length_zip, hui, Nat.min_self]
        exact (inFan_lt hu ((u3 k).1 hk) (by rw [← List.getLast?_eq_getElem?]; exact hul)).1) (by
        intro k hk
        rw [List.length_zip, hvi, Nat.min_self]
        exact (inFan_lt hv ((v3 k).1 hk) (by rw [← List.getLast?_eq_getElem?]; exact hvl)).1)
    refine ⟨block, sv, su, v1, u1, b1, ?_, ?_⟩
    · have e1 := List.getElem?_eq_getElem (show ov < useFan.length by omega)
      have e2 := List.getElem?_eq_getElem (show ov + 1 < useFan.length by omega)
      have e3 := List.getElem?_eq_getElem (show ov < vertFan.length by omega)
      have e4 := List.getElem?_eq_getElem (show ov + 1 < vertFan.length by omega)
      rw [m4 ov _ _ _ _ e1 e2 e3 e4, b2, fanMembers_length e1 e2 u1, fanMembers_length e3 e4 v1]
      have g1 := fan_le hu (Nat.le_succ ov) e1 e2
      have g2 := fan_le hv (Nat.le_succ ov) e3 e4
      congr 1
      push_cast [Int.ofNat_sub g1, Int.ofNat_sub g2]
      rfl
    · intro x
      rw [b3]
      constructor
      · rintro ⟨u, h1, v, h2, h3⟩
        exact ⟨u, v, (u3 u).1 h1, (v3 v).1 h2, h3⟩
      · rintro ⟨u, v, h1, h2, h3⟩
        exact ⟨u, (u3 u).2 h1, v, (v3 v).2 h2, h3⟩
  classical
  let R : Nat → List ((Nat × Nat) × (Nat × Nat)) := fun ov => if h : ov < vertFan.length - 1 then (hblock ov h).choose else []
  have hR : ∀ ov, ov < vertFan.length - 1 → ∃ sv su, fanMembers vertFan ov = some sv ∧ fanMembers useFan ov = some su ∧
      useBlock (uses.ranks.zip uses.idxs) (verts.ranks.zip verts.idxs) su sv = some (R ov) ∧
      prods[ov]? = some ((R ov).length : Int) ∧
      ∀ x, x ∈ R ov ↔ ∃ u v : Nat, InFan useFan ov u ∧ InFan vertFan ov v ∧ (uses.ranks.zip uses.idxs)[u]? = some x.1 ∧
        (verts.ranks.zip verts.idxs)[v]? = some x.2 := by
    intro ov h
    have e : R ov = (hblock ov h).choose := dif_pos h
    rw [e]
    exact (hblock ov h).choose_spec
  have hout : ∀ k, k ≤ vertFan.length - 1 → out[k]? = some (blockOff R k : Int) := by
    intro k hk
    induction k with
    | zero => exact m2.2.1
    | succ k ih =>
      obtain ⟨_, _, _, _, _, hp, _⟩ := hR k (by omega)
      rw [m2.2.2 k _ _ hp (ih (by omega)), blockOff_succ]
      push_cast; rfl
  have hvn := fan_ne_nil hv
  have hvp : 0 < vertFan.length := by
    rcases Nat.eq_zero_or_pos vertFan.length with h | h
    · exact absurd (List.length_eq_zero_iff.1 h) hvn
    · exact h
  have hol : out.length = vertFan.length := by rw [m2.1, m3]; omega
  have houteq : out = ((List.range vertFan.length).map (blockOff R)).map (fun n : Nat => (n : Int)) := by
    apply List.ext_getElem?
    intro k
    rw [List.getElem?_map, List.getElem?_map]
    rcases Nat.lt_or_ge k vertFan.length with h | h
    · rw [List.getElem?_range h, hout k (by omega)]; rfl
    · rw [List.getElem?_eq_none (by omega), List.getElem?_eq_none (by simpa using h)]; rfl
  have hget : ∀ k, k < vertFan.length → ((List.range vertFan.length).map (blockOff R))[k]? = some (blockOff R k) := by
    intro k hk
    rw [List.getElem?_map, List.getElem?_range hk]; rfl
  refine ⟨(List.range (vertFan.length - 1)).flatMap R, ?_, ?_⟩
  · unfold pushUsesLocal
    rw [m1, Option.bind_some, houteq, toIndices?_natCast, Option.bind_some]
    have hlast : ((List.range vertFan.length).map (blockOff R)).getLast? = some (blockOff R (vertFan.length - 1)) := by
      rw [List.getLast?_eq_getElem?, List.length_map, List.length_range]
      exact hget _ (by omega)
    rw [hlast, Option.bind_some, if_pos ⟨hui.symm, hvi.symm⟩]
    apply parConcat
    intro ov hov
    obtain ⟨sv, su, h1, h2, h3, _⟩ := hR ov hov
    rw [hget ov (by omega), Option.bind_some, hget (ov + 1) (by omega), Option.bind_some, h1, Option.bind_some, h2, Option.bind_some, h3,
      Option.bind_some, if_pos (blockOff_succ R ov).symm]
  · intro x
    rw [List.mem_flatMap]
    constructor
    · rintro ⟨ov, hov, hx⟩
      obtain ⟨_, _, _, _, _, _, h⟩ := hR ov (List.mem_range.1 hov)
      obtain ⟨u, v, hx⟩ := (h x).1 hx
      exact ⟨ov, u, v, hx⟩
    · rintro ⟨ov, u, v, h1, h2, h3⟩
      have hov : ov < vertFan.length - 1 := (inFan_lt hv h2 (by rw [← List.getLast?_eq_getElem?]; exact hvl)).2
      obtain ⟨_, _, _, _, _, _, h⟩ := hR ov hov
      exact ⟨ov, List.mem_range.2 hov, (h x).2 ⟨u, v, h1, h2, h3⟩⟩

/-- The destinations of the items of an inverted pattern are the copies. -/
theorem items2dests_rev {n : Nat} {dests : Nat → Remotes} {nroots : Nat → Nat} {D : Nat → Dist} {order : Nat → List (Nat × Nat)}
    {fan : Nat → List Nat} (h : CopyDist n dests nroots D order fan) (s : Nat → Nat → Sched) :
    items2dests s ((world n D).map Dist.invert) = some (world n (fun p => ⟨(order p).map Prod.fst, (order p).map Prod.snd⟩)) := by
  rw [world_map]
  obtain ⟨Y, y1, y2, y3⟩ := exch_spec (fun r k => s r (k + 3)) h.ok (w := 1) (by omega) (fun r => List.range (dests r).ranks.length)
    (fun r hr => by rw [List.length_range, Nat.mul_one])
  have hY : ∀ p, p < n → Y p = (order p).map Prod.snd := by
    intro p hp
    apply List.ext_getElem?
    intro k
    rw [List.getElem?_map]
    rcases Nat.lt_or_ge k (order p).length with hk | hk
    · obtain ⟨⟨r, i⟩, ho⟩ : ∃ y, (order p)[k]? = some y := ⟨_, List.getElem?_eq_getElem hk⟩
      obtain ⟨hr, hrank⟩ := (h.mem p hp r i).1 (List.mem_of_getElem? ho)
      have e1 := y3 r i i p k hr (by unfold RootOf; rw [h.froots r hr]) ((h.route r i p k hr hp).2 ho) 0 (by omega)
      rw [entry_one, entry_one, List.getElem?_range (List.getElem?_eq_some_iff.1 hrank).1] at e1
      rw [e1, ho]; rfl
    · rw [List.getElem?_eq_none (by rw [y2 p hp]; omega), List.getElem?_eq_none hk]; rfl
  unfold items2dests
  rw [world_length]
  have h1 : (List.range n).mapM (fun r => ((world n (fun r => (D r).invert))[r]?).bind (fun d => d.items2ranks (s r 0) (s r 1) (s r 2))) =
      some (world n (fun p => (order p).map Prod.fst)) := by
    refine mapM_range_some n _ _ ?_
    intro r hr
    rw [world_get _ hr, Option.bind_some, items2ranks_rev h _ _ _ hr]
  rw [h1, Option.bind_some]
  unfold Dist.items2destIdxs
  have h2 : (world n (fun r => (D r).invert)).mapM (fun d : Dist => d.ndests.map List.range) =
      some (world n (fun r => List.range (dests r).ranks.length)) := by
    refine mapM_world (fun r => (D r).invert) _ _ ?_
    intro r hr
    unfold Dist.ndests Dist.nsrcs
    show (match (D r).fwd.roots2items with | some fan => some (fan.length - 1) | none => (D r).nitems).map List.range = _
    rw [h.froots r hr]
    show (D r).nitems.map List.range = _
    rw [nitems_of h.ok hr]; rfl
  rw [h2, Option.bind_some, world_map]
  show (Dist.exch _ (world n D) 1 _).map _ = _
  rw [y1, Option.map_some, world_zip, world_map]
  congr 1
  apply world_congr
  intro p hp
  dsimp only
  rw [hY p hp]

/-- `push_elem_uses`: the elements that touch the vertices that a rank gets. -/
theorem pushElemUses_spec (s : Nat → Nat → Sched) {n deg : Nat} {A B : OldLevel} {gfans : Nat → List Nat} {E : Nat → Remotes}
    (hE : RemoteGraphOk n deg A B gfans E) {dv : Nat → Remotes} {D : Nat → Dist} {order : Nat → List (Nat × Nat)} {fan : Nat → List Nat}
    (h : CopyDist n dv B.nents D order fan) :
    ∃ V : Nat → Remotes, pushElemUses s ⟨world n gfans, world n E⟩ ((world n D).map Dist.invert) = some (world n V) ∧
      DestsOk n V A.nents ∧
      ∀ r e, r < n → ((∃ i, destOf V r i = some e) ↔ IsElem n A e ∧ ∃ v ∈ copiesOf dv r, Touches deg A B v e) := by
  unfold pushElemUses
  rw [items2dests_rev h, Option.bind_some]
  obtain ⟨L, l1, l2⟩ := choose_world (n := n)
    (fun r => (((world n D).map Dist.invert)[r]?).bind (fun d => (d.fwd.roots2items).bind (fun vertFan =>
      ((world n gfans)[r]?).bind (fun useFan => ((world n E)[r]?).bind (fun uses =>
      ((world n (fun p => (⟨(order p).map Prod.fst, (order p).map Prod.snd⟩ : Remotes)))[r]?).bind (fun verts =>
        pushUsesLocal (fun k => s r (k + 10)) useFan uses vertFan verts))))))
    (fun p (items : List ((Nat × Nat) × (Nat × Nat))) => ∀ x, x ∈ items ↔ ∃ ov u v : Nat, InFan (gfans p) ov u ∧ InFan (fan p) ov v ∧
      destOf E p u = some x.1 ∧ (order p)[v]? = some x.2) (by
    intro p hp
    obtain ⟨f1, f2, f3⟩ := h.fanOk p hp
    obtain ⟨g1, g2, g3⟩ := hE.isFan p hp
    obtain ⟨items, i1, i2⟩ := pushUsesLocal_spec (fun k => s p (k + 10)) (useFan := gfans p) (vertFan := fan p) (uses := E p)
      (verts := ⟨(order p).map Prod.fst, (order p).map Prod.snd⟩) g1 f1 (by omega) g3 (by simpa using f3) (hE.dest.len p hp) (by simp)
    refine ⟨items, ?_, ?_⟩
    · rw [world_map, world_get _ hp, Option.bind_some]
      show ((D p).rev.roots2items).bind _ = _
      rw [h.rroots p hp, Option.bind_some, world_get _ hp, Option.bind_some, world_get _ hp, Option.bind_some, world_get _ hp, Option.bind_some,
        i1]
    · intro x
      rw [i2]
      have hz : ∀ v : Nat, (((order p).map Prod.fst).zip ((order p).map Prod.snd))[v]? = (order p)[v]? := by
        intro v
        rw [List.zip_map', List.getElem?_map]
        cases (order p)[v]? <;> rfl
      have hc : ∀ u : Nat, ((E p).ranks.zip (E p).idxs)[u]? = destOf E p u := copiesOf_get E p
      simp only [hz, hc])
  have hLen : ((world n D).map Dist.invert).length = n := by rw [List.length_map, world_length]
  rw [hLen]
  dsimp only
  rw [l1, Option.bind_some, world_map n (fun r => D r)]
  have hnv : (world n (fun r => (D r).invert)).mapM (fun d : Dist => d.invert.nitems) = some (world n (fun r => (dv r).ranks.length)) := by
    refine mapM_world (fun r => (D r).invert) _ _ ?_
    intro r hr
    exact nitems_of h.ok hr
  rw [hnv, Option.bind_some, world_map n L, world_map n L]
  -- where the uses go
  let dU : Nat → Remotes := fun p => ⟨(L p).map (fun x => x.2.1), (L p).map (fun x => x.2.2)⟩
  have hdU : ∀ p j q i, destOf dU p j = some (q, i) ↔ ∃ e, (L p)[j]? = some (e, (q, i)) := by
    intro p j q i
    rw [destOf_eq]
    show ((L p).map (fun x => x.2.1))[j]? = some q ∧ ((L p).map (fun x => x.2.2))[j]? = some i ↔ _
    rw [List.getElem?_map, List.getElem?_map]
    cases hL : (L p)[j]? with
    | none => simp
    | some x =>
      obtain ⟨e, a, b⟩ := x
      simp
  have hok : DestsOk n dU (fun r => (dv r).ranks.length) := by
    have hb : ∀ p j q i, p < n → destOf dU p j = some (q, i) → q < n ∧ i < (dv q).ranks.length := by
      intro p j q i hp hd
      obtain ⟨e, he⟩ := (hdU p j q i).1 hd
      obtain ⟨ov, u, v, _, _, _, ho⟩ := (l2 p hp _).1 (List.mem_of_getElem? he)
      obtain ⟨hq, hi⟩ := (h.mem p hp q i).1 (List.mem_of_getElem? ho)
      exact ⟨hq, (List.getElem?_eq_some_iff.1 hi).1⟩
    have hl : ∀ r, r < n → (dU r).idxs.length = (dU r).ranks.length := by
      intro r hr
      show ((L r).map _).length = ((L r).map _).length
      rw [List.length_map, List.length_map]
    refine ⟨h.dest.size, ?_, hl, ?_⟩
    · intro r hr p hp
      obtain ⟨i, hi⟩ := List.getElem?_of_mem hp
      have hx := List.getElem?_eq_getElem (show i < (dU r).idxs.length by rw [hl r hr]; exact (List.getElem?_eq_some_iff.1 hi).1)
      exact (hb r i p _ hr (destOf_eq.2 ⟨hi, hx⟩)).1
    · intro r hr i p x h1 h2
      exact (hb r i p x hr (destOf_eq.2 ⟨h1, h2⟩)).2
  obtain ⟨D1, order1, fan1, d1, d2⟩ := newDist_spec (fun r k => s r (k + 12)) hok.size hok.rank hok.len hok.idx
  have hC := d2.copyDist hok
  let dE : Nat → Remotes := fun p => ⟨(L p).map (fun x => x.1.1), (L p).map (fun x => x.1.2)⟩
  have hlL : ∀ r, r < n → (dU r).ranks.length = (L r).length := fun r _ => List.length_map _
  obtain ⟨V, v1, v2, v3⟩ := exchRemotes_items hC (fun r k => s r (k + 22)) dE
    (fun r hr => by rw [hlL r hr]; exact List.length_map _) (fun r hr => by rw [hlL r hr]; exact List.length_map _)
  have hdE : ∀ p j e, destOf dE p j = some e ↔ ∃ w, (L p)[j]? = some (e, w) := by
    rintro p j ⟨q, i⟩
    rw [destOf_eq]
    show ((L p).map (fun x => x.1.1))[j]? = some q ∧ ((L p).map (fun x => x.1.2))[j]? = some i ↔ _
    rw [List.getElem?_map, List.getElem?_map]
    cases hL : (L p)[j]? with
    | none => simp
    | some x =>
      obtain ⟨⟨a, b⟩, w⟩ := x
      simp
  have hmain : ∀ r e, r < n → ((∃ i, destOf V r i = some e) ↔ IsElem n A e ∧ ∃ v ∈ copiesOf dv r, Touches deg A B v e) := by
    intro r e hr
    constructor
    · rintro ⟨k, hk⟩
      obtain ⟨q, y⟩ := e
      have hkl := (List.getElem?_eq_some_iff.1 (destOf_eq.1 hk).1).1
      rw [(v2 r hr).1] at hkl
      obtain ⟨⟨p, j⟩, ho⟩ : ∃ z, (order1 r)[k]? = some z := ⟨_, List.getElem?_eq_getElem hkl⟩
      obtain ⟨hp, hrank⟩ := (hC.mem r hr p j).1 (List.mem_of_getElem? ho)
      rw [v3 r k p j hr ho] at hk
      obtain ⟨⟨q', i⟩, hw⟩ := (hdE p j _).1 hk
      have hdu := (hdU p j q' i).2 ⟨_, hw⟩
      obtain rfl := Option.some.inj ((destOf_eq.1 hdu).1.symm.trans hrank)
      obtain ⟨ov, u, v, g1, g2, g3, g4⟩ := (l2 p hp _).1 (List.mem_of_getElem? hw)
      obtain ⟨t1, t2⟩ := (hE.edge p ov _ hp).1 ⟨u, g1, g3⟩
      refine ⟨t1, (p, ov), ?_, t2⟩
      obtain ⟨_, hi⟩ := (h.mem p hp q' i).1 (List.mem_of_getElem? g4)
      have hd : destOf dv q' i = some (p, ov) := destOf_eq.2 ⟨hi, (h.group p hp v q' i ov g4).1 g2⟩
      rw [← copiesOf_get] at hd
      exact List.mem_of_getElem? hd
    · rintro ⟨hel, ⟨p, ov⟩, hv, ht⟩
      obtain ⟨i, hi⟩ := List.getElem?_of_mem hv
      rw [copiesOf_get] at hi
      obtain ⟨_, hp, _⟩ := destOf_lt h.dest hr hi
      obtain ⟨i1, i2⟩ := destOf_eq.1 hi
      obtain ⟨v, hv⟩ := List.getElem?_of_mem ((h.mem p hp r i).2 ⟨hr, i1⟩)
      have hin := (h.group p hp v r i ov hv).2 i2
      obtain ⟨u, u1, u2⟩ := (hE.edge p ov e hp).2 ⟨hel, ht⟩
      obtain ⟨j, hj⟩ := List.getElem?_of_mem ((l2 p hp (e, (r, i))).2 ⟨ov, u, v, u1, hin, u2, hv⟩)
      have hdu := (hdU p j r i).2 ⟨_, hj⟩
      obtain ⟨k, hk⟩ := List.getElem?_of_mem ((hC.mem r hr p j).2 ⟨hp, (destOf_eq.1 hdu).1⟩)
      exact ⟨k, by rw [v3 r k p j hr hk]; exact (hdE p j e).2 ⟨_, hj⟩⟩
  refine ⟨V, ?_, ?_, hmain⟩
  · have d1 : newDist (fun r k => s r (k + 12)) (world n (fun r => (⟨(L r).map (fun x => x.2.1), (L r).map (fun x => x.2.2)⟩ : Remotes)))
        (world n (fun r => (dv r).ranks.length)) = some (world n D1) := d1
    rw [d1, Option.bind_some]
    exact v1
  · have hl : ∀ r, r < n → (V r).idxs.length = (V r).ranks.length := fun r hr => by rw [(v2 r hr).1, (v2 r hr).2]
    have hb : ∀ r j q i, r < n → destOf V r j = some (q, i) → q < n ∧ i < A.nents q := by
      intro r j q i hr hd
      have hjl := (List.getElem?_eq_some_iff.1 (destOf_eq.1 hd).1).1
      rw [(v2 r hr).1] at hjl
      obtain ⟨⟨p, t⟩, ho⟩ : ∃ z, (order1 r)[j]? = some z := ⟨_, List.getElem?_eq_getElem hjl⟩
      obtain ⟨hp, _⟩ := (hC.mem r hr p t).1 (List.mem_of_getElem? ho)
      rw [v3 r j p t hr ho] at hd
      obtain ⟨w, hw⟩ := (hdE p t _).1 hd
      obtain ⟨ov, u, v, _, _, g3, _⟩ := (l2 p hp _).1 (List.mem_of_getElem? hw)
      obtain ⟨_, z1, z2⟩ := destOf_lt hE.dest hp g3
      exact ⟨z1, z2⟩
    refine ⟨h.dest.size, ?_, hl, ?_⟩
    · intro r hr p hp
      obtain ⟨i, hi⟩ := List.getElem?_of_mem hp
      have hx := List.getElem?_eq_getElem (show i < (V r).idxs.length by rw [hl r hr]; exact (List.getElem?_eq_some_iff.1 hi).1)
      exact (hb r i p _ hr (destOf_eq.2 ⟨hi, hx⟩)).1
    · intro r hr i p x h1 h2
      exact (hb r i p x hr (destOf_eq.2 ⟨h1, h2⟩)).2

/-- From uses to the pattern of distinct entities. -/
theorem distinct_spec (s1 s2 : Nat → Nat → Sched) {n : Nat} {A : OldLevel} (hA : A.Ok n) {V : Nat → Remotes} (hV : DestsOk n V A.nents)
    {P : Nat → Nat × Nat → Prop} (hP : ∀ r e, r < n → ((∃ i, destOf V r i = some e) ↔ P r e)) :
    ∃ (D2 : Nat → Dist) (dests : Nat → Remotes) (order : Nat → List (Nat × Nat)) (fan : Nat → List Nat),
      (newDist s1 (world n V) (levelOf n A).nents).bind (fun d => newCopies2oldOwners s2 d (levelOf n A).globals) = some (world n D2) ∧
      CopyDist n dests A.nents D2 order fan ∧ ElemsAre n A P (copiesOf dests) := by
  obtain ⟨D1, order1, fan1, d1, d2⟩ := newDist_spec s1 hV.size hV.rank hV.len hV.idx
  have hC1 := d2.copyDist hV
  obtain ⟨D2, dests2, order2, fan2, c1, c2, c3⟩ := newCopies_spec s2 hC1 A.globals hA.globalsLen
  refine ⟨D2, dests2, order2, fan2, ?_, c2, ?_, ?_, ?_⟩
  · show (newDist s1 (world n V) (world n A.nents)).bind (fun d => newCopies2oldOwners s2 d (world n A.globals)) = _
    rw [d1, Option.bind_some, c1]
  · intro r hr
    rw [List.nodup_iff_getElem?_ne_getElem?]
    intro i j hij hj he
    have e1 := List.getElem?_eq_getElem hj
    rw [e1] at he
    rw [copiesOf_get] at e1 he
    have := c3.once r i j _ hr he e1
    omega
  · intro r e hr
    rw [← hP r e hr, c3.same r e hr]
    constructor
    · intro hm
      obtain ⟨i, hi⟩ := List.getElem?_of_mem hm
      rw [copiesOf_get] at hi
      exact ⟨i, hi⟩
    · rintro ⟨i, hi⟩
      rw [← copiesOf_get] at hi
      exact List.mem_of_getElem? hi
  · intro r hr
    rw [List.pairwise_iff_getElem]
    intro i j hi hj hij a b ha hb
    have e1 := List.getElem?_eq_getElem hi
    have e2 := List.getElem?_eq_getElem hj
    rw [copiesOf_get] at e1 e2
    exact c3.sorted r i j _ _ _ _ a b hr hij e1 e2 ha hb

/-- `close_up`. -/
theorem closeUp_spec (s : Nat → Nat → Sched) {n deg : Nat} {A B : OldLevel} (hA : A.Ok n) {gfans : Nat → List Nat} {E : Nat → Remotes}
    (hE : RemoteGraphOk n deg A B gfans E) {dv : Nat → Remotes} {D : Nat → Dist} {order : Nat → List (Nat × Nat)} {fan : Nat → List Nat}
    (h : CopyDist n dv B.nents D order fan) :
    ∃ (D2 : Nat → Dist) (de : Nat → Remotes) (order2 : Nat → List (Nat × Nat)) (fan2 : Nat → List Nat),
      closeUp s (levelOf n A) ⟨world n gfans, world n E⟩ (world n D) = some (world n D2) ∧ CopyDist n de A.nents D2 order2 fan2 ∧
      ElemsAre n A (fun r e => IsElem n A e ∧ ∃ v ∈ copiesOf dv r, Touches deg A B v e) (copiesOf de) := by
  obtain ⟨V, v1, v2, v3⟩ := pushElemUses_spec s hE h
  obtain ⟨D2, de, order2, fan2, e1, e2, e3⟩ := distinct_spec (fun r k => s r (k + 30)) (fun r k => s r (k + 40)) hA v2 v3
  refine ⟨D2, de, order2, fan2, ?_, e2, e3⟩
  unfold closeUp
  rw [v1, Option.bind_some]
  exact e1

/-- `close_down`, for elements with `dim + 1` vertices. -/
theorem closeDown_spec (s : Nat → Nat → Sched) {n dim : Nat} {A B : OldLevel} (hB : B.Ok n) {U : Nat → Remotes}
    (hU : UseOwners n (dim + 1) A B U) {de : Nat → Remotes} {D : Nat → Dist} {order : Nat → List (Nat × Nat)} {fan : Nat → List Nat}
    (h : CopyDist n de A.nents D order fan) :
    ∃ (D2 : Nat → Dist) (dv : Nat → Remotes) (order2 : Nat → List (Nat × Nat)) (fan2 : Nat → List Nat),
      closeDown s dim (levelOf n B) (world n U) (world n D) = some (world n D2) ∧ CopyDist n dv B.nents D2 order2 fan2 ∧
      ElemsAre n B (fun r v => ∃ f ∈ copiesOf de r, Touches (dim + 1) A B v f) (copiesOf dv) := by
  obtain ⟨V, v1, v2, v3, v4, v5⟩ := lowUses_spec s (Nat.succ_pos dim) h hU
  obtain ⟨D2, dv, order2, fan2, e1, e2, e3⟩ := distinct_spec (fun r k => s r (k + 10)) (fun r k => s r (k + 20)) hB v5
    (P := fun r v => ∃ f ∈ copiesOf de r, Touches (dim + 1) A B v f) (by
    intro r e hr
    constructor
    · rintro ⟨i, hi⟩
      obtain ⟨a, f, j, g1, g2, _, g4⟩ := v4 r i e hr hi
      rw [← copiesOf_get] at g1
      exact ⟨f, List.mem_of_getElem? g1, j, g2, g4⟩
    · rintro ⟨f, hf, j, hj, hlo⟩
      obtain ⟨a, ha⟩ := List.getElem?_of_mem hf
      rw [copiesOf_get] at ha
      obtain ⟨e', e1, e2, _⟩ := v3 r a f hr ha j hj
      rw [hlo] at e1
      obtain rfl := Option.some.inj e1
      exact ⟨_, e2⟩)
  refine ⟨D2, dv, order2, fan2, ?_, e2, e3⟩
  unfold closeDown
  rw [v1, Option.bind_some]
  exact e1

/-- The loop of `ghost_mesh`: every round adds one hop. -/
theorem ghostLoop_spec (s : Nat → Nat → Nat → Sched) {n dim : Nat} {A B : OldLevel} (hA : A.Ok n) (hB : B.Ok n)
    {gfans : Nat → List Nat} {E : Nat → Remotes} (hE : RemoteGraphOk n (dim + 1) A B gfans E) {U : Nat → Remotes}
    (hU : UseOwners n (dim + 1) A B U) :
    ∀ (k m : Nat) {de : Nat → Remotes} {D : Nat → Dist} {order : Nat → List (Nat × Nat)} {fan : Nat → List Nat},
    CopyDist n de A.nents D order fan → ElemsAre n A (fun r e => Within n (dim + 1) A B r m e) (copiesOf de) →
    ∃ (D2 : Nat → Dist) (de2 : Nat → Remotes) (order2 : Nat → List (Nat × Nat)) (fan2 : Nat → List Nat),
      ghostLoop s dim (levelOf n A) (levelOf n B) ⟨world n gfans, world n E⟩ (world n U) k (world n D) = some (world n D2) ∧
      CopyDist n de2 A.nents D2 order2 fan2 ∧
      ElemsAre n A (fun r e => Within n (dim + 1) A B r (m + k) e) (copiesOf de2) := by
  intro k
  induction k with
  | zero => intro m de D order fan h hm; exact ⟨D, de, order, fan, rfl, h, hm⟩
  | succ k ih =>
    intro m de D order fan h hm
    obtain ⟨D1, dv, o1, f1, a1, a2, a3⟩ := closeDown_spec (s k) hB hU h
    obtain ⟨D2, de2, o2, f2, b1, b2, b3⟩ := closeUp_spec (fun r i => s k r (i + 40)) hA hE a2
    have hstep : ElemsAre n A (fun r e => Within n (dim + 1) A B r (m + 1) e) (copiesOf de2) := by
      refine ⟨b3.once, ?_, b3.sorted⟩
      intro r e hr
      rw [b3.mem r e hr]
      constructor
      · rintro ⟨hel, v, hv, ht⟩
        obtain ⟨f, hf, htf⟩ := (a3.mem r v hr).1 hv
        exact Within.hop m f e v ((hm.mem r f hr).1 hf) htf hel ht
      · rintro (_ | ⟨_, f, _, v, hf, htf, hel, ht⟩)
        exact ⟨hel, v, (a3.mem r v hr).2 ⟨f, (hm.mem r f hr).2 hf, htf⟩, ht⟩
    obtain ⟨D3, de3, o3, f3, c1, c2, c3⟩ := ih (m + 1) b2 hstep
    refine ⟨D3, de3, o3, f3, ?_, c2, ?_⟩
    · show (closeDown (s k) dim (levelOf n B) (world n U) (world n D)).bind _ = _
      rw [a1, Option.bind_some, b1, Option.bind_some]
      exact c1
    · rw [show m + (k + 1) = m + 1 + k by omega]
      exact c3

end OmegaH
