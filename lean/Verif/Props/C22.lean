import Verif.Spec.Migrate
import Verif.Lemmas.NewConn
import Verif.Props.C21
import Mathlib.Tactic.FinCases
/-!
# C22: migration
-/
namespace OmegaH
open Spec

/-- The arguments of the code. -/
def levelOf (n : Nat) (o : OldLevel) : MeshLevel :=
  ⟨world n o.nents, world n (fun r => ⟨o.ownRanks r, o.ownIdxs r⟩), world n o.globals, world n o.lows, o.codes.map (world n),
    o.tags.map (fun t => (t.1, world n t.2))⟩

/-- The results of the code. Vertices have no connectivity. -/
def newLevelOf (n : Nat) (N : NewData) : NewLevel :=
  ⟨(N.conn.map (world n)).getD [], N.codes.map (world n), N.tags.map (fun t => (t.1, world n t.2)), world n N.ownRanks, world n N.ownIdxs⟩

/-- The entities that the items of a pattern are copies of. -/
def copiesOf (dests : Nat → Remotes) (r : Nat) : List (Nat × Nat) := (dests r).ranks.zip (dests r).idxs

theorem copiesOf_get (dests : Nat → Remotes) (r i : Nat) : (copiesOf dests r)[i]? = destOf dests r i := by
  apply Option.ext
  rintro ⟨p, x⟩
  unfold copiesOf
  rw [destOf_eq, List.getElem?_zip_eq_some]

theorem copiesOf_length {n : Nat} {dests : Nat → Remotes} {nroots : Nat → Nat} (h : DestsOk n dests nroots) {r : Nat} (hr : r < n) :
    (copiesOf dests r).length = (dests r).ranks.length := by
  unfold copiesOf
  rw [List.length_zip, h.len r hr, Nat.min_self]

theorem destOf_total {n : Nat} {dests : Nat → Remotes} {nroots : Nat → Nat} (h : DestsOk n dests nroots) {r i : Nat} (hr : r < n)
    (hi : i < (dests r).ranks.length) : ∃ p x, destOf dests r i = some (p, x) ∧ p < n ∧ x < nroots p := by
  have h1 := List.getElem?_eq_getElem hi
  have h2 := List.getElem?_eq_getElem (show i < (dests r).idxs.length by rw [h.len r hr]; exact hi)
  exact ⟨_, _, destOf_eq.2 ⟨h1, h2⟩, h.rank r hr _ (List.mem_of_getElem? h1), h.idx r hr i _ _ h1 h2⟩

theorem destOf_lt {n : Nat} {dests : Nat → Remotes} {nroots : Nat → Nat} (h : DestsOk n dests nroots) {r i p x : Nat} (hr : r < n)
    (hd : destOf dests r i = some (p, x)) : i < (dests r).ranks.length ∧ p < n ∧ x < nroots p := by
  obtain ⟨h1, h2⟩ := destOf_eq.1 hd
  exact ⟨(List.getElem?_eq_some_iff.1 h1).1, h.rank r hr _ (List.mem_of_getElem? h1), h.idx r hr i _ _ h1 h2⟩

theorem carried_spec {n : Nat} {dests : Nat → Remotes} {nroots : Nat → Nat} {D : Nat → Dist} {order : Nat → List (Nat × Nat)}
    {fan : Nat → List Nat} (h : CopyDist n dests nroots D order fan) {α : Type} (s : Nat → Nat → Sched) (w : Nat) (hw : 0 < w)
    (data : Nat → List α) (hl : ∀ p, p < n → (data p).length = nroots p * w) :
    ∃ out, Dist.exch s ((world n D).map Dist.invert) w (world n data) = some (world n out) ∧ Carried n w (copiesOf dests) data out := by
  obtain ⟨out, o1, o2⟩ := exch_back h s w hw data hl
  refine ⟨out, o1, ?_⟩
  intro r hr
  refine ⟨by rw [(o2 r hr).1, copiesOf_length h.dest hr], ?_⟩
  intro i p x hi j hj
  rw [copiesOf_get] at hi
  exact (o2 r hr).2 i p x hi j hj

theorem pushTags_spec {n : Nat} {dests : Nat → Remotes} {nroots : Nat → Nat} {D : Nat → Dist} {order : Nat → List (Nat × Nat)}
    {fan : Nat → List Nat} (h : CopyDist n dests nroots D order fan) (s : Nat → Nat → Sched) :
    ∀ tags : List (Nat × (Nat → List Int)), (∀ t ∈ tags, 0 < t.1 ∧ ∀ r, r < n → (t.2 r).length = nroots r * t.1) →
    ∃ new : List (Nat × (Nat → List Int)), pushTags s ((world n D).map Dist.invert) (tags.map (fun t => (t.1, world n t.2))) =
        some (new.map (fun t => (t.1, world n t.2))) ∧
      List.Forall₂ (fun t t' => t.1 = t'.1 ∧ Carried n t.1 (copiesOf dests) t.2 t'.2) tags new := by
  intro tags
  unfold pushTags
  induction tags with
  | nil => intro _; exact ⟨[], rfl, List.Forall₂.nil⟩
  | cons t tags ih =>
    intro ht
    obtain ⟨new, e, f⟩ := ih (fun t' h' => ht t' (by simp [h']))
    obtain ⟨h1, h2⟩ := ht t (by simp)
    obtain ⟨out, o1, o2⟩ := carried_spec h s t.1 h1 t.2 h2
    refine ⟨(t.1, out) :: new, ?_, List.Forall₂.cons ⟨rfl, o2⟩ f⟩
    rw [List.map_cons, List.mapM_cons]
    dsimp only
    rw [o1, e]
    rfl

/-- The owners of the lower entities of all entities. -/
theorem downUseOwners_spec (s : Nat → Nat → Sched) {n deg : Nat} {A B : OldLevel} (hB : B.Ok n) (hAB : LowsOk n deg A B) :
    ∃ U : Nat → Remotes, downUseOwners s (levelOf n A) (levelOf n B) = some (world n U) ∧
      ∀ p, p < n → (U p).ranks.length = A.nents p * deg ∧ (U p).idxs.length = A.nents p * deg ∧
        ∀ x j, x < A.nents p → j < deg → ∃ q y, lowOwner A B deg (p, x) j = some (q, y) ∧ q < n ∧ y < B.nents q ∧
          entry (U p).ranks deg x j = some q ∧ entry (U p).idxs deg x j = some y := by
  unfold downUseOwners levelOf
  dsimp only
  rw [world_length]
  refine choose_world _ (fun p (u : Remotes) => u.ranks.length = A.nents p * deg ∧ u.idxs.length = A.nents p * deg ∧
    ∀ x j, x < A.nents p → j < deg → ∃ q y, lowOwner A B deg (p, x) j = some (q, y) ∧ q < n ∧ y < B.nents q ∧
      entry u.ranks deg x j = some q ∧ entry u.idxs deg x j = some y) ?_
  intro p hp
  obtain ⟨ra, a1, a2, a3⟩ := C05_unmap (s p 0) (A.lows p) (B.ownRanks p) 1 (B.nents p) (by rw [hB.ranksLen p hp]; omega) (hAB.idx p hp)
  obtain ⟨ix, b1, b2, b3⟩ := C05_unmap (s p 1) (A.lows p) (B.ownIdxs p) 1 (B.nents p) (by rw [hB.idxsLen p hp]; omega) (hAB.idx p hp)
  refine ⟨⟨ra, ix⟩, ?_, by rw [a2, Nat.mul_one, hAB.len p hp], by rw [b2, Nat.mul_one, hAB.len p hp], ?_⟩
  · rw [world_get _ hp, Option.bind_some, world_get _ hp, Option.bind_some]
    unfold unmapRemotes
    dsimp only
    rw [a1, Option.bind_some, b1]; rfl
  · intro x j hx hj
    have hlt : x * deg + j < (A.lows p).length := by
      rw [hAB.len p hp]
      have : (x + 1) * deg ≤ A.nents p * deg := Nat.mul_le_mul_right _ hx
      rw [Nat.succ_mul] at this
      omega
    have hl := List.getElem?_eq_getElem hlt
    have hll := hAB.idx p hp _ (List.mem_of_getElem? hl)
    obtain ⟨q, hr⟩ : ∃ q, (B.ownRanks p)[(A.lows p)[x * deg + j]]? = some q :=
      ⟨_, List.getElem?_eq_getElem (by rw [hB.ranksLen p hp]; exact hll)⟩
    obtain ⟨y, hi⟩ : ∃ y, (B.ownIdxs p)[(A.lows p)[x * deg + j]]? = some y :=
      ⟨_, List.getElem?_eq_getElem (by rw [hB.idxsLen p hp]; exact hll)⟩
    have howner : B.owner (p, (A.lows p)[x * deg + j]) = some (q, y) := by
      unfold OldLevel.owner
      rw [hr, Option.bind_some, hi]; rfl
    obtain ⟨h1, h2⟩ := hB.ownerOk _ _ _ _ hp howner
    refine ⟨_, _, ?_, h1, h2, ?_, ?_⟩
    · unfold lowOwner
      show (entry (A.lows p) deg x j).bind _ = _
      unfold entry
      rw [hl, Option.bind_some]
      exact howner
    · have := a3 _ _ 0 hl (by omega)
      rw [entry_one, entry_one, hr] at this
      exact this
    · have := b3 _ _ 0 hl (by omega)
      rw [entry_one, entry_one, hi] at this
      exact this

theorem pushCodes_spec {n : Nat} {dests : Nat → Remotes} {nroots : Nat → Nat} {D : Nat → Dist} {order : Nat → List (Nat × Nat)}
    {fan : Nat → List Nat} (h : CopyDist n dests nroots D order fan) (s : Nat → Nat → Sched) {deg : Nat} (hpos : 0 < deg)
    (codes : Option (Nat → List Int)) (hl : ∀ c, codes = some c → ∀ r, r < n → (c r).length = nroots r * deg) :
    ∃ new : Option (Nat → List Int), pushCodes s deg ((world n D).map Dist.invert) (codes.map (world n)) = some (new.map (world n)) ∧
      (codes = none → new = none) ∧ ∀ c, codes = some c → ∃ c', new = some c' ∧ Carried n deg (copiesOf dests) c c' := by
  cases codes with
  | none => exact ⟨none, rfl, fun _ => rfl, fun _ h => (nomatch h)⟩
  | some c =>
    obtain ⟨out, o1, o2⟩ := carried_spec h s deg hpos c (hl c rfl)
    refine ⟨some out, ?_, fun h => (nomatch h), fun c' hc => ?_⟩
    · show (Dist.exch _ _ _ _).map some = _
      rw [o1]; rfl
    · obtain rfl := Option.some.inj hc
      exact ⟨out, rfl, o2⟩

/-- What the code knows of the lower entities: the owners, in the order of the entities. -/
def UseOwners (n deg : Nat) (A B : OldLevel) (U : Nat → Remotes) : Prop :=
  ∀ p, p < n → (U p).ranks.length = A.nents p * deg ∧ (U p).idxs.length = A.nents p * deg ∧
    ∀ x j, x < A.nents p → j < deg → ∃ q y, lowOwner A B deg (p, x) j = some (q, y) ∧ q < n ∧ y < B.nents q ∧
      entry (U p).ranks deg x j = some q ∧ entry (U p).idxs deg x j = some y

/-- The owners of the lower entities of the copies. -/
theorem lowUses_spec (s : Nat → Nat → Sched) {n deg : Nat} {A B : OldLevel} (hpos : 0 < deg)
    {dests : Nat → Remotes} {D : Nat → Dist} {order : Nat → List (Nat × Nat)} {fan : Nat → List Nat}
    (h : CopyDist n dests A.nents D order fan) {U : Nat → Remotes} (u2 : UseOwners n deg A B U) :
    ∃ V : Nat → Remotes, exchRemotes s ((world n D).map Dist.invert) deg (world n U) = some (world n V) ∧
      (∀ r, r < n → (V r).ranks.length = (dests r).ranks.length * deg) ∧
      (∀ r a f, r < n → destOf dests r a = some f → ∀ j, j < deg → ∃ e : Nat × Nat, lowOwner A B deg f j = some e ∧
        destOf V r (a * deg + j) = some e ∧ e.1 < n ∧ e.2 < B.nents e.1) ∧
      (∀ r i e, r < n → destOf V r i = some e → ∃ a f j, destOf dests r a = some f ∧ j < deg ∧ i = a * deg + j ∧
        lowOwner A B deg f j = some e) ∧
      DestsOk n V B.nents := by
  obtain ⟨VR, v1, v2⟩ := exch_back h s deg hpos (fun p => (U p).ranks) (fun p hp => (u2 p hp).1)
  obtain ⟨VI, i1, i2⟩ := exch_back h (fun r k => s r (k + 4)) deg hpos (fun p => (U p).idxs) (fun p hp => (u2 p hp).2.1)
  let V : Nat → Remotes := fun r => ⟨VR r, VI r⟩
  -- the uses on the new ranks
  have hV : ∀ r a f, r < n → destOf dests r a = some f → ∀ j, j < deg → ∃ e : Nat × Nat, lowOwner A B deg f j = some e ∧
      destOf V r (a * deg + j) = some e ∧ e.1 < n ∧ e.2 < B.nents e.1 := by
    rintro r a ⟨p, x⟩ hr hd j hj
    obtain ⟨_, hp, hx⟩ := destOf_lt h.dest hr hd
    obtain ⟨q, y, g1, g2, g3, g4, g5⟩ := (u2 p hp).2.2 x j hx hj
    have w1 := (v2 r hr).2 a p x hd j hj
    have w2 := (i2 r hr).2 a p x hd j hj
    rw [g4] at w1
    rw [g5] at w2
    exact ⟨(q, y), g1, destOf_eq.2 ⟨w1, w2⟩, g2, g3⟩
  have hcov : ∀ r i e, r < n → destOf V r i = some e → ∃ a f j, destOf dests r a = some f ∧ j < deg ∧ i = a * deg + j ∧ lowOwner A B deg f j = some e := by
    rintro r i ⟨q, y⟩ hr hd
    have hi := (List.getElem?_eq_some_iff.1 (destOf_eq.1 hd).1).1
    have hi : i < (VR r).length := hi
    rw [(v2 r hr).1] at hi
    have ha : i / deg < (dests r).ranks.length := Nat.div_lt_of_lt_mul (by rw [Nat.mul_comm]; exact hi)
    have hj := Nat.mod_lt i hpos
    have hij : i = i / deg * deg + i % deg := by rw [Nat.mul_comm, Nat.div_add_mod]
    obtain ⟨p, x, hd', _⟩ := destOf_total h.dest hr ha
    obtain ⟨e, e1, e2, _⟩ := hV r (i / deg) (p, x) hr hd' (i % deg) hj
    rw [← hij, hd] at e2
    obtain rfl := Option.some.inj e2
    exact ⟨i / deg, (p, x), i % deg, hd', hj, hij, e1⟩
  have hVok : DestsOk n V B.nents := by
    have hbound : ∀ r i p x, r < n → destOf V r i = some (p, x) → p < n ∧ x < B.nents p := by
      intro r i p x hr hd
      obtain ⟨a, f, j, c1, c2, c3, _⟩ := hcov r i _ hr hd
      obtain ⟨e, _, e2, e3⟩ := hV r a f hr c1 j c2
      rw [← c3, hd] at e2
      obtain rfl := Option.some.inj e2
      exact e3
    have hlen : ∀ r, r < n → (V r).idxs.length = (V r).ranks.length := by
      intro r hr
      show (VI r).length = (VR r).length
      rw [(i2 r hr).1, (v2 r hr).1]
    refine ⟨h.dest.size, ?_, hlen, ?_⟩
    · intro r hr p hp
      obtain ⟨i, hi⟩ := List.getElem?_of_mem hp
      have hil := (List.getElem?_eq_some_iff.1 hi).1
      have hx := List.getElem?_eq_getElem (show i < (V r).idxs.length by rw [hlen r hr]; exact hil)
      exact (hbound r i p _ hr (destOf_eq.2 ⟨hi, hx⟩)).1
    · intro r hr i p x h1 h2
      exact (hbound r i p x hr (destOf_eq.2 ⟨h1, h2⟩)).2
  refine ⟨V, ?_, fun r hr => (v2 r hr).1, hV, hcov, hVok⟩
  unfold exchRemotes
  rw [world_map n U, world_map n U, v1, Option.bind_some]
  have i1 : Dist.exch (fun r k => s r (k + 4)) ((world n D).map Dist.invert) deg (world n (fun p => (U p).idxs)) = some (world n VI) := i1
  rw [i1, Option.map_some, world_zip, world_map]

/-- `push_down`. -/
theorem pushDown_spec (s : Nat → Nat → Sched) {n deg : Nat} {A B : OldLevel} (hB : B.Ok n) (hAB : LowsOk n deg A B)
    {dests : Nat → Remotes} {D : Nat → Dist} {order : Nat → List (Nat × Nat)} {fan : Nat → List Nat}
    (h : CopyDist n dests A.nents D order fan) :
    ∃ (conn : Nat → List Int) (codes : Option (Nat → List Int)) (D2 : Nat → Dist) (dests2 : Nat → Remotes)
      (order2 : Nat → List (Nat × Nat)) (fan2 : Nat → List Nat),
      pushDown s deg (levelOf n A) (levelOf n B) ((world n D).map Dist.invert) =
        some ⟨world n conn, codes.map (world n), (world n D2).map Dist.invert⟩ ∧
      CopyDist n dests2 B.nents D2 order2 fan2 ∧
      UsedOnce n deg A B (copiesOf dests) (copiesOf dests2) ∧
      ConnOk n deg A B (copiesOf dests) (copiesOf dests2) conn ∧
      (A.codes = none → codes = none) ∧ ∀ c, A.codes = some c → ∃ c', codes = some c' ∧ Carried n deg (copiesOf dests) c c' := by
  obtain ⟨U, u1, u2⟩ := downUseOwners_spec s hB hAB
  obtain ⟨V, v1, v2, hV, hcov, hVok⟩ := lowUses_spec (fun r k => s r (k + 2)) hAB.pos h u2
  obtain ⟨D1, order1, fan1, d1, d2⟩ := newDist_spec (fun r k => s r (k + 10)) hVok.size hVok.rank hVok.len hVok.idx
  have hC1 := d2.copyDist hVok
  obtain ⟨D2, dests2, order2, fan2, c1, c2, c3⟩ := newCopies_spec (fun r k => s r (k + 20)) hC1 B.globals hB.globalsLen
  obtain ⟨conn, n1, n2⟩ := formNewConn_spec (fun r k => s r (k + 40)) hC1 c2 (fun r i e hr hd => (c3.same r e hr).1 ⟨i, hd⟩) c3.once
  obtain ⟨codes, k1, k2, k3⟩ := pushCodes_spec h (fun r k => s r (k + 60)) hAB.pos A.codes hAB.codesLen
  refine ⟨conn, codes, D2, dests2, order2, fan2, ?_, c2, ⟨?_, ?_, ?_⟩, ?_, k2, k3⟩
  · unfold pushDown
    rw [u1, Option.bind_some, v1, Option.bind_some]
    show (newDist _ (world n V) (world n B.nents)).bind _ = _
    rw [d1, Option.bind_some]
    show (newCopies2oldOwners _ _ (world n B.globals)).bind _ = _
    rw [c1, Option.bind_some, n1, Option.bind_some]
    show (pushCodes _ _ _ (A.codes.map (world n))).map _ = _
    rw [k1]; rfl
  · intro r hr
    rw [List.nodup_iff_getElem?_ne_getElem?]
    intro i j hij hj he
    have e1 := List.getElem?_eq_getElem hj
    rw [e1] at he
    rw [copiesOf_get] at e1 he
    have := c3.once r i j _ hr he e1
    omega
  · intro r e hr
    have h1 : e ∈ copiesOf dests2 r ↔ ∃ i, destOf V r i = some e := by
      rw [c3.same r e hr]
      constructor
      · intro hm
        obtain ⟨i, hi⟩ := List.getElem?_of_mem hm
        rw [copiesOf_get] at hi
        exact ⟨i, hi⟩
      · rintro ⟨i, hi⟩
        rw [← copiesOf_get] at hi
        exact List.mem_of_getElem? hi
    rw [h1]
    constructor
    · rintro ⟨i, hi⟩
      obtain ⟨a, f, j, g1, g2, _, g4⟩ := hcov r i e hr hi
      rw [← copiesOf_get] at g1
      exact ⟨f, List.mem_of_getElem? g1, j, g2, g4⟩
    · rintro ⟨f, hf, j, hj, hlo⟩
      obtain ⟨a, ha⟩ := List.getElem?_of_mem hf
      rw [copiesOf_get] at ha
      obtain ⟨e', e1, e2, _⟩ := hV r a f hr ha j hj
      rw [hlo] at e1
      obtain rfl := Option.some.inj e1
      exact ⟨_, e2⟩
  · intro r hr
    rw [List.pairwise_iff_getElem]
    intro i j hi hj hij a b ha hb
    have e1 := List.getElem?_eq_getElem hi
    have e2 := List.getElem?_eq_getElem hj
    rw [copiesOf_get] at e1 e2
    exact c3.sorted r i j _ _ _ _ a b hr hij e1 e2 ha hb
  · intro r hr
    refine ⟨?_, ?_⟩
    · rw [(n2 r hr).1]
      rw [v2 r hr, copiesOf_length h.dest hr]
    · intro i f hf j hj
      rw [copiesOf_get] at hf
      obtain ⟨e, e1, e2, _⟩ := hV r i f hr hf j hj
      obtain ⟨k, q1, q2⟩ := (n2 r hr).2 _ _ e2
      refine ⟨k, e, q1, ?_, e1⟩
      rw [copiesOf_get]
      exact q2

/-- `push_ents`. -/
theorem pushEnts_spec (s : Nat → Nat → Sched) (keep : Bool) {n : Nat} {A : OldLevel} (hA : A.Ok n)
    {dests : Nat → Remotes} {D : Nat → Dist} {order : Nat → List (Nat × Nat)} {fan : Nat → List Nat}
    (h : CopyDist n dests A.nents D order fan) (conn : List (List Int)) (codes : Option (List (List Int))) :
    ∃ (tags : List (Nat × (Nat → List Int))) (ranks idxs : Nat → List Int),
      pushEnts s keep (levelOf n A) conn codes ((world n D).map Dist.invert) =
        some ⟨conn, codes, tags.map (fun t => (t.1, world n t.2)), world n ranks, world n idxs⟩ ∧
      List.Forall₂ (fun t t' => t.1 = t'.1 ∧ Carried n t.1 (copiesOf dests) t.2 t'.2) A.tags tags ∧
      (∀ r, r < n → (ranks r).length = (copiesOf dests r).length ∧ (idxs r).length = (copiesOf dests r).length) ∧
      (keep = false → OwnersOk n (fun r i => (copiesOf dests r)[i]?) ranks idxs ∧
        OwnersFewest n (fun r i => (copiesOf dests r)[i]?) (fun r => (copiesOf dests r).length) ranks) ∧
      (keep = true → OwnersKept n A (copiesOf dests) ranks idxs) := by
  obtain ⟨tags, t1, t2⟩ := pushTags_spec h s A.tags hA.tagsOk
  have hinv : ((world n D).map Dist.invert).map Dist.invert = world n D := by
    rw [world_map, world_map]; rfl
  have hent : (fun r i => (copiesOf dests r)[i]?) = destOf dests := by
    funext r i; exact copiesOf_get dests r i
  unfold pushEnts
  show ∃ tags ranks idxs, (pushTags s _ (A.tags.map (fun t => (t.1, world n t.2)))).bind _ = _ ∧ _
  rw [t1, hent]
  cases keep with
  | false =>
    obtain ⟨ranks, idxs, u1, u2, u3, u4⟩ := update_spec h (fun r k => s r (k + 8))
    refine ⟨tags, ranks, idxs, ?_, t2, ?_, fun _ => ⟨u3, ?_⟩, fun h => (nomatch h)⟩
    · rw [Option.bind_some]
      show (updateOwnership _ _ none).map _ = _
      rw [hinv, u1]; rfl
    · intro r hr
      rw [copiesOf_length h.dest hr]
      exact u2 r hr
    · intro e r i q hr hd hq q' k' hq' hd'
      have := u4 e r i q hr hd hq q' k' hq' hd'
      dsimp only
      rw [copiesOf_length h.dest hq']
      obtain ⟨p0, x0⟩ := e
      have hqn : q < n := by
        obtain ⟨q0, k0, g1, _, g3⟩ := u3 _ r i hr hd
        have := (g3 r i hr hd).1
        rw [hq] at this
        have := Int.ofNat.inj (Option.some.inj this)
        omega
      rw [copiesOf_length h.dest hqn]
      exact this
  | true =>
    obtain ⟨own, o1, o2, o3⟩ := exch_back_one h (fun r k => s r (k + 4)) (fun r => (A.ownRanks r).map Int.ofNat)
      (fun r hr => by rw [List.length_map, hA.ranksLen r hr])
    have hown : ∀ r i p x q : Nat, r < n → destOf dests r i = some (p, x) → (A.ownRanks p)[x]? = some q → (own r)[i]? = some (q : Int) := by
      intro r i p x q hr hd hq
      rw [o3 r i p x hr hd, List.getElem?_map, hq]; rfl
    obtain ⟨idxs, u1, u2, u3, u4⟩ := update_suggested_spec h (fun r k => s r (k + 8)) own o2 (by
      rintro ⟨p, x⟩ r i r' i' hr hr' hd hd'
      rw [o3 r i p x hr hd, o3 r' i' p x hr' hd'])
    refine ⟨tags, own, idxs, ?_, t2, ?_, fun h => (nomatch h), fun _ => ?_⟩
    · rw [Option.bind_some]
      have : pushRanks (fun r k => s r (k + 4)) true ((world n D).map Dist.invert) (levelOf n A).owners = some (some (world n own)) := by
        unfold pushRanks
        rw [if_pos rfl]
        show (Dist.exch _ _ _ ((world n (fun r => (⟨A.ownRanks r, A.ownIdxs r⟩ : Remotes))).map _)).map some = _
        rw [world_map n (fun r => (⟨A.ownRanks r, A.ownIdxs r⟩ : Remotes))]
        dsimp only
        rw [o1]; rfl
      rw [this, Option.bind_some, hinv, u1]; rfl
    · intro r hr
      rw [copiesOf_length h.dest hr]
      exact ⟨o2 r hr, u2 r hr⟩
    · rintro r i ⟨p, x⟩ q hr hd hq
      rw [copiesOf_get] at hd
      refine ⟨hown r i p x q hr hd hq, ?_, ?_⟩
      · intro hm
        obtain ⟨k, hk⟩ := List.getElem?_of_mem hm
        rw [copiesOf_get] at hk
        have hqn : q < n := by
          obtain ⟨_, hp, hx⟩ := destOf_lt h.dest hr hd
          obtain ⟨y, hix⟩ : ∃ y, (A.ownIdxs p)[x]? = some y := ⟨_, List.getElem?_eq_getElem (by rw [hA.idxsLen p hp]; exact hx)⟩
          refine (hA.ownerOk p x q y hp ?_).1
          unfold OldLevel.owner
          show ((A.ownRanks p)[x]?).bind _ = _
          rw [hq, Option.bind_some]
          show ((A.ownIdxs p)[x]?).map _ = _
          rw [hix]; rfl
        obtain ⟨q', k', g1, g2, g3⟩ := u3 (p, x) ⟨q, k, hqn, hk, hown q k p x q hqn hk hq⟩
        have := (g3 r i hr hd).1
        rw [hown r i p x q hr hd hq] at this
        have : q = q' := Int.ofNat.inj (Option.some.inj this)
        subst this
        refine ⟨k', by rw [copiesOf_get]; exact g2, ?_⟩
        intro r' i' hr' hd'
        rw [copiesOf_get] at hd'
        exact (g3 r' i' hr' hd').2
      · intro hm
        apply u4 (p, x) _ r i hr hd
        rintro ⟨q', k', g1, g2, g3⟩
        rw [hown q' k' p x q g1 g2 hq] at g3
        have : q = q' := Int.ofNat.inj (Option.some.inj g3)
        subst this
        rw [← copiesOf_get] at g2
        exact hm (List.mem_of_getElem? g2)

/-- What migration makes of one dimension. `copies r` are the old entities of which rank `r` has copies, in the order of their new
indices. -/
structure LevelMigrated (n : Nat) (A : OldLevel) (keep : Bool) (copies : Nat → List (Nat × Nat)) (N : NewData) : Prop where
  tags : List.Forall₂ (fun t t' => t.1 = t'.1 ∧ Carried n t.1 copies t.2 t'.2) A.tags N.tags
  ownLen : ∀ r, r < n → (N.ownRanks r).length = (copies r).length ∧ (N.ownIdxs r).length = (copies r).length
  own : keep = false → OwnersOk n (fun r i => (copies r)[i]?) N.ownRanks N.ownIdxs ∧
    OwnersFewest n (fun r i => (copies r)[i]?) (fun r => (copies r).length) N.ownRanks
  kept : keep = true → OwnersKept n A copies N.ownRanks N.ownIdxs

/-- What migration makes of the connections between two dimensions. -/
structure LowsMigrated (n deg : Nat) (A B : OldLevel) (high low : Nat → List (Nat × Nat)) (N : NewData) : Prop where
  lows : UsedOnce n deg A B high low
  conn : ∃ c, N.conn = some c ∧ ConnOk n deg A B high low c
  codes : (A.codes = none → N.codes = none) ∧ ∀ c, A.codes = some c → ∃ c', N.codes = some c' ∧ Carried n deg high c c'

theorem migrateFrom_spec (s : Nat → Nat → Nat → Sched) (mode : Parting) (deg : Nat → Nat) {n : Nat} (mesh : Nat → OldLevel) :
    ∀ (dim : Nat), (∀ d, d ≤ dim → (mesh d).Ok n) → (∀ d, d < dim → LowsOk n (deg (d + 1)) (mesh (d + 1)) (mesh d)) →
    ∀ {dests : Nat → Remotes} {D : Nat → Dist} {order : Nat → List (Nat × Nat)} {fan : Nat → List Nat},
      CopyDist n dests (mesh dim).nents D order fan →
    ∃ (copies : Nat → Nat → List (Nat × Nat)) (N : Nat → NewData),
      migrateFrom s mode deg (fun d => levelOf n (mesh d)) dim ((world n D).map Dist.invert) =
        some ((List.range (dim + 1)).reverse.map (fun d => newLevelOf n (N d))) ∧
      copies dim = copiesOf dests ∧
      (∀ d, d ≤ dim → LevelMigrated n (mesh d) (keepsRanks mode d) (copies d) (N d)) ∧
      ∀ d, d < dim → LowsMigrated n (deg (d + 1)) (mesh (d + 1)) (mesh d) (copies (d + 1)) (copies d) (N (d + 1)) := by
  intro dim
  induction dim with
  | zero =>
    intro hA _ dests D order fan h
    obtain ⟨tags, ranks, idxs, e1, e2, e3, e4, e5⟩ := pushEnts_spec (s 0) (keepsRanks mode 0) (hA 0 (Nat.le_refl _)) h [] none
    refine ⟨fun _ => copiesOf dests, fun _ => ⟨none, none, tags, ranks, idxs⟩, ?_, rfl, ?_, fun d hd => absurd hd (by omega)⟩
    · unfold migrateFrom
      rw [e1]; rfl
    · intro d hd
      obtain rfl : d = 0 := by omega
      exact ⟨e2, e3, e4, e5⟩
  | succ dim ih =>
    intro hA hL dests D order fan h
    obtain ⟨conn, codes, D2, dests2, order2, fan2, p1, p2, p3, p4, p5, p6⟩ :=
      pushDown_spec (s (dim + 1)) (hA dim (by omega)) (hL dim (by omega)) h
    obtain ⟨tags, ranks, idxs, e1, e2, e3, e4, e5⟩ := pushEnts_spec (fun r k => s (dim + 1) r (k + 100)) (keepsRanks mode (dim + 1))
      (hA (dim + 1) (Nat.le_refl _)) h (world n conn) (codes.map (world n))
    obtain ⟨copies, N, q1, q2, q3, q4⟩ := ih (fun d hd => hA d (by omega)) (fun d hd => hL d (by omega)) p2
    refine ⟨fun d => if d = dim + 1 then copiesOf dests else copies d,
      fun d => if d = dim + 1 then ⟨some conn, codes, tags, ranks, idxs⟩ else N d, ?_, by simp, ?_, ?_⟩
    · unfold migrateFrom
      rw [p1, Option.bind_some]
      dsimp only
      rw [e1, Option.bind_some, q1, Option.map_some, List.range_succ (n := dim + 1), List.reverse_append, List.reverse_singleton,
        List.singleton_append, List.map_cons, if_pos rfl]
      congr 2
      apply List.map_congr_left
      intro d hd
      rw [List.mem_reverse, List.mem_range] at hd
      rw [if_neg (by omega)]
    · intro d hd
      by_cases hdd : d = dim + 1
      · subst hdd
        simp only [if_true]
        exact ⟨e2, e3, e4, e5⟩
      · simp only [if_neg hdd]
        exact q3 d (by omega)
    · intro d hd
      by_cases hdd : d = dim
      · subst hdd
        simp only [if_true, if_neg (show ¬ d = d + 1 by omega)]
        rw [q2]
        exact ⟨p3, ⟨conn, rfl, p4⟩, p5, p6⟩
      · simp only [if_neg (show ¬ d + 1 = dim + 1 by omega), if_neg (show ¬ d = dim + 1 by omega)]
        exact q4 d (by omega)

/-- Migration of a mesh of any dimension on any number of ranks, to a plan that gives for every new element the old element that it is
a copy of, whatever the schedules. Every rank gets exactly the lower entities that its elements use, each once, ordered by global
number; the connections are the old ones; codes and tags are carried; and the owners are consistent, or the old owners' ranks. -/
theorem C22_migrate (s : Nat → Nat → Nat → Sched) (s0 : Nat → Nat → Sched) (mode : Parting) (deg : Nat → Nat) {n dim : Nat}
    {mesh : Nat → OldLevel} (hA : ∀ d, d ≤ dim → (mesh d).Ok n) (hL : ∀ d, d < dim → LowsOk n (deg (d + 1)) (mesh (d + 1)) (mesh d))
    {plan : Nat → Remotes} (hp : DestsOk n plan (mesh dim).nents) {D : List Dist}
    (hD : newDist s0 (world n plan) (world n (mesh dim).nents) = some D) :
    ∃ (copies : Nat → Nat → List (Nat × Nat)) (N : Nat → NewData),
      migrateMesh s mode deg (fun d => levelOf n (mesh d)) dim D = some ((List.range (dim + 1)).reverse.map (fun d => newLevelOf n (N d))) ∧
      (copies dim = fun r => (plan r).ranks.zip (plan r).idxs) ∧
      (∀ d, d ≤ dim → LevelMigrated n (mesh d) (keepsRanks mode d) (copies d) (N d)) ∧
      ∀ d, d < dim → LowsMigrated n (deg (d + 1)) (mesh (d + 1)) (mesh d) (copies (d + 1)) (copies d) (N (d + 1)) := by
  obtain ⟨D', order, fan, rfl, h⟩ := copyDist_of hp hD
  exact migrateFrom_spec s mode deg mesh dim hA hL h

/-- The pattern of the plan can always be built. -/
theorem C22_plan (s : Nat → Nat → Sched) {n : Nat} {A : OldLevel} {plan : Nat → Remotes} (hp : DestsOk n plan A.nents) :
    ∃ D, newDist s (world n plan) (world n A.nents) = some D := C20_new s hp

/-- Connectivity through global numbers is unchanged: if the copies of the old mesh agree on the global numbers of the lower entities,
and these are carried along (they are a tag), then the `j`-th lower entity of a new entity has the global number of the `j`-th lower
entity of the old one. -/
theorem C22_global_connectivity {n deg : Nat} {A B : OldLevel} {high low : Nat → List (Nat × Nat)} {conn : Nat → List Int}
    (hagree : ∀ e o, e.1 < n → B.owner e = some o → B.global o = B.global e)
    (hhigh : ∀ r, r < n → ∀ f ∈ high r, f.1 < n)
    (hC : ConnOk n deg A B high low conn) {newGlobals : Nat → List Int} (hg : Carried n 1 low B.globals newGlobals)
    {r i j : Nat} {f : Nat × Nat} (hr : r < n) (hf : (high r)[i]? = some f) (hj : j < deg) :
    ∃ (k l : Nat), entry (conn r) deg i j = some (k : Int) ∧ entry (A.lows f.1) deg f.2 j = some l ∧
      (newGlobals r)[k]? = B.global (f.1, l) := by
  obtain ⟨k, e, h1, h2, h3⟩ := (hC r hr).2 i f hf j hj
  unfold lowOwner at h3
  cases hl : entry (A.lows f.1) deg f.2 j with
  | none => rw [hl] at h3; simp at h3
  | some l =>
    rw [hl, Option.bind_some] at h3
    refine ⟨k, l, h1, rfl, ?_⟩
    rw [← hagree (f.1, l) e (hhigh r hr f (List.mem_of_getElem? hf)) h3]
    have := (hg r hr).2 k e.1 e.2 h2 0 (by omega)
    rw [entry_one, entry_one] at this
    exact this

/-! ## A case: two ranks with one edge each that share a vertex, and both edges to rank 1

Rank 0 has the edge between the vertices 10 and 20 (global numbers), rank 1 the edge between 30 and 20; rank 0 owns the vertex 20. -/

def exampleVerts : OldLevel where
  nents _ := 2
  ownRanks r := if r = 0 then [0, 0] else [1, 0]
  ownIdxs r := if r = 0 then [0, 1] else [0, 1]
  globals r := if r = 0 then [10, 20] else [30, 20]
  lows _ := []
  codes := none
  tags := [(1, fun r => if r = 0 then [10, 20] else [30, 20])]

def exampleEdges : OldLevel where
  nents _ := 1
  ownRanks r := [r]
  ownIdxs _ := [0]
  globals r := if r = 0 then [5] else [6]
  lows _ := [0, 1]
  codes := none
  tags := [(2, fun r => if r = 0 then [50, 51] else [60, 61])]

def exampleMesh (d : Nat) : OldLevel := if d = 0 then exampleVerts else exampleEdges

/-- Rank 0 gives its edge away. -/
def examplePlan (r : Nat) : Remotes := if r = 0 then ⟨[], []⟩ else ⟨[1, 0], [0, 0]⟩

theorem exampleMesh_ok (d : Nat) (_ : d ≤ 1) : (exampleMesh d).Ok 2 := by
  have h2 : ∀ {P : Nat → Prop}, P 0 → P 1 → ∀ r, r < 2 → P r := by
    intro P h0 h1 r hr
    rcases Nat.lt_or_ge r 1 with h | h
    · obtain rfl : r = 0 := by omega
      exact h0
    · obtain rfl : r = 1 := by omega
      exact h1
  unfold exampleMesh
  split
  · refine ⟨h2 rfl rfl, h2 rfl rfl, ?_, h2 rfl rfl, ?_⟩
    · intro r i p x hr hd
      revert i p x
      revert r
      apply h2
      · intro i p x hd
        rcases i with _ | _ | i
        · cases hd; decide
        · cases hd; decide
        · cases hd
      · intro i p x hd
        rcases i with _ | _ | i
        · cases hd; decide
        · cases hd; decide
        · cases hd
    · intro t ht
      obtain rfl : t = (1, fun r => if r = 0 then [10, 20] else [30, 20]) := by simpa [exampleVerts] using ht
      exact ⟨by decide, h2 rfl rfl⟩
  · refine ⟨h2 rfl rfl, h2 rfl rfl, ?_, h2 rfl rfl, ?_⟩
    · intro r i p x hr hd
      revert i p x
      revert r
      apply h2
      · intro i p x hd
        rcases i with _ | i
        · cases hd; decide
        · cases hd
      · intro i p x hd
        rcases i with _ | i
        · cases hd; decide
        · cases hd
    · intro t ht
      obtain rfl : t = (2, fun r => if r = 0 then [50, 51] else [60, 61]) := by simpa [exampleEdges] using ht
      exact ⟨by decide, h2 rfl rfl⟩

theorem exampleMesh_lows (d : Nat) (hd : d < 1) : LowsOk 2 2 (exampleMesh (d + 1)) (exampleMesh d) := by
  obtain rfl : d = 0 := by omega
  refine ⟨by omega, fun r _ => rfl, ?_, fun c hc => (nomatch hc)⟩
  intro r _ l hl
  have hl : l ∈ [0, 1] := hl
  show l < 2
  fin_cases hl <;> decide

theorem examplePlan_ok : DestsOk 2 examplePlan exampleEdges.nents := by
  refine ⟨by omega, ?_, ?_, ?_⟩
  · intro r hr p hp
    unfold examplePlan at hp
    split at hp
    · simp at hp
    · fin_cases hp <;> decide
  · intro r _
    unfold examplePlan
    split <;> rfl
  · intro r _ i p x hp hx
    have := List.mem_of_getElem? hx
    show x < 1
    unfold examplePlan at this
    split at this
    · simp at this
    · fin_cases this <;> decide

/-- The theorem applies, and this is what comes out: rank 1 has the three vertices by global number. -/
example : ∃ (copies : Nat → Nat → List (Nat × Nat)) (N : Nat → NewData) (D : List Dist),
    newDist (fun _ _ => Sched.serial) (world 2 examplePlan) (world 2 exampleEdges.nents) = some D ∧
    migrateMesh (fun _ _ _ => Sched.serial) .elemBased (fun _ => 2) (fun d => levelOf 2 (exampleMesh d)) 1 D =
      some ((List.range 2).reverse.map (fun d => newLevelOf 2 (N d))) ∧
    LowsMigrated 2 2 (exampleMesh 1) (exampleMesh 0) (copies 1) (copies 0) (N 1) := by
  obtain ⟨D, hD⟩ := C22_plan (fun _ _ => Sched.serial) examplePlan_ok
  obtain ⟨copies, N, h1, _, _, h4⟩ := C22_migrate (fun _ _ _ => Sched.serial) (fun _ _ => Sched.serial) .elemBased (fun _ => 2)
    exampleMesh_ok exampleMesh_lows examplePlan_ok hD
  exact ⟨copies, N, D, hD, h1, h4 0 (by omega)⟩

example : (newDist (fun _ _ => Sched.serial) (world 2 examplePlan) (world 2 exampleEdges.nents)).bind (fun D =>
    migrateMesh (fun _ _ _ => Sched.reversed) .elemBased (fun _ => 2) (fun d => levelOf 2 (exampleMesh d)) 1 D) =
    some [⟨[[], [2, 1, 0, 1]], none, [(2, [[], [60, 61, 50, 51]])], [[], [1, 1]], [[], [0, 1]]⟩,
      ⟨[], none, [(1, [[], [10, 20, 30]])], [[], [1, 1, 1]], [[], [0, 1, 2]]⟩] := by decide +kernel

end OmegaH
