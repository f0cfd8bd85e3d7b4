import Verif.Model.UnmapMesh
import Verif.Spec.UnmapMesh
import Verif.Props.C22

/-!
# C42: extracting a sub-mesh keeps connectivity, tags and ownership consistent
-/
namespace OmegaH
open Spec

/-- The kept entities as pairs of rank and old index. -/
def keptPairs (kept : Nat → List Nat) (r : Nat) : List (Nat × Nat) := (kept r).map (fun e => (r, e))

theorem keptPairs_get {kept : Nat → List Nat} {r i p x : Nat} (h : (keptPairs kept r)[i]? = some (p, x)) : p = r ∧ (kept r)[i]? = some x := by
  unfold keptPairs at h
  rw [List.getElem?_map] at h
  obtain ⟨e, he, h2⟩ := Option.map_eq_some_iff.1 h
  cases h2
  exact ⟨rfl, he⟩

theorem unmapRanks_spec {α : Type} (s : Nat → Sched) {n : Nat} {kept : Nat → List Nat} {nents : Nat → Nat} (w : Nat)
    (hk : ∀ r, r < n → InRange (kept r) (nents r)) (data : Nat → List α) (hl : ∀ r, r < n → (data r).length = nents r * w) :
    ∃ out : Nat → List α, unmapRanks s (world n kept) (world n data) w = some (world n out) ∧ Carried n w (keptPairs kept) data out := by
  unfold unmapRanks
  rw [world_length]
  obtain ⟨W, w1, w2⟩ := choose_world (n := n)
    (fun r => ((world n kept)[r]?).bind (fun k => ((world n data)[r]?).bind (fun d => unmap (s r) k d w)))
    (fun r (out : List α) => out.length = (kept r).length * w ∧
      ∀ i b j, (kept r)[i]? = some b → j < w → entry out w i j = entry (data r) w b j)
    (by
      intro r hr
      rw [world_get _ hr, Option.bind_some, world_get _ hr, Option.bind_some]
      exact C05_unmap (s r) (kept r) (data r) w (nents r) (Nat.le_of_eq (hl r hr).symm) (hk r hr))
  refine ⟨W, w1, ?_⟩
  intro r hr
  refine ⟨by rw [(w2 r hr).1]; unfold keptPairs; rw [List.length_map], ?_⟩
  intro i p x hx j hj
  obtain ⟨rfl, hx⟩ := keptPairs_get hx
  exact (w2 p hr).2 i x j hx hj

theorem keptIndices_spec (s : Nat → Sched) {n : Nat} {A : OldLevel} {kept : Nat → List Nat} (hk : KeptOk n A kept) :
    ∃ m : Nat → List Int, keptIndices s (world n kept) (world n A.nents) = some (world n m) ∧
      ∀ r, r < n → (m r).length = A.nents r ∧ ∀ e, e < A.nents r → ∃ x, (m r)[e]? = some x ∧ NewIndex (kept r) e x := by
  unfold keptIndices
  rw [world_length]
  refine choose_world (n := n) _ (fun r (m : List Int) => m.length = A.nents r ∧ ∀ e, e < A.nents r → ∃ x, m[e]? = some x ∧
    NewIndex (kept r) e x) ?_
  intro r hr
  rw [world_get _ hr, Option.bind_some, world_get _ hr, Option.bind_some]
  obtain ⟨out, o1, o2, o3, o4⟩ := C03_invert_injective_map (s r) (kept r) (A.nents r) (hk.range r hr) (hk.inj r hr)
  refine ⟨out, o1, o2, ?_⟩
  intro e he
  by_cases hm : e ∈ kept r
  · obtain ⟨k, hk'⟩ := List.getElem?_of_mem hm
    exact ⟨k, o3 k e hk', Or.inl ⟨k, hk', rfl⟩⟩
  · refine ⟨-1, o4 e he ?_, Or.inr ⟨hm, rfl⟩⟩
    rintro ⟨a, ha⟩
    exact hm (List.mem_of_getElem? ha)

theorem unmapDown_spec (s : Nat → Nat → Sched) {n deg : Nat} {A B : OldLevel} {kept keptLow : Nat → List Nat} (hk : KeptOk n A kept)
    (hlow : LowsOk n deg A B) (m : Nat → List Int)
    (hm : ∀ r, r < n → (m r).length = B.nents r ∧ ∀ e, e < B.nents r → ∃ x, (m r)[e]? = some x ∧ NewIndex (keptLow r) e x) :
    ∃ conn : Nat → List Int, unmapDown s deg (levelOf n A) (world n kept) (world n m) = some (world n conn) ∧
      LocalConn n deg A kept keptLow conn := by
  unfold unmapDown
  obtain ⟨out, o1, o2⟩ := unmapRanks_spec (fun r => s r 0) deg hk.range A.lows hlow.len
  have o1' : unmapRanks (fun r => s r 0) (world n kept) (levelOf n A).lows deg = some (world n out) := o1
  rw [o1', Option.bind_some, world_length]
  have hin : ∀ r, r < n → ∀ l ∈ out r, l < B.nents r := by
    intro r hr l hl
    obtain ⟨k, hk'⟩ := List.getElem?_of_mem hl
    have hlt := (List.getElem?_eq_some_iff.1 hk').1
    rw [(o2 r hr).1] at hlt
    have hd := hlow.pos
    have h1 : k / deg < (keptPairs kept r).length := Nat.div_lt_of_lt_mul (by rwa [Nat.mul_comm])
    obtain ⟨⟨p, x⟩, hpx⟩ : ∃ y, (keptPairs kept r)[k / deg]? = some y := ⟨_, List.getElem?_eq_getElem h1⟩
    have e := (o2 r hr).2 (k / deg) p x hpx (k % deg) (Nat.mod_lt _ hd)
    obtain ⟨rfl, _⟩ := keptPairs_get hpx
    unfold entry at e
    rw [Nat.div_add_mod' k deg, hk'] at e
    exact hlow.idx p hr l (List.mem_of_getElem? e.symm)
  obtain ⟨W, w1, w2⟩ := choose_world (n := n)
    (fun r => ((world n out)[r]?).bind (fun a => ((world n m)[r]?).bind (fun b => compoundMaps (s r 1) a b)))
    (fun r (c : List Int) => c.length = (out r).length ∧ ∀ (a b : Nat), (out r)[a]? = some b → c[a]? = (m r)[b]?)
    (by
      intro r hr
      rw [world_get _ hr, Option.bind_some, world_get _ hr, Option.bind_some]
      exact C05_compound_maps (s r 1) (out r) (m r) (by rw [(hm r hr).1]; exact hin r hr))
  refine ⟨W, w1, ?_⟩
  intro r hr
  refine ⟨by rw [(w2 r hr).1, (o2 r hr).1]; unfold keptPairs; rw [List.length_map], ?_⟩
  intro i e l j hi hj hl
  have hp : (keptPairs kept r)[i]? = some (r, e) := by unfold keptPairs; rw [List.getElem?_map, hi]; rfl
  have e1 := (o2 r hr).2 i r e hp j hj
  rw [hl] at e1
  obtain ⟨x, hx, hn⟩ := (hm r hr).2 l (hlow.idx r hr l (List.mem_of_getElem? hl))
  exact ⟨x, ((w2 r hr).2 _ l e1).trans hx, hn⟩

theorem unmapOwners_spec (s : Nat → Nat → Sched) {n : Nat} (hn : n ≤ 2147483648) {A : OldLevel} (hA : A.Ok n) {kept : Nat → List Nat}
    (hk : KeptOk n A kept) (m : Nat → List Int)
    (hm : ∀ r, r < n → (m r).length = A.nents r ∧ ∀ e, e < A.nents r → ∃ x, (m r)[e]? = some x ∧ NewIndex (kept r) e x) :
    ∃ o, unmapOwners s (levelOf n A) (world n kept) (world n m) = some o ∧ (n = 1 → o = none) ∧
      (n ≠ 1 → ∃ ranks idxs, o = some (world n ranks, world n idxs) ∧ NewOwners n A kept ranks idxs) := by
  unfold unmapOwners
  rw [world_length]
  by_cases h1 : n = 1
  · rw [if_pos h1]
    exact ⟨none, rfl, fun _ => rfl, fun h => absurd h1 h⟩
  · rw [if_neg h1]
    let dests : Nat → Remotes := fun r => ⟨A.ownRanks r, A.ownIdxs r⟩
    have hD : DestsOk n dests A.nents := by
      refine ⟨hn, ?_, fun r hr => by show (A.ownIdxs r).length = (A.ownRanks r).length; rw [hA.ranksLen r hr, hA.idxsLen r hr],
        fun r hr i p x a b => (hA.ownerOk r i p x hr (destOf_eq.2 ⟨a, b⟩)).2⟩
      intro r hr p hp
      obtain ⟨i, hi⟩ := List.getElem?_of_mem hp
      have hil : i < (A.ownIdxs r).length := by
        rw [hA.idxsLen r hr, ← hA.ranksLen r hr]; exact (List.getElem?_eq_some_iff.1 hi).1
      exact (hA.ownerOk r i p _ hr (destOf_eq.2 ⟨hi, List.getElem?_eq_getElem hil⟩)).1
    obtain ⟨D, d1⟩ := C20_new s hD
    obtain ⟨D', order, fan, rfl, hC⟩ := copyDist_of hD d1
    obtain ⟨τ, t1, t2, t3⟩ := exch_back_one hC (fun r k => s r (k + 10)) m (fun r hr => (hm r hr).1)
    obtain ⟨idxs, i1, i2⟩ := unmapRanks_spec (fun r => s r 20) 1 hk.range τ (fun r hr => by
      rw [t2 r hr, Nat.mul_one]; exact hA.ranksLen r hr)
    obtain ⟨ranks, r1, r2⟩ := unmapRanks_spec (fun r => s r 21) 1 hk.range (fun r => (A.ownRanks r).map (fun x : Nat => (x : Int)))
      (fun r hr => by rw [List.length_map, Nat.mul_one, hA.ranksLen r hr])
    have d1' : newDist s (levelOf n A).owners (levelOf n A).nents = some (world n D') := d1
    rw [d1', Option.bind_some, t1, Option.bind_some, i1, Option.bind_some]
    have hranks : (levelOf n A).owners.map (fun o => o.ranks.map (fun x : Nat => (x : Int))) =
        world n (fun r => (A.ownRanks r).map (fun x : Nat => (x : Int))) := by
      show (world n dests).map _ = _
      rw [world_map]
    rw [hranks, r1]
    refine ⟨_, rfl, fun h => absurd h h1, fun _ => ⟨ranks, idxs, rfl, ?_⟩⟩
    intro r hr
    refine ⟨by rw [(r2 r hr).1, Nat.mul_one]; unfold keptPairs; rw [List.length_map],
      by rw [(i2 r hr).1, Nat.mul_one]; unfold keptPairs; rw [List.length_map], ?_⟩
    intro i e p x hi ho
    have hp : (keptPairs kept r)[i]? = some (r, e) := by unfold keptPairs; rw [List.getElem?_map, hi]; rfl
    have e1 := (r2 r hr).2 i r e hp 0 (by omega)
    have e2 := (i2 r hr).2 i r e hp 0 (by omega)
    rw [entry_one, entry_one] at e1 e2
    obtain ⟨h3, h4⟩ := hA.ownerOk r e p x hr ho
    obtain ⟨y, y1, y2⟩ := (hm p h3).2 x h4
    refine ⟨?_, y, by rw [e2, t3 r e p x hr ho, y1], y2⟩
    rw [e1, List.getElem?_map, (destOf_eq.1 (show destOf dests r e = some (p, x) from ho)).1]
    rfl

theorem unmapTags_spec (s : Nat → Sched) {n : Nat} {kept : Nat → List Nat} {nents : Nat → Nat}
    (hk : ∀ r, r < n → InRange (kept r) (nents r)) :
    ∀ tags : List (Nat × (Nat → List Int)), (∀ t ∈ tags, ∀ r, r < n → (t.2 r).length = nents r * t.1) →
    ∃ new : List (Nat × (Nat → List Int)), unmapTags s (world n kept) (tags.map (fun t => (t.1, world n t.2))) =
        some (new.map (fun t => (t.1, world n t.2))) ∧
      List.Forall₂ (fun t t' => t.1 = t'.1 ∧ Carried n t.1 (keptPairs kept) t.2 t'.2) tags new
  | [], _ => ⟨[], rfl, .nil⟩
  | t :: tags, h => by
    obtain ⟨new, e1, e2⟩ := unmapTags_spec s hk tags (fun u hu => h u (by simp [hu]))
    obtain ⟨out, o1, o2⟩ := unmapRanks_spec s t.1 hk t.2 (h t (by simp))
    refine ⟨(t.1, out) :: new, ?_, .cons ⟨rfl, o2⟩ e2⟩
    unfold unmapTags at e1 ⊢
    rw [List.map_cons, List.mapM_cons]
    dsimp only
    rw [o1, e1]
    rfl

/-- What `unmap_mesh` makes of one dimension. -/
structure LevelUnmapped (n : Nat) (A : OldLevel) (kept : Nat → List Nat) (l : UnmappedLevel) (m : List (List Int)) : Prop where
  tags : ∃ new : List (Nat × (Nat → List Int)), l.tags = new.map (fun t => (t.1, world n t.2)) ∧
    List.Forall₂ (fun t t' => t.1 = t'.1 ∧ Carried n t.1 (keptPairs kept) t.2 t'.2) A.tags new
  owners : (n = 1 → l.owners = none) ∧ (n ≠ 1 → ∃ ranks idxs, l.owners = some (world n ranks, world n idxs) ∧ NewOwners n A kept ranks idxs)
  index : ∃ m' : Nat → List Int, m = world n m' ∧ ∀ r, r < n → (m' r).length = A.nents r ∧
    ∀ e, e < A.nents r → ∃ x, (m' r)[e]? = some x ∧ NewIndex (kept r) e x

/-- What it makes of the connections to the next lower dimension. -/
structure LowsUnmapped (n deg : Nat) (A : OldLevel) (kept keptLow : Nat → List Nat) (l : UnmappedLevel) : Prop where
  conn : ∃ c, l.conn = some (world n c) ∧ LocalConn n deg A kept keptLow c
  codes : (A.codes = none → l.codes = none) ∧
    ∀ c, A.codes = some c → ∃ c' : Nat → List Int, l.codes = some (world n c') ∧ Carried n deg (keptPairs kept) c c'

theorem unmapUpTo_spec (s : Nat → Nat → Nat → Sched) (deg : Nat → Nat) {n : Nat} (hn : n ≤ 2147483648) (mesh : Nat → OldLevel)
    (kept : Nat → Nat → List Nat) : ∀ dim, (∀ d, d ≤ dim → (mesh d).Ok n ∧ KeptOk n (mesh d) (kept d)) →
    (∀ d, d < dim → LowsOk n (deg (d + 1)) (mesh (d + 1)) (mesh d)) →
    ∃ ls ms, unmapUpTo s deg (fun d => levelOf n (mesh d)) (fun d => world n (kept d)) dim = some (ls, ms) ∧
      ls.length = dim + 1 ∧ ms.length = dim + 1 ∧
      (∀ d, d ≤ dim → ∃ l m, ls[d]? = some l ∧ ms[d]? = some m ∧ LevelUnmapped n (mesh d) (kept d) l m) ∧
      (∃ l, ls[0]? = some l ∧ l.conn = none ∧ l.codes = none) ∧
      ∀ d, d < dim → ∃ l, ls[d + 1]? = some l ∧ LowsUnmapped n (deg (d + 1)) (mesh (d + 1)) (kept (d + 1)) (kept d) l := by
  intro dim
  have tail : ∀ (s : Nat → Nat → Sched) (d : Nat), (mesh d).Ok n → KeptOk n (mesh d) (kept d) → ∀ conn codes,
      ∃ l m, (unmapTags (fun r => s r 3) (world n (kept d)) (levelOf n (mesh d)).tags).bind (fun tags =>
        (keptIndices (fun r => s r 4) (world n (kept d)) (levelOf n (mesh d)).nents).bind (fun oldEnts2newEnts =>
        (unmapOwners (fun r k => s r (k + 5)) (levelOf n (mesh d)) (world n (kept d)) oldEnts2newEnts).map (fun owners =>
          ((⟨conn, codes, tags, owners⟩ : UnmappedLevel), oldEnts2newEnts)))) = some (l, m) ∧ LevelUnmapped n (mesh d) (kept d) l m ∧
        l.conn = conn ∧ l.codes = codes := by
    intro s d hA hk conn codes
    obtain ⟨new, n1, n2⟩ := unmapTags_spec (fun r => s r 3) hk.range (mesh d).tags (fun t ht => (hA.tagsOk t ht).2)
    obtain ⟨m, m1, m2⟩ := keptIndices_spec (fun r => s r 4) hk
    obtain ⟨o, o1, o2⟩ := unmapOwners_spec (fun r k => s r (k + 5)) hn hA hk m m2
    have n1' : unmapTags (fun r => s r 3) (world n (kept d)) (levelOf n (mesh d)).tags = _ := n1
    have m1' : keptIndices (fun r => s r 4) (world n (kept d)) (levelOf n (mesh d)).nents = _ := m1
    rw [n1', Option.bind_some, m1', Option.bind_some, o1]
    exact ⟨_, _, rfl, ⟨⟨new, rfl, n2⟩, o2, m, rfl, m2⟩, rfl, rfl⟩
  induction dim with
  | zero =>
    intro hok _
    obtain ⟨l, m, t1, t2, t3, t4⟩ := tail (s 0) 0 (hok 0 (by omega)).1 (hok 0 (by omega)).2 none none
    refine ⟨[l], [m], ?_, rfl, rfl, ?_, ⟨l, rfl, t3, t4⟩, fun d hd => absurd hd (by omega)⟩
    · unfold unmapUpTo unmapLevel
      dsimp only
      rw [Option.bind_some, t1]
      rfl
    · intro d hd
      obtain rfl : d = 0 := by omega
      exact ⟨l, m, rfl, rfl, t2⟩
  | succ dim ih =>
    intro hok hlow
    obtain ⟨ls, ms, e1, e2, e3, e4, e5, e6⟩ := ih (fun d hd => hok d (by omega)) (fun d hd => hlow d (by omega))
    obtain ⟨l0, m0, f1, f2, f3⟩ := e4 dim (by omega)
    obtain ⟨m', rfl, hm'⟩ := f3.index
    obtain ⟨conn, c1, c2⟩ := unmapDown_spec (s (dim + 1)) (hok (dim + 1) (by omega)).2 (hlow dim (by omega)) m' hm'
    obtain ⟨codes, k1, k2⟩ : ∃ codes, unmapCodes (fun r => s (dim + 1) r 2) (deg (dim + 1)) (levelOf n (mesh (dim + 1))) (world n (kept (dim + 1))) =
        some codes ∧ (((mesh (dim + 1)).codes = none → codes = none) ∧ ∀ c, (mesh (dim + 1)).codes = some c →
          ∃ c' : Nat → List Int, codes = some (world n c') ∧ Carried n (deg (dim + 1)) (keptPairs (kept (dim + 1))) c c') := by
      unfold unmapCodes
      cases hc : (mesh (dim + 1)).codes with
      | none =>
        have : (levelOf n (mesh (dim + 1))).codes = none := by unfold levelOf; rw [hc]; rfl
        rw [this]
        exact ⟨none, rfl, fun _ => rfl, fun c h => by cases h⟩
      | some c =>
        have : (levelOf n (mesh (dim + 1))).codes = some (world n c) := by unfold levelOf; rw [hc]; rfl
        rw [this]
        obtain ⟨out, o1, o2⟩ := unmapRanks_spec (fun r => s (dim + 1) r 2) (deg (dim + 1)) (hok (dim + 1) (by omega)).2.range c
          ((hlow dim (by omega)).codesLen c hc)
        dsimp only
        rw [o1]
        refine ⟨_, rfl, ?_, ?_⟩
        · intro h; cases h
        · intro c'' h
          cases h
          exact ⟨out, rfl, o2⟩
    obtain ⟨l, m, t1, t2, t3, t4⟩ := tail (s (dim + 1)) (dim + 1) (hok (dim + 1) (by omega)).1 (hok (dim + 1) (by omega)).2
      (some (world n conn)) codes
    refine ⟨ls ++ [l], ms ++ [m], ?_, by simp [e2], by simp [e3], ?_, ?_, ?_⟩
    · unfold unmapUpTo
      rw [e1, Option.bind_some]
      dsimp only
      rw [f2, Option.bind_some]
      unfold unmapLevel
      dsimp only
      rw [c1, Option.bind_some, k1, Option.map_some, Option.bind_some]
      dsimp only
      rw [t1]
      rfl
    · intro d hd
      by_cases hd' : d ≤ dim
      · obtain ⟨l', m'', g1, g2, g3⟩ := e4 d hd'
        exact ⟨l', m'', by rw [List.getElem?_append_left (by omega)]; exact g1, by rw [List.getElem?_append_left (by omega)]; exact g2, g3⟩
      · obtain rfl : d = dim + 1 := by omega
        exact ⟨l, m, by rw [← e2]; simp, by rw [← e3]; simp, t2⟩
    · obtain ⟨l', g1, g2⟩ := e5
      exact ⟨l', by rw [List.getElem?_append_left (by omega)]; exact g1, g2⟩
    · intro d hd
      by_cases hd' : d < dim
      · obtain ⟨l', g1, g2⟩ := e6 d hd'
        exact ⟨l', by rw [List.getElem?_append_left (by omega)]; exact g1, g2⟩
      · obtain rfl : d = dim := by omega
        exact ⟨l, by rw [← e2]; simp, ⟨conn, t3, c2⟩, by rw [t4]; exact k2⟩

/-- `unmap_mesh`, for every number of ranks, every mesh, every choice of kept entities and every schedule: tags are carried, the lower
entities of a kept entity are the new copies of the old ones in the same order with the same codes (-1 where they were not kept), and
the owner of a kept entity is on the old owner's rank, with the new index of the old owner (-1 if it was not kept). -/
theorem C42_unmap_mesh (s : Nat → Nat → Nat → Sched) (deg : Nat → Nat) {n : Nat} (hn : n ≤ 2147483648) (mesh : Nat → OldLevel)
    (kept : Nat → Nat → List Nat) (dim : Nat) (hok : ∀ d, d ≤ dim → (mesh d).Ok n ∧ KeptOk n (mesh d) (kept d))
    (hlow : ∀ d, d < dim → LowsOk n (deg (d + 1)) (mesh (d + 1)) (mesh d)) :
    ∃ ls ms, unmapUpTo s deg (fun d => levelOf n (mesh d)) (fun d => world n (kept d)) dim = some (ls, ms) ∧
      (∀ d, d ≤ dim → ∃ l m, ls[d]? = some l ∧ ms[d]? = some m ∧ LevelUnmapped n (mesh d) (kept d) l m) ∧
      ∀ d, d < dim → ∃ l, ls[d + 1]? = some l ∧ LowsUnmapped n (deg (d + 1)) (mesh (d + 1)) (kept (d + 1)) (kept d) l := by
  obtain ⟨ls, ms, h1, _, _, h2, _, h3⟩ := unmapUpTo_spec s deg hn mesh kept dim hok hlow
  exact ⟨ls, ms, h1, h2, h3⟩

/-- If every side of a kept entity is kept, the connectivity of the new mesh, read through the lists of kept entities, is that of the
old mesh. -/
theorem C42_closed {n deg : Nat} {A : OldLevel} {kept keptLow : Nat → List Nat} {conn : Nat → List Int}
    (hc : LocalConn n deg A kept keptLow conn) (hcl : ClosedDown n deg A kept keptLow) {r i e l j : Nat} (hr : r < n)
    (hi : (kept r)[i]? = some e) (hj : j < deg) (hl : entry (A.lows r) deg e j = some l) :
    ∃ k : Nat, entry (conn r) deg i j = some (k : Int) ∧ (keptLow r)[k]? = some l := by
  obtain ⟨x, hx, hn⟩ := (hc r hr).2 i e l j hi hj hl
  rcases hn with ⟨k, hk, rfl⟩ | ⟨hn, _⟩
  · exact ⟨k, hx, hk⟩
  · exact absurd (hcl r e j l hr (List.mem_of_getElem? hi) hj hl) hn

/-- If the owners of kept entities are kept, the new owners exist and are the new copies of the old owners. -/
theorem C42_owners {n : Nat} {A : OldLevel} {kept : Nat → List Nat} {ranks idxs : Nat → List Int} (ho : NewOwners n A kept ranks idxs)
    (hcl : ∀ r e p x, r < n → e ∈ kept r → A.owner (r, e) = some (p, x) → x ∈ kept p) {r i e p x : Nat} (hr : r < n)
    (hi : (kept r)[i]? = some e) (hox : A.owner (r, e) = some (p, x)) :
    ∃ k : Nat, (ranks r)[i]? = some (p : Int) ∧ (idxs r)[i]? = some (k : Int) ∧ (kept p)[k]? = some x := by
  obtain ⟨h1, y, hy, hn⟩ := (ho r hr).2.2 i e p x hi hox
  rcases hn with ⟨k, hk, rfl⟩ | ⟨hn, _⟩
  · exact ⟨k, h1, hy, hk⟩
  · exact absurd (hcl r e p x hr (List.mem_of_getElem? hi) hox) hn

/-! The mesh of C22 on two ranks. Rank 0 keeps one vertex, which it owns; rank 1 keeps its edge with its two vertices. -/
def exampleKept (d r : Nat) : List Nat :=
  if d = 0 then (if r = 0 then [1] else [1, 0]) else (if r = 0 then [] else [0])

example : unmapUpTo (fun _ _ _ => Sched.reversed) (fun _ => 2) (fun d => levelOf 2 (exampleMesh d)) (fun d => world 2 (exampleKept d)) 1 =
    some ([⟨none, none, [(1, [[20], [20, 30]])], some ([[0], [0, 1]], [[0], [0, 1]])⟩,
      ⟨some [[], [1, 0]], none, [(2, [[], [60, 61]])], some ([[], [1]], [[], [0]])⟩],
      [[[-1, 0], [1, 0]], [[-1], [0]]]) := by decide +kernel

theorem exampleKept_ok (d : Nat) : KeptOk 2 (exampleMesh d) (exampleKept d) := by
  have hinj : ∀ l : List Nat, l.Nodup → Injective l := fun l hl i j b h1 h2 =>
    (List.getElem?_inj (List.getElem?_eq_some_iff.1 h1).1 hl).1 (h1.trans h2.symm)
  by_cases hd : d = 0
  · subst hd
    constructor
    · intro r hr
      rcases (show r = 0 ∨ r = 1 by omega) with rfl | rfl <;> unfold InRange <;> decide
    · intro r hr
      rcases (show r = 0 ∨ r = 1 by omega) with rfl | rfl <;> exact hinj _ (by decide)
  · constructor
    · intro r hr
      rcases (show r = 0 ∨ r = 1 by omega) with rfl | rfl <;> unfold InRange exampleKept exampleMesh <;> simp [hd, exampleEdges]
    · intro r hr
      rcases (show r = 0 ∨ r = 1 by omega) with rfl | rfl <;> exact hinj _ (by simp [exampleKept, hd])

example : ∃ ls ms, unmapUpTo (fun _ _ _ => Sched.serial) (fun _ => 2) (fun d => levelOf 2 (exampleMesh d)) (fun d => world 2 (exampleKept d)) 1 =
    some (ls, ms) :=
  let ⟨ls, ms, h, _⟩ := C42_unmap_mesh (fun _ _ _ => Sched.serial) (fun _ => 2) (by omega) exampleMesh exampleKept 1
    (fun d hd => ⟨exampleMesh_ok d hd, exampleKept_ok d⟩) exampleMesh_lows
  ⟨ls, ms, h⟩

end OmegaH
