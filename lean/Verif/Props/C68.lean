import Verif.Lemmas.BuildEnts
/-!
# C68: edges and faces of a partitioned mesh
-/
namespace OmegaH
open Spec

theorem isCanon_first {a v : Nat} {vs : List Nat} (h : IsCanon (a :: vs)) (hv : v ∈ vs) : a < v := by
  match vs, h with
  | [b], h => simp at hv; subst hv; exact h
  | [b, c], h => simp at hv; rcases hv with rfl | rfl; exacts [h.1, h.2.1]
  | [b, c, d], h => simp at hv; rcases hv with rfl | rfl | rfl; exacts [h.1, h.2.1, h.2.2.1]

/-- `resolve_derived_copies`: entities given by local vertices get the copies with the same global vertices on other ranks sorted out. -/
theorem C68_resolve (s : Nat → Nat → Sched) {n deg T : Nat} (hn : 0 < n) (hn' : n < 2 ^ 31) (hdeg : deg = 2 ∨ deg = 3 ∨ deg = 4)
    (globals ev2v : Nat → List Nat) (ne : Nat → Nat) (hT : ∀ r, r < n → ∀ g ∈ globals r, g < T) (hsz : T / n + 1 < 2 ^ 31)
    (hl : ∀ r, r < n → (ev2v r).length = ne r * deg) (hr : ∀ r, r < n → ∀ v ∈ ev2v r, v < (globals r).length)
    (hd : ∀ r, r < n → ∀ i a, vertGlobals (globals r) (ev2v r) deg i = some a → a.Nodup) :
    ∃ (canon : Nat → List Nat) (owners : Nat → Remotes),
      resolveDerivedCopies s deg (world n globals) (world n ev2v) = some (world n canon, world n owners) ∧
      (∀ r, r < n → (canon r).length = ne r * deg ∧ (owners r).ranks.length = ne r ∧ (owners r).idxs.length = ne r ∧
        ∀ i, i < ne r → SamePolygon (row (ev2v r) deg i) (row (canon r) deg i)) ∧
      (∀ r i r' i' a b, r < n → r' < n → vertGlobals (globals r) (ev2v r) deg i = some a →
        vertGlobals (globals r') (ev2v r') deg i' = some b → SamePolygon a b →
        vertGlobals (globals r) (canon r) deg i = vertGlobals (globals r') (canon r') deg i') ∧
      (∀ r i v vs, r < n → vertGlobals (globals r) (canon r) deg i = some (v :: vs) → ∀ w ∈ vs, v < w) ∧
      DerivedOwners n (fun r i => vertGlobals (globals r) (ev2v r) deg i) (destOf owners) := by
  have hd0 : 0 < deg := by omega
  obtain ⟨_, size, total, _, _, _, _, htot, htT, hbal, hsize, hlin⟩ := linear_full s hn hn' globals hT hsz
  obtain ⟨hbt, hinj, _⟩ := C07_deal_bijection size total n hbal
  have hg : ∀ r, r < n → ∀ g ∈ globals r, g < total := by
    intro r hr g hgm
    obtain ⟨k, hk⟩ := List.getElem?_of_mem hgm
    obtain ⟨p, x, _, h2, h3, rfl⟩ := hlin r k g hr hk
    exact hbt p x h2 h3
  have hsz' : total / n + 1 < 2 ^ 31 := by
    have := Nat.div_le_div_right (c := n) htT
    omega
  obtain ⟨W, w1, w2⟩ := choose_world (n := n)
    (fun r => ((world n globals)[r]?).bind (fun g => ((world n ev2v)[r]?).bind (fun e =>
      canonicalEnts (s r) deg total n g e))) _ (by
    intro r hr'
    rw [world_get _ hr', Option.bind_some, world_get _ hr', Option.bind_some]
    exact canonicalEnts_spec (s r) hdeg hn hn' hsz' hsize (hg r hr') (hl r hr') (hr r hr') (hd r hr'))
  -- the servers
  have hD : DestsOk n (fun r => (W r).2.2) size := by
    refine ⟨by omega, ?_, ?_, ?_⟩
    · intro r hr' p hp
      obtain ⟨k, hk⟩ := List.getElem?_of_mem hp
      obtain ⟨_, _, g3, _, g5⟩ := w2 r hr'
      obtain ⟨_, _, _, _, _, q, y, h1, _, h3, _⟩ := g5 k (by have := (List.getElem?_eq_some_iff.1 hk).1; omega)
      rw [Option.some.inj (hk.symm.trans h1)]; exact h3
    · intro r hr'
      obtain ⟨_, _, g3, g4, _⟩ := w2 r hr'
      rw [g3, g4]
    · intro r hr' i p x h1 h2
      obtain ⟨_, _, g3, _, g5⟩ := w2 r hr'
      obtain ⟨_, _, _, _, _, q, y, e1, e2, _, h4, _⟩ := g5 i (by have := (List.getElem?_eq_some_iff.1 h1).1; omega)
      obtain rfl := Option.some.inj (h1.symm.trans e1)
      obtain rfl := Option.some.inj (h2.symm.trans e2)
      exact h4
  obtain ⟨DD, hDD⟩ := C20_new (fun r k => s r (k + 8)) hD
  obtain ⟨D, order, fan, rfl, hC⟩ := copyDist_of hD hDD
  obtain ⟨served, v1, v2, v3⟩ := exch_spec (fun r k => s r (k + 20)) hC.ok (w := deg) hd0 (fun r => (W r).2.1) (fun r hr' => by
    obtain ⟨_, g2, g3, _⟩ := w2 r hr'
    rw [g2, g3])
  -- one served entity
  have hserved : ∀ p k r i : Nat, p < n → (order p)[k]? = some (r, i) → r < n ∧ i < ne r ∧
      row (served p) deg k = row (W r).2.1 deg i ∧ ∃ x : Nat, x < size p ∧ (W r).2.2.ranks[i]? = some p ∧ (W r).2.2.idxs[i]? = some x ∧
        (row (served p) deg k)[0]? = some (globalOf size p x) := by
    intro p k r i hp ho
    obtain ⟨hr', hrank⟩ := (hC.mem p hp r i).1 (List.mem_of_getElem? ho)
    obtain ⟨_, _, g3, _, g5⟩ := w2 r hr'
    have hi : i < ne r := by have := (List.getElem?_eq_some_iff.1 hrank).1; omega
    have hrow : row (served p) deg k = row (W r).2.1 deg i := by
      apply row_ext
      intro j hj
      exact v3 r i i p k hr' (by unfold RootOf; rw [hC.froots r hr']) ((hC.route r i p k hr' hp).2 ho) j hj
    obtain ⟨_, _, _, _, _, q, y, e1, e2, _, h4, h5⟩ := g5 i hi
    obtain rfl := Option.some.inj (hrank.symm.trans e1)
    exact ⟨hr', hi, hrow, y, h4, hrank, e2, by rw [hrow]; exact h5⟩
  have hget : ∀ p k : Nat, k < (order p).length → ∃ r i : Nat, (order p)[k]? = some (r, i) := by
    intro p k hk
    exact ⟨_, _, List.getElem?_eq_getElem hk⟩
  obtain ⟨O, o1, o2⟩ := choose_world (n := n)
    (fun r => (((world n D).map Dist.invert)[r]?).bind (fun d => d.fwd.roots2items.bind (fun fan => d.nitems.bind (fun nserved =>
      ((world n (fun p => (⟨(order p).map Prod.fst, (order p).map Prod.snd⟩ : Remotes)))[r]?).bind (fun o => ((world n served)[r]?).bind (fun verts =>
      serveEnts (fun k => s r (k + 31)) deg fan o nserved verts))))))
    (fun p owners => ∃ own : Nat → Nat, owners.ranks.length = (order p).length ∧ owners.idxs.length = (order p).length ∧
      (∀ k, k < (order p).length → own k < (order p).length ∧ owners.ranks[k]? = ((order p).map Prod.fst)[own k]? ∧
        owners.idxs[k]? = ((order p).map Prod.snd)[own k]? ∧ row (served p) deg (own k) = row (served p) deg k) ∧
      ∀ k k', k < (order p).length → k' < (order p).length → row (served p) deg k = row (served p) deg k' → own k = own k' ∧
        ((order p).map Prod.fst).getD (own k) 0 ≤ ((order p).map Prod.fst).getD k' 0) (by
    intro p hp
    obtain ⟨f1, f2, f3⟩ := hC.fanOk p hp
    have hni : ((D p).invert).nitems = some (order p).length := nitems_of hC.ok.invert hp
    obtain ⟨owners, own, a1, a2, a3, a4, a5⟩ := serve_spec (fun k => s p (k + 31)) hdeg (fan p)
      ⟨(order p).map Prod.fst, (order p).map Prod.snd⟩ (order p).length (served p) f1 f3 (List.length_map _) (List.length_map _)
      (by
        intro q hq
        obtain ⟨⟨r, i⟩, hm, rfl⟩ := List.mem_map.1 hq
        have := ((hC.mem p hp r i).1 hm).1
        show r < _
        omega) (v2 p hp)
      (by
        intro k hk
        obtain ⟨r, i, ho⟩ := hget p k hk
        obtain ⟨h1, h2, h3, _⟩ := hserved p k r i hp ho
        obtain ⟨_, _, _, _, g5⟩ := w2 r h1
        rw [h3]
        exact ⟨(g5 i h2).2.1, (g5 i h2).1⟩)
      (by
        intro x k k' hk hk'
        have hlast : (fan p)[(fan p).length - 1]? = some (order p).length := by rw [← List.getLast?_eq_getElem?]; exact f3
        obtain ⟨r, i, ho⟩ := hget p k (inFan_lt f1 hk hlast).1
        obtain ⟨r', i', ho'⟩ := hget p k' (inFan_lt f1 hk' hlast).1
        obtain ⟨_, _, _, y, _, _, b1, b2⟩ := hserved p k r i hp ho
        obtain ⟨_, _, _, y', _, _, b1', b2'⟩ := hserved p k' r' i' hp ho'
        have c1 := (hC.group p hp k r i x ho).1 hk
        have c2 := (hC.group p hp k' r' i' x ho').1 hk'
        obtain rfl := Option.some.inj (b1.symm.trans c1)
        obtain rfl := Option.some.inj (b1'.symm.trans c2)
        rw [b2, b2'])
      (by
        intro x k k' hk hk' e hx
        obtain ⟨r, i, ho⟩ := hget p k hk
        obtain ⟨r', i', ho'⟩ := hget p k' hk'
        obtain ⟨_, _, _, y, by_, _, b1, b2⟩ := hserved p k r i hp ho
        obtain ⟨_, _, _, y', by', _, b1', b2'⟩ := hserved p k' r' i' hp ho'
        have c1 := (hC.group p hp k r i x ho).1 hx
        obtain rfl := Option.some.inj (b1.symm.trans c1)
        rw [e, b2'] at b2
        obtain rfl := (hinj p y' p y by' by_ (Option.some.inj b2)).2
        exact (hC.group p hp k' r' i' y' ho').2 b1')
    refine ⟨owners, ?_, own, a2, a3, a4, a5⟩
    rw [world_map, world_get _ hp, Option.bind_some]
    show ((D p).rev.roots2items).bind _ = _
    rw [hC.rroots p hp, Option.bind_some, hni, Option.bind_some, world_get _ hp, Option.bind_some, world_get _ hp, Option.bind_some]
    exact a1)
  -- back to the entities
  have hinv := hC.ok.invert
  have hokI : DistOk n (fun r => (⟨{ ((D r).invert).fwd with roots2items := none }, ((D r).invert).rev⟩ : Dist)) (fun p => (order p).length)
      (fun r => (W r).2.2.ranks.length) (fun p => (order p).length) (fun r => (W r).2.2.ranks.length) := by
    refine ⟨⟨?_, hinv.wired.rev, hinv.wired.mate, hinv.wired.size⟩, ?_, hinv.rev⟩
    · intro r hr
      have := hinv.wired.fwd r hr
      exact ⟨this.fan, this.len, this.last, this.nodup, this.rank⟩
    · intro r hr
      refine ⟨(hinv.fwd r hr).perm, fun _ hf => (nomatch hf), fun _ => rfl⟩
  obtain ⟨X, x1, x2, x3⟩ := exch_spec (fun r k => s r (k + 37)) hokI (w := 1) (by omega) (fun r => (O r).ranks)
    (fun p hp => by obtain ⟨_, h, _⟩ := o2 p hp; rw [h, Nat.mul_one])
  obtain ⟨Y, y1, y2, y3⟩ := exch_spec (fun r k => s r (k + 4 + 37)) hokI (w := 1) (by omega) (fun r => (O r).idxs)
    (fun p hp => by obtain ⟨_, _, h, _⟩ := o2 p hp; rw [h, Nat.mul_one])
  have hrun : resolveDerivedCopies s deg (world n globals) (world n ev2v) =
      some (world n (fun r => (W r).1), world n (fun r => (⟨X r, Y r⟩ : Remotes))) := by
    unfold resolveDerivedCopies
    rw [world_length]
    dsimp only
    rw [world_map, htot, w1, Option.bind_some,
      mapM_range_some n _ size (fun r hr => by rw [hsize r hr]; rfl), Option.bind_some, world_map, world_map]
    have e1 : newDist (fun r k => s r (k + 8)) (world n (fun r => (W r).2.2)) (List.map size (List.range n)) = some (world n D) := hDD
    rw [e1, Option.bind_some, v1, Option.bind_some, items2dests_rev hC, Option.bind_some, o1, Option.bind_some, world_map n D, world_map n W]
    unfold exchRemotes
    have x1' : Dist.exch (fun r k => s r (k + 37)) ((world n (fun r => (D r).invert)).map (fun d : Dist =>
        (⟨{ d.fwd with roots2items := none }, d.rev⟩ : Dist))) 1 (world n (fun r => (O r).ranks)) = some (world n X) := by
      rw [world_map]; exact x1
    have y1' : Dist.exch (fun r k => s r (k + 4 + 37)) ((world n (fun r => (D r).invert)).map (fun d : Dist =>
        (⟨{ d.fwd with roots2items := none }, d.rev⟩ : Dist))) 1 (world n (fun r => (O r).idxs)) = some (world n Y) := by
      rw [world_map]; exact y1
    rw [world_map n O, world_map n O, x1', Option.bind_some]
    dsimp only
    rw [y1', Option.map_some, world_zip, world_map, Option.map_some]
  -- where an entity goes and what it gets back
  have hone : ∀ r i : Nat, r < n → i < ne r → ∃ p u x : Nat, p < n ∧ (order p)[u]? = some (r, i) ∧ u < (order p).length ∧ x < size p ∧
      (row (W r).2.1 deg i)[0]? = some (globalOf size p x) ∧ row (served p) deg u = row (W r).2.1 deg i ∧
      (X r)[i]? = (O p).ranks[u]? ∧ (Y r)[i]? = (O p).idxs[u]? := by
    intro r i hr' hi
    obtain ⟨_, _, _, _, g5⟩ := w2 r hr'
    obtain ⟨_, _, _, _, _, p, x, e1, e2, e3, e4, e5⟩ := g5 i hi
    obtain ⟨u, hu⟩ := List.getElem?_of_mem ((hC.mem p e3 r i).2 ⟨hr', e1⟩)
    have hroute := route_invert hC.ok hr' ((hC.route r i p u hr' e3).2 hu)
    have h1 := x3 p u u r i e3 rfl hroute 0 (by omega)
    have h2 := y3 p u u r i e3 rfl hroute 0 (by omega)
    rw [entry_one, entry_one] at h1 h2
    exact ⟨p, u, x, e3, hu, (List.getElem?_eq_some_iff.1 hu).1, e4, e5, (hserved p u r i e3 hu).2.2.1, h1, h2⟩
  -- polygons and canonical rows
  have hpoly : ∀ r i a, r < n → vertGlobals (globals r) (ev2v r) deg i = some a →
      i < ne r ∧ a.length = deg ∧ SamePolygon a (row (W r).2.1 deg i) ∧ IsCanon (row (W r).2.1 deg i) ∧ (row (W r).2.1 deg i).length = deg := by
    intro r i a hr' ha
    have hi := vertGlobals_some hd0 (hl r hr') ha
    rw [vertGlobals_map (hl r hr') (hr r hr') hi] at ha
    obtain rfl := Option.some.inj ha
    obtain ⟨_, g2, _, _, g5⟩ := w2 r hr'
    obtain ⟨_, h2, _, _, h5, _⟩ := g5 i hi
    exact ⟨hi, by rw [List.length_map, row_length (hl r hr') hi], h5, h2, row_length g2 hi⟩
  have hsamerow : ∀ r i r' i' a b, r < n → r' < n → vertGlobals (globals r) (ev2v r) deg i = some a →
      vertGlobals (globals r') (ev2v r') deg i' = some b → (SamePolygon a b ↔ row (W r).2.1 deg i = row (W r').2.1 deg i') := by
    intro r i r' i' a b h1 h2 ha hb
    obtain ⟨_, a2, a3, a4, a5⟩ := hpoly r i a h1 ha
    obtain ⟨_, b2, b3, b4, b5⟩ := hpoly r' i' b h2 hb
    constructor
    · intro hs
      exact canon_unique hdeg a5 a4 b4 ((a3.symm hdeg a2).trans hdeg a5 (hs.trans hdeg a2 b3))
    · intro e
      rw [← e] at b3
      exact a3.trans hdeg a2 (b3.symm hdeg b2)
  have hcanon : ∀ r i, r < n → i < ne r → vertGlobals (globals r) (W r).1 deg i = some (row (W r).2.1 deg i) := by
    intro r i hr' hi
    obtain ⟨g1, _, _, _, g5⟩ := w2 r hr'
    have hin : ∀ v ∈ (W r).1, v < (globals r).length := by
      intro v hv
      obtain ⟨k, hk⟩ := List.getElem?_of_mem hv
      have hkl := (List.getElem?_eq_some_iff.1 hk).1
      rw [g1] at hkl
      obtain ⟨e, j, he, hj, rfl⟩ := row_cover hkl
      have hv' : v ∈ row (W r).1 deg e := by
        apply List.mem_of_getElem? (i := j)
        rw [row_get _ _ hj]
        exact hk
      obtain ⟨_, _, h3, _⟩ := g5 e he
      exact hr r hr' v (List.mem_of_mem_drop (List.mem_of_mem_take ((samePolygon_perm h3).mem_iff.1 hv')))
    rw [vertGlobals_map g1 hin hi, (g5 i hi).2.2.2.1]
  refine ⟨_, _, hrun, ?_, ?_, ?_, ?_, ?_, ?_⟩
  · intro r hr'
    obtain ⟨g1, _, g3, _, g5⟩ := w2 r hr'
    refine ⟨g1, ?_, ?_, fun i hi => (g5 i hi).2.2.1⟩
    · show (X r).length = _
      rw [x2 r hr', Nat.mul_one, g3]
    · show (Y r).length = _
      rw [y2 r hr', Nat.mul_one, g3]
  · intro r i r' i' a b h1 h2 ha hb hs
    rw [hcanon r i h1 (hpoly r i a h1 ha).1, hcanon r' i' h2 (hpoly r' i' b h2 hb).1, (hsamerow r i r' i' a b h1 h2 ha hb).1 hs]
  · intro r i v vs hr' hv w hw
    have hi := vertGlobals_some hd0 (w2 r hr').1 hv
    rw [hcanon r i hr' hi] at hv
    have := ((w2 r hr').2.2.2.2 i hi).2.1
    rw [Option.some.inj hv] at this
    exact isCanon_first this hw
  · -- an owner is a copy
    intro r i a hr' ha
    have ha' : vertGlobals (globals r) (ev2v r) deg i = some a := ha
    have hi := (hpoly r i a hr' ha').1
    obtain ⟨p, u, x, hp, hu, hul, _, _, hrow, hX, hY⟩ := hone r i hr' hi
    obtain ⟨own, _, _, q3, _⟩ := o2 p hp
    obtain ⟨k1, k2, k3, k4⟩ := q3 u hul
    obtain ⟨q, k, hqk⟩ := hget p (own u) k1
    obtain ⟨hq, hk, hrow', _⟩ := hserved p (own u) q k hp hqk
    have hb := vertGlobals_map (hl q hq) (hr q hq) hk
    refine ⟨q, k, _, destOf_eq.2 ⟨?_, ?_⟩, hq, hb, (hsamerow r i q k a _ hr' hq ha' hb).2 (by rw [← hrow, ← hrow', k4])⟩
    · show (X r)[i]? = _
      rw [hX, k2, List.getElem?_map, hqk]; rfl
    · show (Y r)[i]? = _
      rw [hY, k3, List.getElem?_map, hqk]; rfl
  · -- copies have one owner
    intro r i r' i' a b h1 h2 ha hb hs
    have e := (hsamerow r i r' i' a b h1 h2 ha hb).1 hs
    obtain ⟨p, u, x, hp, hu, hul, hx, hf, hrow, hX, hY⟩ := hone r i h1 (hpoly r i a h1 ha).1
    obtain ⟨p', u', x', hp', hu', hul', hx', hf', hrow', hX', hY'⟩ := hone r' i' h2 (hpoly r' i' b h2 hb).1
    rw [e, hf'] at hf
    obtain ⟨rfl, rfl⟩ := hinj p' x' p x hx' hx (Option.some.inj hf)
    obtain ⟨own, _, _, q3, q4⟩ := o2 p' hp
    obtain ⟨k1, _⟩ := q4 u u' hul hul' (by rw [hrow, hrow', e])
    show ((X r)[i]?).bind (fun q => ((Y r)[i]?).map (fun k => (q, k))) = ((X r')[i']?).bind (fun q => ((Y r')[i']?).map (fun k => (q, k)))
    rw [hX, hY, hX', hY', (q3 u hul).2.1, (q3 u hul).2.2.1, (q3 u' hul').2.1, (q3 u' hul').2.2.1, k1]
  · -- the owner is on the lowest rank
    intro r i r' i' a b q k h1 h2 ha hb hs ho
    have e := (hsamerow r i r' i' a b h1 h2 ha hb).1 hs
    obtain ⟨p, u, x, hp, hu, hul, hx, hf, hrow, hX, hY⟩ := hone r i h1 (hpoly r i a h1 ha).1
    obtain ⟨p', u', x', hp', hu', hul', hx', hf', hrow', hX', hY'⟩ := hone r' i' h2 (hpoly r' i' b h2 hb).1
    rw [e, hf'] at hf
    obtain ⟨rfl, rfl⟩ := hinj p' x' p x hx' hx (Option.some.inj hf)
    obtain ⟨own, _, _, q3, q4⟩ := o2 p' hp
    obtain ⟨_, k2⟩ := q4 u u' hul hul' (by rw [hrow, hrow', e])
    have ho1 : (X r)[i]? = some q := (destOf_eq.1 ho).1
    rw [hX, (q3 u hul).2.1] at ho1
    rw [List.getD_eq_getElem?_getD, ho1, List.getD_eq_getElem?_getD, List.getElem?_map, hu'] at k2
    exact k2

theorem DerivedOwners.congr {n : Nat} {v v' : Nat → Nat → Option (List Nat)} {owner : Nat → Nat → Option (Nat × Nat)} {deg : Nat}
    (hdeg : deg = 2 ∨ deg = 3 ∨ deg = 4) (h : DerivedOwners n v owner)
    (h1 : ∀ r i a, r < n → v r i = some a → ∃ b, v' r i = some b ∧ SamePolygon a b ∧ a.length = deg)
    (h2 : ∀ r i b, r < n → v' r i = some b → ∃ a, v r i = some a) : DerivedOwners n v' owner := by
  have key : ∀ r i b, r < n → v' r i = some b → ∃ a, v r i = some a ∧ SamePolygon a b ∧ a.length = deg := by
    intro r i b hr hb
    obtain ⟨a, ha⟩ := h2 r i b hr hb
    obtain ⟨b', e, hs, hl⟩ := h1 r i a hr ha
    obtain rfl := Option.some.inj (hb.symm.trans e)
    exact ⟨a, ha, hs, hl⟩
  have pass : ∀ a b a' b' : List Nat, SamePolygon a b → a.length = deg → SamePolygon a' b' → a'.length = deg → SamePolygon b b' → SamePolygon a a' := by
    intro a b a' b' hs hl hs' hl' hh
    exact (hs.trans hdeg hl hh).trans hdeg hl (hs'.symm hdeg hl')
  refine ⟨?_, ?_, ?_⟩
  · intro r i b hr hb
    obtain ⟨a, ha, hs, hl⟩ := key r i b hr hb
    obtain ⟨q, k, c, e1, e2, e3, e4⟩ := h.copy r i a hr ha
    obtain ⟨d, f1, f2, f3⟩ := h1 q k c e2 e3
    exact ⟨q, k, d, e1, e2, f1, (hs.symm hdeg hl).trans hdeg (hs.length_eq.trans hl) (e4.trans hdeg hl f2)⟩
  · intro r i r' i' b b' hr hr' hb hb' hh
    obtain ⟨a, ha, hs, hl⟩ := key r i b hr hb
    obtain ⟨a', ha', hs', hl'⟩ := key r' i' b' hr' hb'
    exact h.agree r i r' i' a a' hr hr' ha ha' (pass a b a' b' hs hl hs' hl' hh)
  · intro r i r' i' b b' q k hr hr' hb hb' hh ho
    obtain ⟨a, ha, hs, hl⟩ := key r i b hr hb
    obtain ⟨a', ha', hs', hl'⟩ := key r' i' b' hr' hb'
    exact h.lowest r i r' i' a a' q k hr hr' ha ha' (pass a b a' b' hs hl hs' hl' hh) ho

/-- Deriving the edges or faces of a partitioned mesh: on every rank each side of each element is one entity and every entity is such a
side; copies, which are the entities with the same global vertices, have one owner, on the lowest rank that has one, and list their vertices
in one global order, the smallest first; and the entities are numbered `0, …, N - 1` over all ranks, copies alike. -/
theorem C68_derive (s : Nat → Nat → Sched) {n T : Nat} (hn : 0 < n) (hn' : n < 2 ^ 31) (f : Family) (high low : Nat) (hd : DimPair high low)
    (globals elems : Nat → List Nat) (nh : Nat → Nat) (hT : ∀ r, r < n → ∀ g ∈ globals r, g < T) (hsz : T / n + 1 < 2 ^ 31)
    (hu : ∀ r, r < n → (globals r).Nodup)
    (hl : ∀ r, r < n → (elems r).length = nh r * (elementDegree f high 0).toNat)
    (hr : ∀ r, r < n → ∀ v ∈ elems r, v < (globals r).length)
    (hnd : ∀ r, r < n → ∀ h, h < nh r → (row (elems r) (elementDegree f high 0).toNat h).Nodup) :
    ∃ (canon : Nat → List Nat) (owners : Nat → Remotes) (numbers : Nat → List Int) (nl : Nat → Nat) (N : Nat),
      deriveShared s f high low (world n globals) (world n elems) = some (world n canon, world n owners, world n numbers) ∧
      (∀ r, r < n → (canon r).length = nl r * (elementDegree f low 0).toNat ∧
        (∀ l, l < nl r → ∃ h u, h < nh r ∧ u < (elementDegree f high low).toNat ∧
          SamePolygon (sideVerts f high low (row (elems r) (elementDegree f high 0).toNat h) u) (row (canon r) (elementDegree f low 0).toNat l)) ∧
        (∀ h u, h < nh r → u < (elementDegree f high low).toNat → ∃ l, l < nl r ∧
          SamePolygon (sideVerts f high low (row (elems r) (elementDegree f high 0).toNat h) u) (row (canon r) (elementDegree f low 0).toNat l)) ∧
        (∀ l l', l < nl r → l' < nl r → SamePolygon (row (canon r) (elementDegree f low 0).toNat l) (row (canon r) (elementDegree f low 0).toNat l') →
          l = l') ∧
        ∀ l, l < nl r → ∃ a, vertGlobals (globals r) (canon r) (elementDegree f low 0).toNat l = some a) ∧
      DerivedOwners n (fun r i => vertGlobals (globals r) (canon r) (elementDegree f low 0).toNat i) (destOf owners) ∧
      (∀ r i r' i' a b, r < n → r' < n → vertGlobals (globals r) (canon r) (elementDegree f low 0).toNat i = some a →
        vertGlobals (globals r') (canon r') (elementDegree f low 0).toNat i' = some b → SamePolygon a b → a = b) ∧
      (∀ r i v vs, r < n → vertGlobals (globals r) (canon r) (elementDegree f low 0).toNat i = some (v :: vs) → ∀ w ∈ vs, v < w) ∧
      (∀ r i r' i' a b, r < n → r' < n → vertGlobals (globals r) (canon r) (elementDegree f low 0).toNat i = some a →
        vertGlobals (globals r') (canon r') (elementDegree f low 0).toNat i' = some b →
        ∃ v v' : Nat, (numbers r)[i]? = some (v : Int) ∧ (numbers r')[i']? = some (v' : Int) ∧ (v = v' ↔ SamePolygon a b)) ∧
      ∀ v : Nat, v < N ↔ ∃ r i : Nat, r < n ∧ i < nl r ∧ (numbers r)[i]? = some (v : Int) := by
  have ht := template_facts f high low hd
  generalize hdg : (elementDegree f low 0).toNat = deg at *
  have hdeg : deg = 2 ∨ deg = 3 ∨ deg = 4 := ht.2.2.1
  have hd0 : 0 < deg := by omega
  obtain ⟨E, e1, e2⟩ := choose_world (n := n)
    (fun r => ((world n elems)[r]?).bind (fun e => findUnique (s r 0) e f high low))
    (fun r lv2v => ∃ nl, lv2v.length = nl * deg ∧
      (∀ l, l < nl → ∃ h u, h < nh r ∧ u < (elementDegree f high low).toNat ∧
        row lv2v deg l = sideVerts f high low (row (elems r) (elementDegree f high 0).toNat h) u) ∧
      (∀ h u, h < nh r → u < (elementDegree f high low).toNat → ∃ l, l < nl ∧
        SamePolygon (sideVerts f high low (row (elems r) (elementDegree f high 0).toNat h) u) (row lv2v deg l)) ∧
      (∀ l l', l < nl → l' < nl → SamePolygon (row lv2v deg l) (row lv2v deg l') → l = l')) (by
    intro r hr'
    obtain ⟨lv, nl, h1, h2, h3, h4, h5⟩ := C12_find_unique (s r 0) f high low hd (elems r) (nh r) (hl r hr') (hnd r hr')
    rw [hdg] at h2 h3 h4 h5
    exact ⟨lv, by rw [world_get _ hr', Option.bind_some]; exact h1, nl, h2, h3, h4, h5⟩)
  have e2' : ∀ r, ∃ nl : Nat, r < n → (E r).length = nl * deg ∧
      (∀ l, l < nl → ∃ h u, h < nh r ∧ u < (elementDegree f high low).toNat ∧
        row (E r) deg l = sideVerts f high low (row (elems r) (elementDegree f high 0).toNat h) u) ∧
      (∀ h u, h < nh r → u < (elementDegree f high low).toNat → ∃ l, l < nl ∧
        SamePolygon (sideVerts f high low (row (elems r) (elementDegree f high 0).toNat h) u) (row (E r) deg l)) ∧
      (∀ l l', l < nl → l' < nl → SamePolygon (row (E r) deg l) (row (E r) deg l') → l = l') := by
    intro r
    by_cases hr' : r < n
    · obtain ⟨nl, h⟩ := e2 r hr'
      exact ⟨nl, fun _ => h⟩
    · exact ⟨0, fun h => absurd h hr'⟩
  obtain ⟨nl, hE⟩ := Classical.skolem.1 e2'
  have hrowE : ∀ r l, r < n → l < nl r → (row (E r) deg l).Nodup ∧ (∀ v ∈ row (E r) deg l, v < (globals r).length) := by
    intro r l hr' hl'
    obtain ⟨_, h2, _⟩ := hE r hr'
    obtain ⟨h, u, hh, hu', e⟩ := h2 l hl'
    have hrl := row_length (hl r hr') hh
    rw [e]
    refine ⟨sideVerts_nodup f high low hd _ hrl (hnd r hr' h hh) u hu', ?_⟩
    intro v hv
    obtain ⟨g1, g2⟩ := sideVerts_get f high low hd _ hrl u hu'
    obtain ⟨k, hk⟩ := List.getElem?_of_mem hv
    have hkl := (List.getElem?_eq_some_iff.1 hk).1
    rw [g1] at hkl
    rw [g2 k hkl] at hk
    exact hr r hr' v (List.mem_of_mem_drop (List.mem_of_mem_take (List.mem_of_getElem? hk)))
  have hin : ∀ r, r < n → ∀ v ∈ E r, v < (globals r).length := by
    intro r hr' v hv
    obtain ⟨k, hk⟩ := List.getElem?_of_mem hv
    have hkl := (List.getElem?_eq_some_iff.1 hk).1
    rw [(hE r hr').1] at hkl
    obtain ⟨e, j, he, hj, rfl⟩ := row_cover hkl
    exact (hrowE r e hr' he).2 v (List.mem_of_getElem? (i := j) (by rw [row_get _ _ hj]; exact hk))
  have hGinj : ∀ r, r < n → ∀ x y, x < (globals r).length → y < (globals r).length → (globals r).getD x 0 = (globals r).getD y 0 → x = y := by
    intro r hr' x y hx hy e
    rw [getD_lt hx, getD_lt hy] at e
    exact (List.Nodup.getElem_inj_iff (hu r hr')).1 e
  obtain ⟨canon, owners, r1, r2, r3, r4, r5⟩ := C68_resolve (fun r k => s r (k + 1)) hn hn' hdeg globals E nl hT hsz (fun r hr' => (hE r hr').1) hin (by
    intro r hr' i a ha
    have hi := vertGlobals_some hd0 (hE r hr').1 ha
    rw [vertGlobals_map (hE r hr').1 (hin r hr') hi] at ha
    obtain rfl := Option.some.inj ha
    obtain ⟨h1, h2⟩ := hrowE r i hr' hi
    exact (List.nodup_map_iff_inj_on h1).2 (fun x hx y hy e => hGinj r hr' x y (h2 x hx) (h2 y hy) e))
  have hcin : ∀ r, r < n → ∀ v ∈ canon r, v < (globals r).length := by
    intro r hr' v hv
    obtain ⟨k, hk⟩ := List.getElem?_of_mem hv
    have hkl := (List.getElem?_eq_some_iff.1 hk).1
    rw [(r2 r hr').1] at hkl
    obtain ⟨e, j, he, hj, rfl⟩ := row_cover hkl
    have hv' : v ∈ row (canon r) deg e := List.mem_of_getElem? (i := j) (by rw [row_get _ _ hj]; exact hk)
    exact (hrowE r e hr' he).2 v ((samePolygon_perm ((r2 r hr').2.2.2 e he)).mem_iff.1 hv')
  have hvc : ∀ r i, r < n → i < nl r → vertGlobals (globals r) (canon r) deg i = some ((row (canon r) deg i).map (fun v => (globals r).getD v 0)) :=
    fun r i hr' hi => vertGlobals_map (r2 r hr').1 (hcin r hr') hi
  have hO : DerivedOwners n (fun r i => vertGlobals (globals r) (canon r) deg i) (destOf owners) := by
    refine DerivedOwners.congr hdeg r5 ?_ ?_
    · intro r i a hr' ha
      have ha : vertGlobals (globals r) (E r) deg i = some a := ha
      have hi := vertGlobals_some hd0 (hE r hr').1 ha
      rw [vertGlobals_map (hE r hr').1 (hin r hr') hi] at ha
      obtain rfl := Option.some.inj ha
      exact ⟨_, hvc r i hr' hi, samePolygon_map _ ((r2 r hr').2.2.2 i hi), by rw [List.length_map, row_length (hE r hr').1 hi]⟩
    · intro r i b hr' hb
      have hi := vertGlobals_some hd0 (r2 r hr').1 hb
      exact ⟨_, vertGlobals_map (hE r hr').1 (hin r hr') hi⟩
  have hrowC : ∀ r l, r < n → l < nl r → (row (canon r) deg l).length = deg := fun r l hr' hl' => row_length (r2 r hr').1 hl'
  have hone : ∀ r l l', r < n → l < nl r → l' < nl r → SamePolygon (row (canon r) deg l) (row (canon r) deg l') → l = l' := by
    intro r l l' hr' h1 h2 hs
    obtain ⟨_, _, _, h4⟩ := hE r hr'
    have a1 := (r2 r hr').2.2.2 l h1
    have a2 := (r2 r hr').2.2.2 l' h2
    have b1 := row_length (hE r hr').1 h1
    have b2 := row_length (hE r hr').1 h2
    exact h4 l l' h1 h2 ((a1.trans hdeg b1 hs).trans hdeg b1 (a2.symm hdeg b2))
  have hsome : ∀ r i q k, r < n → destOf owners r i = some (q, k) → i < nl r := by
    intro r i q k hr' h
    have h1 := (List.getElem?_eq_some_iff.1 (destOf_eq.1 h).1).1
    rw [(r2 r hr').2.1] at h1
    exact h1
  have hcopy : ∀ r i q k, r < n → destOf owners r i = some (q, k) → q < n ∧ k < nl q ∧ destOf owners q k = some (q, k) ∧
      SamePolygon ((row (canon r) deg i).map (fun v => (globals r).getD v 0)) ((row (canon q) deg k).map (fun v => (globals q).getD v 0)) := by
    intro r i q k hr' h
    have hi := hsome r i q k hr' h
    obtain ⟨q', k', b, f1, f2, f3, f4⟩ := hO.copy r i _ hr' (hvc r i hr' hi)
    obtain ⟨rfl, rfl⟩ := Prod.mk.inj (Option.some.inj (h.symm.trans f1))
    have f3 : vertGlobals (globals q) (canon q) deg k = some b := f3
    have hk := vertGlobals_some hd0 (r2 q f2).1 f3
    have hag := hO.agree r i q k _ b hr' f2 (hvc r i hr' hi) f3 f4
    rw [hvc q k f2 hk] at f3
    obtain rfl := Option.some.inj f3
    exact ⟨f2, hk, hag.symm.trans h, f4⟩
  have hok : DestsOk n owners (fun r => (owners r).ranks.length) := by
    refine ⟨by omega, ?_, ?_, ?_⟩
    · intro r hr' p hp
      obtain ⟨k, hk⟩ := List.getElem?_of_mem hp
      have hkl := (List.getElem?_eq_some_iff.1 hk).1
      have hlen : (owners r).idxs.length = (owners r).ranks.length := by rw [(r2 r hr').2.1, (r2 r hr').2.2.1]
      exact (hcopy r k p _ hr' (destOf_eq.2 ⟨hk, List.getElem?_eq_getElem (by omega)⟩)).1
    · intro r hr'
      rw [(r2 r hr').2.1, (r2 r hr').2.2.1]
    · intro r hr' i p x h1 h2
      obtain ⟨hp, hx, _⟩ := hcopy r i p x hr' (destOf_eq.2 ⟨h1, h2⟩)
      show x < (owners p).ranks.length
      rw [(r2 p hp).2.1]; exact hx
  have hself : ∀ r i q k : Nat, r < n → destOf owners r i = some (q, k) → destOf owners q k = some (q, k) :=
    fun r i q k hr' h => (hcopy r i q k hr' h).2.2.1
  have hlocal : ∀ q k x : Nat, q < n → destOf owners q k = some (q, x) → x = k := by
    intro q k x hq h
    have hk := hsome q k q x hq h
    obtain ⟨_, hx, _, hs⟩ := hcopy q k q x hq h
    have inr : ∀ l, l < nl q → ∀ v ∈ row (canon q) deg l, v < (globals q).length := fun l hl' v hv =>
      hcin q hq v (List.mem_of_mem_drop (List.mem_of_mem_take hv))
    exact (hone q k x hq hk hx (samePolygon_of_map _ (fun a ha b hb e => hGinj q hq a b (inr k hk a ha) (inr x hx b hb) e) hs)).symm
  obtain ⟨g, g1, g2⟩ := C21_globals (fun r k => s r (k + 50)) hok hself
  obtain ⟨g', g1', g2', _⟩ := C21_globals_dense (fun r k => s r (k + 50)) hok hself hlocal
  have hgg : ∀ r, r < n → g' r = g r := by
    intro r hr'
    have := congrArg (fun l : List (List Int) => l[r]?) (Option.some.inj (g1'.symm.trans g1))
    simp only [world_get _ hr'] at this
    exact Option.some.inj this
  have hdest : ∀ r i, r < n → i < nl r → ∃ o, destOf owners r i = some o := by
    intro r i hr' hi
    obtain ⟨q, k, _, h, _⟩ := hO.copy r i _ hr' (hvc r i hr' hi)
    exact ⟨_, h⟩
  refine ⟨canon, owners, g, nl, ((List.range n).map (fun r => (owners r).ranks.count r)).sum, ?_, ?_, hO, ?_, r4, ?_, ?_⟩
  · unfold deriveShared
    rw [world_length, e1, Option.bind_some, hdg, r1, Option.bind_some, g1]
    rfl
  · intro r hr'
    obtain ⟨_, h2, h3, _⟩ := hE r hr'
    refine ⟨(r2 r hr').1, ?_, ?_, fun l l' => hone r l l' hr', fun l hl' => ⟨_, hvc r l hr' hl'⟩⟩
    · intro l hl'
      obtain ⟨h, u, hh, hu', e⟩ := h2 l hl'
      exact ⟨h, u, hh, hu', by rw [← e]; exact (r2 r hr').2.2.2 l hl'⟩
    · intro h u hh hu'
      obtain ⟨l, hl', hs⟩ := h3 h u hh hu'
      refine ⟨l, hl', hs.trans hdeg ?_ ((r2 r hr').2.2.2 l hl')⟩
      rw [← hs.length_eq, row_length (hE r hr').1 hl']
  · intro r i r' i' a b hr' hr'' ha hb hs
    have hi := vertGlobals_some hd0 (r2 r hr').1 ha
    have hi' := vertGlobals_some hd0 (r2 r' hr'').1 hb
    have ea := vertGlobals_map (hE r hr').1 (hin r hr') hi
    have eb := vertGlobals_map (hE r' hr'').1 (hin r' hr'') hi'
    have la := row_length (hE r hr').1 hi
    have lb := row_length (hE r' hr'').1 hi'
    have sa := samePolygon_map (fun v => (globals r).getD v 0) ((r2 r hr').2.2.2 i hi)
    have sb := samePolygon_map (fun v => (globals r').getD v 0) ((r2 r' hr'').2.2.2 i' hi')
    have ha' := ha
    have hb' := hb
    rw [hvc r i hr' hi] at ha'
    rw [hvc r' i' hr'' hi'] at hb'
    rw [Option.some.inj ha'] at sa
    rw [Option.some.inj hb'] at sb
    have := r3 r i r' i' _ _ hr' hr'' ea eb ((sa.trans hdeg (by rw [List.length_map, la]) hs).trans hdeg (by rw [List.length_map, la])
      (sb.symm hdeg (by rw [List.length_map, lb])))
    rw [ha, hb] at this
    exact Option.some.inj this
  · intro r i r' i' a b hr' hr'' ha hb
    have hi := vertGlobals_some hd0 (r2 r hr').1 ha
    have hi' := vertGlobals_some hd0 (r2 r' hr'').1 hb
    obtain ⟨⟨q, k⟩, ho⟩ := hdest r i hr' hi
    obtain ⟨⟨q', k'⟩, ho'⟩ := hdest r' i' hr'' hi'
    obtain ⟨v, v', h1, h2, h3⟩ := g2 r i r' i' _ _ hr' hr'' ho ho'
    refine ⟨v, v', h1, h2, h3.trans ?_⟩
    constructor
    · intro e
      obtain ⟨rfl, rfl⟩ := Prod.mk.inj e
      have s1 := (hcopy r i q k hr' ho).2.2.2
      have s2 := (hcopy r' i' q k hr'' ho').2.2.2
      rw [hvc r i hr' hi] at ha
      rw [hvc r' i' hr'' hi'] at hb
      obtain rfl := Option.some.inj ha
      obtain rfl := Option.some.inj hb
      exact s1.trans hdeg (by rw [List.length_map, hrowC r i hr' hi]) (s2.symm hdeg (by rw [List.length_map, hrowC r' i' hr'' hi']))
    · intro hs
      exact Option.some.inj (ho.symm.trans ((hO.agree r i r' i' a b hr' hr'' ha hb hs).trans ho'))
  · intro v
    rw [g2' v]
    constructor
    · rintro ⟨r, i, hr', h1, h2⟩
      obtain ⟨⟨q, k⟩, ho⟩ := Option.isSome_iff_exists.1 h1
      exact ⟨r, i, hr', hsome r i q k hr' ho, by rw [← hgg r hr']; exact h2⟩
    · rintro ⟨r, i, hr', hi, h2⟩
      obtain ⟨o, ho⟩ := hdest r i hr' hi
      exact ⟨r, i, hr', by rw [ho]; rfl, by rw [hgg r hr']; exact h2⟩

/-! Two triangles on two ranks that share an edge: vertices 0, 1, 2 and 1, 3, 2. -/

def c68Globals (r : Nat) : List Nat := if r = 0 then [0, 1, 2] else [1, 3, 2]

example (r : Nat) : (c68Globals r).Nodup ∧ ∀ g ∈ c68Globals r, g < 4 := by
  unfold c68Globals
  split <;> decide

example : ∃ (canon : Nat → List Nat) (owners : Nat → Remotes) (numbers : Nat → List Int) (nl : Nat → Nat) (N : Nat),
    deriveShared (fun _ _ => Sched.serial) .simplex 2 1 (world 2 c68Globals) (world 2 (fun _ => [0, 1, 2])) =
      some (world 2 canon, world 2 owners, world 2 numbers) ∧
    DerivedOwners 2 (fun r i => vertGlobals (c68Globals r) (canon r) 2 i) (destOf owners) ∧
    ∀ v : Nat, v < N ↔ ∃ r i : Nat, r < 2 ∧ i < nl r ∧ (numbers r)[i]? = some (v : Int) := by
  obtain ⟨canon, owners, numbers, nl, N, h1, _, h3, _, _, _, h5⟩ := C68_derive (fun _ _ => Sched.serial) (n := 2) (T := 4) (by omega) (by omega)
    .simplex 2 1 (by unfold DimPair; omega) c68Globals (fun _ => [0, 1, 2]) (fun _ => 1)
    (by intro r _; unfold c68Globals; split <;> decide) (by omega) (by intro r _; unfold c68Globals; split <;> decide)
    (by intro r _; decide) (by intro r _; unfold c68Globals; split <;> decide)
    (by intro r _ h hh; obtain rfl : h = 0 := by omega
        decide)
  exact ⟨canon, owners, numbers, nl, N, h1, h3, h5⟩

/-- The shared edge is edge 2 of rank 0 and edge 1 of rank 1, where its vertices were turned; rank 0 owns it, both call it number 2. -/
example : deriveShared (fun _ _ => Sched.serial) .simplex 2 1 [[0, 1, 2], [1, 3, 2]] [[0, 1, 2], [0, 1, 2]] =
    some ([[0, 1, 0, 2, 1, 2], [0, 1, 0, 2, 2, 1]], [⟨[0, 0, 0], [0, 1, 2]⟩, ⟨[1, 0, 1], [0, 2, 2]⟩], [[0, 1, 2], [3, 2, 4]]) := by
  decide +kernel

example : deriveShared (fun _ _ => Sched.reversed) .simplex 2 1 [[0, 1, 2], [1, 3, 2]] [[0, 1, 2], [0, 1, 2]] =
    some ([[0, 1, 0, 2, 1, 2], [0, 1, 0, 2, 2, 1]], [⟨[0, 0, 0], [0, 1, 2]⟩, ⟨[1, 0, 1], [0, 2, 2]⟩], [[0, 1, 2], [3, 2, 4]]) := by
  decide +kernel

end OmegaH
