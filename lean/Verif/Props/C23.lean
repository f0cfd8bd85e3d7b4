import Verif.Lemmas.Ghost
/-!
# C23: ghost layers

`A` are the elements with their vertices, `B` the vertices. `mesh` are all dimensions of the mesh with the entities of the next lower
dimension, as migration needs them.
-/
namespace OmegaH
open Spec

/-- The elements with their vertices and the elements with their sides are the same elements. -/
structure SameElems (A A' : OldLevel) : Prop where
  nents : A.nents = A'.nents
  ownRanks : A.ownRanks = A'.ownRanks
  ownIdxs : A.ownIdxs = A'.ownIdxs
  globals : A.globals = A'.globals

/-- More hops reach more elements. -/
theorem within_mono {n deg : Nat} (hdeg : 0 < deg) {A B : OldLevel} {r k : Nat} {e : Nat × Nat}
    (htot : ∀ e, IsElem n A e → ∃ v, lowOwner A B deg e 0 = some v) (hr : r < n) (h : Within n deg A B r k e) :
    Within n deg A B r (k + 1) e := by
  have hel : IsElem n A e := by
    cases h with
    | here i _ ho => exact ⟨r, i, hr, ho⟩
    | hop _ _ _ _ _ _ hel _ => exact hel
  obtain ⟨v, hv⟩ := htot e hel
  exact Within.hop k e e v h ⟨0, hdeg, hv⟩ hel ⟨0, hdeg, hv⟩

/-- The vertices that a rank has are those of its elements. -/
theorem local_verts {n deg : Nat} {A B : OldLevel} (hA : A.Ok n) {fans upElems : Nat → List Nat}
    (hG : GhostOk n deg A B fans upElems) (hB : B.Ok n) {r : Nat} (hr : r < n) (v : Nat × Nat) :
    v ∈ copiesOf (fun r => ⟨B.ownRanks r, B.ownIdxs r⟩) r ↔ ∃ i e, A.owner (r, i) = some e ∧ Touches deg A B v e := by
  constructor
  · intro hv
    obtain ⟨w, hw⟩ := List.getElem?_of_mem hv
    rw [copiesOf_get] at hw
    obtain ⟨p, x⟩ := v
    obtain ⟨w1, w2⟩ := destOf_eq.1 hw
    have hwl : w < B.nents r := by
      have := (List.getElem?_eq_some_iff.1 w1).1
      dsimp only at this
      rw [hB.ranksLen r hr] at this
      exact this
    obtain ⟨i, j, hi, hj, he⟩ := hG.used r w hr hwl
    obtain ⟨e, ho⟩ : ∃ e, A.owner (r, i) = some e := by
      have h1 := List.getElem?_eq_getElem (show i < (A.ownRanks r).length by rw [hA.ranksLen r hr]; exact hi)
      have h2 := List.getElem?_eq_getElem (show i < (A.ownIdxs r).length by rw [hA.idxsLen r hr]; exact hi)
      exact ⟨(_, _), owner_eq.2 ⟨h1, h2⟩⟩
    refine ⟨i, e, ho, j, hj, ?_⟩
    rw [← hG.copies r i e hr ho j hj]
    unfold lowOwner
    rw [he, Option.bind_some]
    exact owner_eq.2 ⟨w1, w2⟩
  · rintro ⟨i, e, ho, j, hj, hlo⟩
    rw [← hG.copies r i e hr ho j hj] at hlo
    unfold lowOwner at hlo
    cases hent : entry (A.lows r) deg i j with
    | none => rw [hent] at hlo; simp at hlo
    | some w =>
      rw [hent, Option.bind_some] at hlo
      obtain ⟨p, x⟩ := v
      have : destOf (fun r => ⟨B.ownRanks r, B.ownIdxs r⟩) r w = some (p, x) := destOf_eq.2 (owner_eq.1 hlo)
      rw [← copiesOf_get] at this
      exact List.mem_of_getElem? this

/-- The plan of `ghost_mesh` for one layer, or for elements with `dim + 1` vertices. -/
theorem ghostPlan_spec (s : Nat → Nat → Nat → Sched) {n dim deg : Nat} (hn : n ≤ 2147483648) {A B : OldLevel} (hA : A.Ok n) (hB : B.Ok n)
    (hAB : LowsOk n deg A B) {fans upElems : Nat → List Nat} (hG : GhostOk n deg A B fans upElems) (have_ k : Nat) (hk : 0 < k)
    (hd : k = 1 ∨ deg = dim + 1) :
    ∃ (D : Nat → Dist) (de : Nat → Remotes) (order : Nat → List (Nat × Nat)) (fan : Nat → List Nat),
      ghostPlan s dim (levelOf n A) (levelOf n B) ⟨world n fans, world n upElems⟩ have_ (have_ + k : Nat) = some (world n D) ∧
      CopyDist n de A.nents D order fan ∧
      ElemsAre n A (fun r e => Within n deg A B r k e) (copiesOf de) := by
  obtain ⟨gfans, E, g1, g2⟩ := graph_spec (s 0) hn hA hB hAB hG
  have hO := ownerDests hn hB
  obtain ⟨Dv, ov, fv, v1, v2⟩ := newDist_spec (s 1) hO.size hO.rank hO.len hO.idx
  obtain ⟨D1, de1, o1, f1, c1, c2, c3⟩ := closeUp_spec (s 2) hA g2 (v2.copyDist hO)
  have hfirst : ElemsAre n A (fun r e => Within n deg A B r 1 e) (copiesOf de1) := by
    refine ⟨c3.once, ?_, c3.sorted⟩
    intro r e hr
    rw [c3.mem r e hr]
    constructor
    · rintro ⟨hel, v, hv, ht⟩
      obtain ⟨i, f, ho, htf⟩ := (local_verts hA hG hB hr v).1 hv
      exact Within.hop 0 f e v (Within.here i f ho) htf hel ht
    · rintro (_ | ⟨_, f, _, v, hf, htf, hel, ht⟩)
      obtain ⟨i, _, ho⟩ := hf
      exact ⟨hel, v, (local_verts hA hG hB hr v).2 ⟨i, f, ho, htf⟩, ht⟩
  have hstart : ∀ X, ghostPlan s dim (levelOf n A) (levelOf n B) ⟨world n fans, world n upElems⟩ have_ (have_ + k : Nat) = X ↔
      (if 1 < ((have_ + k : Nat) : Int) - have_ then
        (downUseOwners (s 3) (levelOf n A) (levelOf n B)).bind (fun U => ghostLoop (fun k => s (k + 4)) dim (levelOf n A) (levelOf n B)
          ⟨world n gfans, world n E⟩ U (((have_ + k : Nat) : Int) - have_ - 1).toNat (world n D1))
      else some (world n D1)) = X := by
    intro X
    unfold ghostPlan
    rw [if_pos ⟨by omega, by omega⟩, g1, Option.bind_some]
    show (newDist (s 1) (world n (fun r => (⟨B.ownRanks r, B.ownIdxs r⟩ : Remotes))) (world n B.nents)).bind _ = X ↔ _
    rw [v1, Option.bind_some, c1, Option.bind_some]
  by_cases h1 : k = 1
  · subst h1
    refine ⟨D1, de1, o1, f1, ?_, c2, hfirst⟩
    rw [hstart, if_neg (by omega)]
  · obtain rfl : deg = dim + 1 := by omega
    obtain ⟨U, u1, u2⟩ := downUseOwners_spec (s 3) hB hAB
    obtain ⟨D2, de2, o2, f2, l1, l2, l3⟩ := ghostLoop_spec (fun k => s (k + 4)) hA hB g2 u2 (k - 1) 1 c2 hfirst
    refine ⟨D2, de2, o2, f2, ?_, l2, ?_⟩
    · rw [hstart, if_pos (by omega), u1, Option.bind_some]
      rw [show (((have_ + k : Nat) : Int) - have_ - 1).toNat = k - 1 by omega]
      exact l1
    · rw [show 1 + (k - 1) = k by omega] at l3
      exact l3

/-- Adding one ghost layer to a mesh, or any number `k` of ghost layers to a mesh of simplices, on any number of ranks and for any partition, whatever the schedules: every rank
gets exactly the elements within `k` hops over shared vertices of the elements it had, each once and by global number; and the rest of
the mesh is migrated accordingly, owners keeping their ranks. Missing: two or more layers of other elements, see `C23_hypercubes_refuted`. -/
theorem C23_ghost_partial (s : Nat → Nat → Nat → Sched) (deg : Nat → Nat) {n dim vdeg : Nat} (hn : n ≤ 2147483648)
    {mesh : Nat → OldLevel} (hM : ∀ d, d ≤ dim → (mesh d).Ok n) (hL : ∀ d, d < dim → LowsOk n (deg (d + 1)) (mesh (d + 1)) (mesh d))
    {A : OldLevel} (hsame : SameElems A (mesh dim)) (hA : A.Ok n) (hAB : LowsOk n vdeg A (mesh 0))
    {fans upElems : Nat → List Nat} (hG : GhostOk n vdeg A (mesh 0) fans upElems) (have_ k : Nat) (hk : 0 < k)
    (hd : k = 1 ∨ vdeg = dim + 1) :
    ∃ (copies : Nat → Nat → List (Nat × Nat)) (N : Nat → NewData),
      (ghostPlan s dim (levelOf n A) (levelOf n (mesh 0)) ⟨world n fans, world n upElems⟩ have_ (have_ + k : Nat)).bind
        (migrateMesh s .ghosted deg (fun d => levelOf n (mesh d)) dim) = some ((List.range (dim + 1)).reverse.map (fun d => newLevelOf n (N d))) ∧
      ElemsAre n A (fun r e => Within n vdeg A (mesh 0) r k e) (copies dim) ∧
      (∀ d, d ≤ dim → LevelMigrated n (mesh d) true (copies d) (N d)) ∧
      ∀ d, d < dim → LowsMigrated n (deg (d + 1)) (mesh (d + 1)) (mesh d) (copies (d + 1)) (copies d) (N (d + 1)) := by
  obtain ⟨D, de, order, fan, p1, p2, p3⟩ := ghostPlan_spec s hn hA (hM 0 (Nat.zero_le _)) hAB hG have_ k hk hd
  rw [hsame.nents] at p2
  obtain ⟨copies, N, m1, m2, m3, m4⟩ := migrateFrom_spec s .ghosted deg mesh dim hM hL p2
  refine ⟨copies, N, ?_, by rw [m2]; exact p3, m3, m4⟩
  rw [p1, Option.bind_some]
  exact m1

/-- Partitioning by vertices: every rank gets exactly the elements that touch a vertex it owns. -/
theorem C23_by_verts (s : Nat → Nat → Nat → Sched) (s0 : Nat → Nat → Sched) (deg : Nat → Nat) {n dim vdeg : Nat} (hn : n ≤ 2147483648)
    {mesh : Nat → OldLevel} (hM : ∀ d, d ≤ dim → (mesh d).Ok n) (hL : ∀ d, d < dim → LowsOk n (deg (d + 1)) (mesh (d + 1)) (mesh d))
    {A : OldLevel} (hsame : SameElems A (mesh dim)) (hA : A.Ok n) (hAB : LowsOk n vdeg A (mesh 0))
    {fans upElems : Nat → List Nat} (hG : GhostOk n vdeg A (mesh 0) fans upElems) :
    ∃ (copies : Nat → Nat → List (Nat × Nat)) (N : Nat → NewData),
      (vertsPlan s0 (levelOf n A) (levelOf n (mesh 0)) ⟨world n fans, world n upElems⟩).bind
        (migrateMesh s .vertBased deg (fun d => levelOf n (mesh d)) dim) = some ((List.range (dim + 1)).reverse.map (fun d => newLevelOf n (N d))) ∧
      ElemsAre n A (fun r e => IsElem n A e ∧ ∃ x, Touches vdeg A (mesh 0) (r, x) e) (copies dim) ∧
      (∀ d, d ≤ dim → LevelMigrated n (mesh d) (d == 0) (copies d) (N d)) ∧
      ∀ d, d < dim → LowsMigrated n (deg (d + 1)) (mesh (d + 1)) (mesh d) (copies (d + 1)) (copies d) (N (d + 1)) := by
  have hB := hM 0 (Nat.zero_le _)
  obtain ⟨gfans, E, g1, g2⟩ := graph_spec s0 hn hA hB hAB hG
  obtain ⟨D, de, order, fan, p1, p2, p3⟩ := distinct_spec (fun r k => s0 r (k + 30)) (fun r k => s0 r (k + 40)) hA g2.dest
    (P := fun r e => IsElem n A e ∧ ∃ x, Touches vdeg A (mesh 0) (r, x) e) (by
    intro r e hr
    constructor
    · rintro ⟨k, hk⟩
      obtain ⟨f1, f2, f3⟩ := g2.isFan r hr
      obtain ⟨p, y⟩ := e
      obtain ⟨v, hv⟩ := inFan_cover f1 (by rw [← List.getLast?_eq_getElem?]; exact f3) (List.getElem?_eq_some_iff.1 (destOf_eq.1 hk).1).1
      obtain ⟨h1, h2⟩ := (g2.edge r v _ hr).1 ⟨k, hv, hk⟩
      exact ⟨h1, v, h2⟩
    · rintro ⟨h1, v, h2⟩
      obtain ⟨k, _, hk⟩ := (g2.edge r v e hr).2 ⟨h1, h2⟩
      exact ⟨k, hk⟩)
  rw [hsame.nents] at p2
  obtain ⟨copies, N, m1, m2, m3, m4⟩ := migrateFrom_spec s .vertBased deg mesh dim hM hL p2
  refine ⟨copies, N, ?_, by rw [m2]; exact p3, ?_, m4⟩
  · unfold vertsPlan
    rw [g1, Option.bind_some]
    have p1 : (newDist (fun r k => s0 r (k + 30)) (world n E) (levelOf n A).nents).bind (fun uses2oldOwners =>
      newCopies2oldOwners (fun r k => s0 r (k + 40)) uses2oldOwners (levelOf n A).globals) = some (world n D) := p1
    dsimp only
    rw [p1, Option.bind_some]
    exact m1
  · intro d hd
    have := m3 d hd
    have e : keepsRanks .vertBased d = (d == 0) := by unfold keepsRanks; cases d <;> rfl
    rw [e] at this
    exact this

/-- Partitioning by elements: every rank gets exactly the elements it owns, in the order it had them. -/
theorem C23_by_elems (s : Nat → Nat → Nat → Sched) (s0 : Nat → Nat → Sched) (deg : Nat → Nat) {n dim : Nat} (hn : n ≤ 2147483648)
    {mesh : Nat → OldLevel} (hM : ∀ d, d ≤ dim → (mesh d).Ok n) (hL : ∀ d, d < dim → LowsOk n (deg (d + 1)) (mesh (d + 1)) (mesh d))
    (hself : ∀ r i x, r < n → (mesh dim).owner (r, i) = some (r, x) → x = i) :
    ∃ (copies : Nat → Nat → List (Nat × Nat)) (N : Nat → NewData),
      (elemsPlan s0 (levelOf n (mesh dim))).bind (migrateMesh s .elemBased deg (fun d => levelOf n (mesh d)) dim) =
        some ((List.range (dim + 1)).reverse.map (fun d => newLevelOf n (N d))) ∧
      (∀ r, r < n → (copies dim r).Pairwise (fun e e' => e.2 < e'.2) ∧
        ∀ e, e ∈ copies dim r ↔ e.1 = r ∧ (mesh dim).owner e = some e) ∧
      (∀ d, d ≤ dim → LevelMigrated n (mesh d) false (copies d) (N d)) ∧
      ∀ d, d < dim → LowsMigrated n (deg (d + 1)) (mesh (d + 1)) (mesh d) (copies (d + 1)) (copies d) (N (d + 1)) := by
  generalize hAdef : mesh dim = A at hself
  have hA : A.Ok n := hAdef ▸ hM dim (Nat.le_refl _)
  obtain ⟨V, v1, v2⟩ := choose_world (n := n)
    (fun r => ((levelOf n A).owners[r]?).bind (fun o => (ownedMarks (s0 r 0) r o).bind (fun marks =>
      (collectMarked (s0 r 1) marks).bind (fun owned2all => unmapRemotes (s0 r 2) (s0 r 3) owned2all o))))
    (fun r (u : Remotes) => u.idxs.length = u.ranks.length ∧ (∀ (k : Nat) e, (u.ranks.zip u.idxs)[k]? = some e → A.owner e = some e ∧ e.1 = r) ∧
      (∀ e, e.1 = r → A.owner e = some e → e ∈ u.ranks.zip u.idxs) ∧ (u.ranks.zip u.idxs).Pairwise (fun e e' => e.2 < e'.2)) (by
    intro r hr
    let marks : List Int := (A.ownRanks r).map (fun p => if p = r then (1 : Int) else 0)
    have hmarks : ownedMarks (s0 r 0) r ⟨A.ownRanks r, A.ownIdxs r⟩ = some marks := by
      unfold ownedMarks
      dsimp only
      obtain ⟨out, o1, o2, o3⟩ := parEach (s0 r 0) (A.ownRanks r).length
        (fun i => ((A.ownRanks r)[i]?).map (fun p => if p = r then (1 : Int) else 0))
        (fun i hi => by rw [List.getElem?_eq_getElem hi]; rfl)
      rw [o1]
      congr 1
      apply List.ext_getElem?
      intro i
      rcases Nat.lt_or_ge i (A.ownRanks r).length with hi | hi
      · rw [o3 i hi, List.getElem?_map]
      · rw [List.getElem?_eq_none (by omega), List.getElem?_eq_none (by simpa [marks] using hi)]
    have hm : IsMarks marks := by
      intro m hmem
      obtain ⟨p, _, rfl⟩ := List.mem_map.1 hmem
      split
      · exact Or.inr rfl
      · exact Or.inl rfl
    obtain ⟨sel, c1, c2⟩ := C03_collect_marked (s0 r 1) marks hm
    rw [collected_eq c2] at c1
    have hmark : ∀ i, i ∈ markedList marks ↔ (A.ownRanks r)[i]? = some r := by
      intro i
      rw [(markedList_collected marks).2 i]
      show ((A.ownRanks r).map (fun p => if p = r then (1 : Int) else 0))[i]? = some 1 ↔ _
      rw [List.getElem?_map]
      cases h : (A.ownRanks r)[i]? with
      | none => simp
      | some p =>
        by_cases hp : p = r
        · simp [hp]
        · simp [hp]
    obtain ⟨u, u1, u2, u3, u4⟩ := unmapRemotes_spec (s0 r 2) (s0 r 3) (markedList marks) ⟨A.ownRanks r, A.ownIdxs r⟩ (A.nents r)
      (by
        intro i hi
        have := (List.getElem?_eq_some_iff.1 ((hmark i).1 hi)).1
        rw [hA.ranksLen r hr] at this
        exact this) (hA.ranksLen r hr) (hA.idxsLen r hr)
    have hzip : ∀ (k i : Nat), (markedList marks)[k]? = some i → (u.ranks.zip u.idxs)[k]? = some (r, i) ∧ A.owner (r, i) = some (r, i) := by
      intro k i hk
      have hi := (hmark i).1 (List.mem_of_getElem? hk)
      obtain ⟨x, hx⟩ : ∃ x, (A.ownIdxs r)[i]? = some x := ⟨_, List.getElem?_eq_getElem (by
        rw [hA.idxsLen r hr, ← hA.ranksLen r hr]; exact (List.getElem?_eq_some_iff.1 hi).1)⟩
      have hown := owner_eq.2 ⟨hi, hx⟩
      obtain rfl := hself r i x hr hown
      obtain ⟨g1, g2⟩ := u4 k _ hk
      exact ⟨List.getElem?_zip_eq_some.2 ⟨by rw [g1]; exact hi, by rw [g2]; exact hx⟩, hown⟩
    have hzl : (u.ranks.zip u.idxs).length = (markedList marks).length := by rw [List.length_zip, u2, u3, Nat.min_self]
    refine ⟨u, ?_, by rw [u2, u3], ?_, ?_, ?_⟩
    · show ((world n (fun r => (⟨A.ownRanks r, A.ownIdxs r⟩ : Remotes)))[r]?).bind _ = _
      rw [world_get _ hr, Option.bind_some, hmarks, Option.bind_some, c1, Option.bind_some, u1]
    · intro k e hk
      have hkl := (List.getElem?_eq_some_iff.1 hk).1
      rw [hzl] at hkl
      obtain ⟨h1, h2⟩ := hzip k _ (List.getElem?_eq_getElem hkl)
      rw [h1] at hk
      obtain rfl := Option.some.inj hk
      exact ⟨h2, rfl⟩
    · rintro ⟨q, i⟩ rfl ho
      obtain ⟨k, hk⟩ := List.getElem?_of_mem ((hmark i).2 (owner_eq.1 ho).1)
      exact List.mem_of_getElem? (hzip k i hk).1
    · rw [List.pairwise_iff_getElem]
      intro i j hi hj hij
      have e1 := List.getElem?_eq_getElem hi
      have e2 := List.getElem?_eq_getElem hj
      rw [hzl] at hi hj
      have g1 := List.getElem?_eq_getElem hi
      have g2 := List.getElem?_eq_getElem hj
      have k1 := Option.some.inj (e1.symm.trans (hzip i _ g1).1)
      have k2 := Option.some.inj (e2.symm.trans (hzip j _ g2).1)
      rw [k1, k2]
      exact List.pairwise_iff_getElem.1 (markedList_collected marks).1 i j hi hj hij)
  have hV : DestsOk n V A.nents := by
    have hb : ∀ r i p x, r < n → destOf V r i = some (p, x) → p < n ∧ x < A.nents p := by
      intro r i p x hr hd
      rw [← copiesOf_get] at hd
      obtain ⟨h1, h2⟩ := (v2 r hr).2.1 i _ hd
      have h2 : p = r := h2
      subst h2
      exact hA.ownerOk p x p x hr h1
    refine ⟨hn, ?_, fun r hr => (v2 r hr).1, ?_⟩
    · intro r hr p hp
      obtain ⟨i, hi⟩ := List.getElem?_of_mem hp
      have hx := List.getElem?_eq_getElem (show i < (V r).idxs.length by rw [(v2 r hr).1]; exact (List.getElem?_eq_some_iff.1 hi).1)
      exact (hb r i p _ hr (destOf_eq.2 ⟨hi, hx⟩)).1
    · intro r hr i p x h1 h2
      exact (hb r i p x hr (destOf_eq.2 ⟨h1, h2⟩)).2
  obtain ⟨D, hD⟩ := C20_new (fun r k => s0 r (k + 4)) hV
  rw [← hAdef] at hV hD
  obtain ⟨copies, N, m1, m2, m3, m4⟩ := C22_migrate s (fun r k => s0 r (k + 4)) .elemBased deg hM hL hV hD
  refine ⟨copies, N, ?_, ?_, m3, m4⟩
  · unfold elemsPlan
    rw [show (levelOf n A).owners.length = n from world_length n _, v1, Option.bind_some]
    rw [hAdef] at hD
    have hD : newDist (fun r k => s0 r (k + 4)) (world n V) (levelOf n A).nents = some D := hD
    rw [hD, Option.bind_some]
    exact m1
  · intro r hr
    rw [m2]
    obtain ⟨_, h2, h3, h4⟩ := v2 r hr
    refine ⟨h4, fun e => ⟨fun hm => ?_, fun ⟨he, ho⟩ => h3 e he ho⟩⟩
    obtain ⟨k, hk⟩ := List.getElem?_of_mem hm
    exact (h2 k e hk).symm

/-! ## More than one new layer of elements that are not simplices

`close_down` takes the number of vertices of an element to be `dim + 1`. -/

theorem mapM_none {α β : Type} (l : List α) (f : α → Option β) {x : α} (hx : x ∈ l) (h : f x = none) : l.mapM f = none := by
  induction l with
  | nil => cases hx
  | cons a l ih =>
    rw [List.mapM_cons]
    rcases List.mem_cons.1 hx with rfl | hx
    · rw [h]; rfl
    · rw [ih hx]
      cases f a <;> rfl

/-- Data of the wrong size are not exchanged. -/
theorem exch_size_none {α : Type} (s : Nat → Nat → Sched) {n : Nat} {dests : Nat → Remotes} {nroots : Nat → Nat} {D : Nat → Dist}
    {order : Nat → List (Nat × Nat)} {fan : Nat → List Nat} (h : CopyDist n dests nroots D order fan) (w : Nat) (data : Nat → List α)
    {r : Nat} (hr : r < n) (hl : (data r).length ≠ nroots r * w) :
    Dist.exch s ((world n D).map Dist.invert) w (world n data) = none := by
  unfold Dist.exch
  rw [world_map, world_length]
  rw [mapM_none (List.range n) _ (List.mem_range.2 hr) (by
    rw [world_get _ hr, Option.bind_some, world_get _ hr, Option.bind_some]
    unfold Dist.pack DistDir.expandRoots
    show (match (D r).rev.roots2items with | some fan => expand (s r 0) (data r) fan w | none => some (data r)).bind _ = none
    rw [h.rroots r hr]
    dsimp only
    have : expand (s r 0) (data r) (fan r) w = none := by
      unfold expand expandInto
      obtain ⟨_, f2, f3⟩ := h.fanOk r hr
      rw [f3, Option.bind_some, if_neg]
      · rfl
      · rintro ⟨_, hc⟩
        rw [f2, Nat.add_sub_cancel] at hc
        exact hl hc
    rw [this]; rfl)]
  rfl

/-- Ghosting with two or more new layers fails for every mesh whose elements do not have `dim + 1` vertices (quadrilaterals and
hexahedra), on all ranks that have an element. -/
theorem C23_hypercubes_refuted (s : Nat → Nat → Nat → Sched) {n dim deg : Nat} (hdeg : deg ≠ dim + 1) (hn : n ≤ 2147483648)
    {A B : OldLevel} (hA : A.Ok n) (hB : B.Ok n) (hAB : LowsOk n deg A B) {fans upElems : Nat → List Nat}
    (hG : GhostOk n deg A B fans upElems) {r : Nat} (hr : r < n) (hel : 0 < A.nents r) (have_ k : Nat) (hk : 2 ≤ k) :
    ghostPlan s dim (levelOf n A) (levelOf n B) ⟨world n fans, world n upElems⟩ have_ (have_ + k : Nat) = none := by
  obtain ⟨gfans, E, g1, g2⟩ := graph_spec (s 0) hn hA hB hAB hG
  have hO := ownerDests hn hB
  obtain ⟨Dv, ov, fv, v1, v2⟩ := newDist_spec (s 1) hO.size hO.rank hO.len hO.idx
  obtain ⟨D1, de1, o1, f1, c1, c2, c3⟩ := closeUp_spec (s 2) hA g2 (v2.copyDist hO)
  obtain ⟨U, u1, u2⟩ := downUseOwners_spec (s 3) hB hAB
  unfold ghostPlan
  rw [if_pos ⟨by omega, by omega⟩, g1, Option.bind_some]
  show (newDist (s 1) (world n (fun r => (⟨B.ownRanks r, B.ownIdxs r⟩ : Remotes))) (world n B.nents)).bind _ = none
  rw [v1, Option.bind_some, c1, Option.bind_some, if_pos (by omega), u1, Option.bind_some]
  obtain ⟨m, hm⟩ : ∃ m, (((have_ + k : Nat) : Int) - have_ - 1).toNat = m + 1 := ⟨k - 2, by omega⟩
  rw [hm]
  unfold ghostLoop closeDown exchRemotes
  rw [world_map n U, exch_size_none _ c2 (dim + 1) (fun p => (U p).ranks) hr]
  · rfl
  · rw [(u2 r hr).1]
    intro hc
    exact hdeg (Nat.eq_of_mul_eq_mul_left hel hc)

/-! ## `set_parting` -/

/-- What a change of the mesh does, by the theorems above and C22: elements keep their owners except in vertex-based partitionings,
vertices keep theirs except in element-based ones; new owners have a copy. -/
def PartAct.Sem {El Ve : Type} (touches : Ve → El → Prop) : PartAct → Held El Ve → Held El Ve → Prop
  | .byElems, S, S' => (∀ r e, S'.has r e ↔ S.ownEl e = r) ∧ S'.ownEl = S.ownEl
  | .ghost a b, S, S' => (∀ r e, S'.has r e ↔ Hops touches (S.has r) (b - a).toNat e) ∧ S'.ownEl = S.ownEl ∧ S'.ownVe = S.ownVe
  | .byVerts, S, S' => (∀ r e, S'.has r e ↔ ∃ v, S.ownVe v = r ∧ touches v e) ∧ S'.ownVe = S.ownVe ∧ ∀ e, S'.has (S'.ownEl e) e

/-- Doing the changes one after the other. -/
def runActs {El Ve : Type} (touches : Ve → El → Prop) : List PartAct → Held El Ve → Held El Ve → Prop
  | [], S, S' => S' = S
  | a :: rest, S, S' => ∃ T, a.Sem touches S T ∧ runActs touches rest T S'

/-- The mesh is partitioned as its mode says. -/
def Parted {El Ve : Type} (touches : Ve → El → Prop) (S : Held El Ve) : Parting → Int → Prop
  | .elemBased, k => k = 0 ∧ ∀ r e, S.has r e ↔ S.ownEl e = r
  | .ghosted, k => 1 ≤ k ∧ ∀ r e, S.has r e ↔ Hops touches (fun e => S.ownEl e = r) k.toNat e
  | .vertBased, k => k = 1 ∧ ∀ r e, S.has r e ↔ ∃ v, S.ownVe v = r ∧ touches v e

theorem hops_add {El Ve : Type} (touches : Ve → El → Prop) (S : El → Prop) (a b : Nat) (e : El) :
    Hops touches (Hops touches S a) b e ↔ Hops touches S (a + b) e := by
  constructor
  · intro h
    induction h with
    | here e h => exact h
    | hop k e f v _ h1 h2 ih => exact Hops.hop (a + k) e f v ih h1 h2
  · intro h
    induction b generalizing e with
    | zero => exact Hops.here e h
    | succ b ih =>
      cases h with
      | hop _ f _ v h1 h2 h3 => exact Hops.hop b f e v (ih f h1) h2 h3

/-- `set_parting` on more than one rank brings a mesh from any of the partitionings to the one asked for, and nothing else: element
based with no layers, ghosted with at least one, vertex based with one. -/
theorem C23_set_parting {El Ve : Type} (touches : Ve → El → Prop) {size : Nat} (hsize : 1 < size) {S : Held El Ve} {cur : Parting × Int}
    (hS : Parted touches S cur.1 cur.2) (want : Parting) (nlayers : Int) :
    match setParting size (some cur) want nlayers with
    | some acts => ∀ S', runActs touches acts S S' → Parted touches S' want nlayers
    | none => ¬ ((want = .elemBased ∧ nlayers = 0) ∨ (want = .ghosted ∧ 1 ≤ nlayers) ∨ (want = .vertBased ∧ nlayers = 1)) := by
  obtain ⟨mode, k⟩ := cur
  have hreset : ∀ T, runActs touches (setElemBased size (mode, k)) S T → (∀ r e, T.has r e ↔ T.ownEl e = r) := by
    intro T hT
    unfold setElemBased at hT
    by_cases h : (mode, k) = (Parting.elemBased, (0 : Int))
    · rw [if_pos h] at hT
      obtain ⟨rfl, rfl⟩ := Prod.mk.inj h
      have hT : T = S := hT
      rw [hT]
      exact hS.2
    · rw [if_neg h, if_pos hsize] at hT
      obtain ⟨T', ⟨h1, h2⟩, h3⟩ := hT
      have h3 : T = T' := h3
      subst h3
      intro r e
      rw [h1, h2]
  have happ : ∀ (l1 l2 : List PartAct) (X Y : Held El Ve), runActs touches (l1 ++ l2) X Y → ∃ Z, runActs touches l1 X Z ∧ runActs touches l2 Z Y := by
    intro l1
    induction l1 with
    | nil => intro l2 X Y h; exact ⟨X, rfl, h⟩
    | cons a l1 ih =>
      rintro l2 X Y ⟨T, h1, h2⟩
      obtain ⟨Z, h3, h4⟩ := ih l2 T Y h2
      exact ⟨Z, ⟨T, h1, h3⟩, h4⟩
  unfold setParting
  dsimp only
  by_cases hsame : (mode, k) = (want, nlayers)
  · rw [if_pos hsame]
    obtain ⟨rfl, rfl⟩ := Prod.mk.inj hsame
    intro S' hS'
    have hS' : S' = S := hS'
    rw [hS']
    exact hS
  · rw [if_neg hsame]
    cases want with
    | elemBased =>
      dsimp only
      by_cases h0 : nlayers = 0
      · rw [if_pos h0]
        intro S' hS'
        exact ⟨h0, hreset S' hS'⟩
      · rw [if_neg h0]
        rintro (⟨_, h⟩ | ⟨h, _⟩ | ⟨h, _⟩)
        · exact h0 h
        · cases h
        · cases h
    | vertBased =>
      dsimp only
      by_cases h0 : nlayers = 1
      · rw [if_pos h0, if_pos hsize]
        rintro S' ⟨T, ⟨h1, h2, _⟩, h3⟩
        have h3 : S' = T := h3
        subst h3
        refine ⟨h0, ?_⟩
        intro r e
        rw [h1, h2]
      · rw [if_neg h0]
        rintro (⟨h, _⟩ | ⟨h, _⟩ | ⟨_, h⟩)
        · cases h
        · cases h
        · exact h0 h
    | ghosted =>
      dsimp only
      rw [if_pos hsize]
      by_cases hr : mode ≠ Parting.ghosted ∨ nlayers < k
      · rw [if_pos hr, if_pos hr]
        by_cases hn : 0 < nlayers
        · rw [if_pos ⟨by omega, hn⟩]
          intro S' hS'
          obtain ⟨T, h1, h2⟩ := happ _ _ _ _ hS'
          obtain ⟨T', ⟨h3, h4, h5⟩, h6⟩ := h2
          have h6 : S' = T' := h6
          subst h6
          refine ⟨by omega, ?_⟩
          intro r e
          rw [h3, h4, show (nlayers - 0).toNat = nlayers.toNat by omega]
          have : T.has r = fun e => T.ownEl e = r := by
            funext e
            exact propext (hreset T h1 r e)
          rw [this]
        · rw [if_neg (by omega)]
          rintro (⟨h, _⟩ | ⟨_, h⟩ | ⟨h, _⟩)
          · cases h
          · omega
          · cases h
      · rw [if_neg hr, if_neg hr]
        have hm : mode = .ghosted := by
          by_contra hc
          exact hr (Or.inl hc)
        have hnk : ¬ nlayers < k := fun hc => hr (Or.inr hc)
        subst hm
        have hne : nlayers ≠ k := fun hc => hsame (by rw [hc])
        obtain ⟨hk1, hhas⟩ := hS
        have hk1 : 1 ≤ k := hk1
        rw [if_pos ⟨by omega, by omega⟩]
        rintro S' ⟨T, ⟨h1, h2, h3⟩, h4⟩
        have h4 : S' = T := h4
        subst h4
        refine ⟨by omega, ?_⟩
        intro r e
        have : S.has r = Hops touches (fun e => S.ownEl e = r) k.toNat := by
          funext e
          exact propext (hhas r e)
        rw [h1, this, hops_add, h2]
        rw [show k.toNat + (nlayers - k).toNat = nlayers.toNat by omega]

/-! ## Cases

The two edges of C22 with one ghost layer, and two quadrilaterals that share a side with two. -/

theorem twoRanks {P : Nat → Prop} (h0 : P 0) (h1 : P 1) : ∀ r, r < 2 → P r := by
  intro r hr
  rcases Nat.lt_or_ge r 1 with h | h
  · obtain rfl : r = 0 := by omega
    exact h0
  · obtain rfl : r = 1 := by omega
    exact h1

theorem edges_owner {r i : Nat} {e : Nat × Nat} (h : exampleEdges.owner (r, i) = some e) : i = 0 ∧ e = (r, 0) := by
  rcases i with _ | i
  · exact ⟨rfl, (Option.some.inj h).symm⟩
  · cases h

theorem edges_ghostOk : GhostOk 2 2 exampleEdges exampleVerts (fun _ => [0, 1, 2]) (fun _ => [0, 0]) := by
  have hfan : ∀ v k : Nat, InFan [0, 1, 2] v k ↔ v < 2 ∧ k = v := by
    intro v k
    constructor
    · rintro ⟨lo, hi, h1, h2, h3, h4⟩
      rcases v with _ | _ | v
      · cases h1; cases h2; omega
      · cases h1; cases h2; omega
      · rcases v with _ | v <;> cases h2
    · rintro ⟨hv, rfl⟩
      rcases k with _ | _ | k
      · exact ⟨0, 1, rfl, rfl, by omega, by omega⟩
      · exact ⟨1, 2, rfl, rfl, by omega, by omega⟩
      · omega
  refine ⟨?_, ?_, ?_, ?_⟩
  · intro r i e _ h j _
    obtain ⟨rfl, rfl⟩ := edges_owner h
    rfl
  · intro r v _ hv
    have hv : v < 2 := hv
    refine ⟨0, v, Nat.zero_lt_one, hv, ?_⟩
    rcases v with _ | _ | v
    · rfl
    · rfl
    · omega
  · intro r _
    exact ⟨isFan_range 2, rfl, rfl⟩
  · intro r v i _
    constructor
    · rintro ⟨k, hk, hi⟩
      obtain ⟨hv, rfl⟩ := (hfan v k).1 hk
      rcases k with _ | _ | k
      · cases hi; exact ⟨Nat.zero_lt_one, 0, by omega, rfl⟩
      · cases hi; exact ⟨Nat.zero_lt_one, 1, by omega, rfl⟩
      · omega
    · rintro ⟨hi, j, hj, he⟩
      obtain rfl : i = 0 := by have : i < 1 := hi; omega
      rcases j with _ | _ | j
      · cases he; exact ⟨0, (hfan 0 0).2 ⟨by omega, rfl⟩, rfl⟩
      · cases he; exact ⟨1, (hfan 1 1).2 ⟨by omega, rfl⟩, rfl⟩
      · omega

/-- The theorem applies to the two edges, and each rank gets both. -/
example : ∃ (copies : Nat → Nat → List (Nat × Nat)),
    ElemsAre 2 exampleEdges (fun r e => Within 2 2 exampleEdges exampleVerts r 1 e) (copies 1) ∧ (1, 0) ∈ copies 1 0 := by
  obtain ⟨copies, N, _, h2, _⟩ := C23_ghost_partial (fun _ _ _ => Sched.serial) (fun _ => 2) (n := 2) (dim := 1) (vdeg := 2) (by omega)
    exampleMesh_ok exampleMesh_lows (A := exampleEdges) ⟨rfl, rfl, rfl, rfl⟩ (exampleMesh_ok 1 (by omega)) (exampleMesh_lows 0 (by omega))
    edges_ghostOk 0 1 (by omega) (Or.inl rfl)
  refine ⟨copies, h2, (h2.mem 0 (1, 0) (by omega)).2 ?_⟩
  exact Within.hop 0 (0, 0) (1, 0) (0, 1) (Within.here 0 _ rfl) ⟨1, by omega, rfl⟩ ⟨1, 0, by omega, rfl⟩ ⟨1, by omega, rfl⟩

/-- This is what comes out. -/
example : (ghostPlan (fun _ _ _ => Sched.reversed) 1 (levelOf 2 exampleEdges) (levelOf 2 exampleVerts) ⟨[[0, 1, 2], [0, 1, 2]], [[0, 0], [0, 0]]⟩
    0 1).bind (migrateMesh (fun _ _ _ => Sched.serial) .ghosted (fun _ => 2) (fun d => levelOf 2 (exampleMesh d)) 1) =
    some [⟨[[0, 1, 2, 1], [0, 1, 2, 1]], none, [(2, [[50, 51, 60, 61], [50, 51, 60, 61]])], [[0, 1], [0, 1]], [[0, 1], [0, 1]]⟩,
      ⟨[], none, [(1, [[10, 20, 30], [10, 20, 30]])], [[0, 0, 1], [0, 0, 1]], [[0, 1, 2], [0, 1, 2]]⟩] := by decide +kernel

/-- By vertices: rank 0 owns the shared vertex and gets both edges; by elements: both keep theirs. -/
example : ((vertsPlan (fun _ _ => Sched.serial) (levelOf 2 exampleEdges) (levelOf 2 exampleVerts) ⟨[[0, 1, 2], [0, 1, 2]], [[0, 0], [0, 0]]⟩).bind
    (migrateMesh (fun _ _ _ => Sched.serial) .vertBased (fun _ => 2) (fun d => levelOf 2 (exampleMesh d)) 1)).map (fun l => l.map NewLevel.tags) =
    some [[(2, [[50, 51, 60, 61], [60, 61]])], [(1, [[10, 20, 30], [20, 30]])]] := by decide +kernel

example : ((elemsPlan (fun _ _ => Sched.serial) (levelOf 2 exampleEdges)).bind
    (migrateMesh (fun _ _ _ => Sched.serial) .elemBased (fun _ => 2) (fun d => levelOf 2 (exampleMesh d)) 1)).map (fun l => l.map NewLevel.tags) =
    some [[(2, [[50, 51], [60, 61]])], [(1, [[10, 20], [20, 30]])]] := by decide +kernel

def quadVerts : OldLevel where
  nents _ := 4
  ownRanks r := if r = 0 then [0, 0, 0, 0] else [0, 0, 1, 1]
  ownIdxs r := if r = 0 then [0, 1, 2, 3] else [2, 3, 2, 3]
  globals r := if r = 0 then [0, 1, 2, 3] else [2, 3, 4, 5]
  lows _ := []
  codes := none
  tags := []

def quads : OldLevel where
  nents _ := 1
  ownRanks r := [r]
  ownIdxs _ := [0]
  globals r := if r = 0 then [0] else [1]
  lows _ := [0, 1, 2, 3]
  codes := none
  tags := []

theorem quads_ghostOk : quads.Ok 2 ∧ quadVerts.Ok 2 ∧ LowsOk 2 4 quads quadVerts ∧
    GhostOk 2 4 quads quadVerts (fun _ => [0, 1, 2, 3, 4]) (fun _ => [0, 0, 0, 0]) := by
  have hfan : ∀ v k : Nat, InFan [0, 1, 2, 3, 4] v k ↔ v < 4 ∧ k = v := by
    intro v k
    constructor
    · rintro ⟨lo, hi, h1, h2, h3, h4⟩
      rcases v with _ | _ | _ | _ | v
      · cases h1; cases h2; omega
      · cases h1; cases h2; omega
      · cases h1; cases h2; omega
      · cases h1; cases h2; omega
      · rcases v with _ | v <;> cases h2
    · rintro ⟨hv, rfl⟩
      rcases k with _ | _ | _ | _ | k
      · exact ⟨0, 1, rfl, rfl, by omega, by omega⟩
      · exact ⟨1, 2, rfl, rfl, by omega, by omega⟩
      · exact ⟨2, 3, rfl, rfl, by omega, by omega⟩
      · exact ⟨3, 4, rfl, rfl, by omega, by omega⟩
      · omega
  refine ⟨⟨fun _ _ => rfl, fun _ _ => rfl, ?_, twoRanks rfl rfl, fun t ht => (nomatch ht)⟩,
    ⟨twoRanks rfl rfl, twoRanks rfl rfl, ?_, twoRanks rfl rfl, fun t ht => (nomatch ht)⟩,
    ⟨by omega, fun _ _ => rfl, ?_, fun c hc => (nomatch hc)⟩, ⟨?_, ?_, ?_, ?_⟩⟩
  · intro r i p x hr h
    rcases i with _ | i
    · cases h; exact ⟨hr, Nat.zero_lt_one⟩
    · cases h
  · intro r i p x hr h
    revert i p x
    revert r
    apply twoRanks
    · intro i p x h
      rcases i with _ | _ | _ | _ | i <;> cases h <;> decide
    · intro i p x h
      rcases i with _ | _ | _ | _ | i <;> cases h <;> decide
  · intro r _ l hl
    have hl : l ∈ [0, 1, 2, 3] := hl
    show l < 4
    fin_cases hl <;> decide
  · intro r i e _ h j _
    rcases i with _ | i
    · obtain rfl := (Option.some.inj h).symm
      rfl
    · cases h
  · intro r v _ hv
    have hv : v < 4 := hv
    refine ⟨0, v, Nat.zero_lt_one, hv, ?_⟩
    rcases v with _ | _ | _ | _ | v
    · rfl
    · rfl
    · rfl
    · rfl
    · omega
  · intro r _
    exact ⟨isFan_range 4, rfl, rfl⟩
  · intro r v i _
    constructor
    · rintro ⟨k, hk, hi⟩
      obtain ⟨hv, rfl⟩ := (hfan v k).1 hk
      rcases k with _ | _ | _ | _ | k
      · cases hi; exact ⟨Nat.zero_lt_one, 0, by omega, rfl⟩
      · cases hi; exact ⟨Nat.zero_lt_one, 1, by omega, rfl⟩
      · cases hi; exact ⟨Nat.zero_lt_one, 2, by omega, rfl⟩
      · cases hi; exact ⟨Nat.zero_lt_one, 3, by omega, rfl⟩
      · omega
    · rintro ⟨hi, j, hj, he⟩
      obtain rfl : i = 0 := by have : i < 1 := hi; omega
      rcases j with _ | _ | _ | _ | j
      · cases he; exact ⟨0, (hfan 0 0).2 ⟨by omega, rfl⟩, rfl⟩
      · cases he; exact ⟨1, (hfan 1 1).2 ⟨by omega, rfl⟩, rfl⟩
      · cases he; exact ⟨2, (hfan 2 2).2 ⟨by omega, rfl⟩, rfl⟩
      · cases he; exact ⟨3, (hfan 3 3).2 ⟨by omega, rfl⟩, rfl⟩
      · omega

/-- Two quadrilaterals on two ranks: two layers fail. -/
example (s : Nat → Nat → Nat → Sched) : ghostPlan s 2 (levelOf 2 quads) (levelOf 2 quadVerts)
    ⟨world 2 (fun _ => [0, 1, 2, 3, 4]), world 2 (fun _ => [0, 0, 0, 0])⟩ 0 2 = none := by
  obtain ⟨h1, h2, h3, h4⟩ := quads_ghostOk
  exact C23_hypercubes_refuted s (by omega) (by omega) h1 h2 h3 h4 (r := 0) (by omega) (by decide) 0 2 (by omega)

/-- `set_parting`: from vertex based to ghosted with two layers. -/
example : setParting 2 (some (.vertBased, 1)) .ghosted 2 = some [.byElems, .ghost 0 2] := by decide

example : Parted (fun (v e : Nat) => v = e ∨ v = e + 1) ⟨fun r e => e = r, fun e => e, fun v => v⟩ .elemBased 0 :=
  ⟨rfl, fun _ _ => Iff.rfl⟩

end OmegaH
