import Verif.Props.C55
import Verif.Props.C40
import Verif.Lemmas.Offsets
import Verif.Lemmas.Map
/-!
# C55: whole meshes of quadrilaterals and hexahedra
-/
namespace OmegaH
open Spec

/-- **Hexahedra**: the full claim is false. -/
theorem C55_hexes_refuted : ¬ ∀ v : List Nat, v.length = 8 → v.Nodup → ∃ T, tetsOfHex v = some T ∧ SplitsHex v T := by
  intro h
  obtain ⟨T, h1, h2⟩ := h [0, 1, 2, 3, 4, 5, 6, 7] rfl (by decide)
  obtain ⟨m, T', hm, k1, k2⟩ := C55_hexes_partial [0, 1, 2, 3, 4, 5, 6, 7] rfl (by decide)
  rw [h1] at k1
  cases k1
  obtain ⟨r, s, t, e, k⟩ := k2.1 h2
  obtain ⟨x, x1, x2⟩ := hm
  have hx : x = 0 := by have := x2 0 (by decide); omega
  subst hx
  have : m = 0 := (List.getElem?_inj (i := m) (j := 0) (l := [0, 1, 2, 3, 4, 5, 6, 7])
    (List.getElem?_eq_some_iff.1 x1).1 (by decide)).1 x1
  subst this
  cases e
  have k : (min 6 3 < min 2 7 ↔ min 6 4 < min 7 5) := k
  omega

/-! ## One quadrilateral -/

theorem quadList {v : List Nat} (h : v.length = 4) : ∃ f : Nat → Nat, v = [f 0, f 1, f 2, f 3] := by
  match v, h with
  | [a0, a1, a2, a3], _ => exact ⟨fun i => [a0, a1, a2, a3].getD i 0, rfl⟩

theorem cutQuad_map (f : Nat → Nat) (a b c d : Nat) : ∃ flag : Bool,
    (flag = true ↔ min (f a) (f c) < min (f b) (f d)) ∧
    cutQuad [f a, f b, f c, f d] = (cutBy [a, b, c, d] flag).map (List.map f) := by
  by_cases h : min (f a) (f c) < min (f b) (f d)
  · exact ⟨true, iff_of_true rfl h, if_pos h⟩
  · exact ⟨false, iff_of_false Bool.false_ne_true h, if_neg h⟩

/-- The corners of the triangles. -/
def quadPlan (m : Nat) : List (List Nat) := [[m % 4, (m + 1) % 4, (m + 2) % 4], [(m + 2) % 4, (m + 3) % 4, m % 4]]

theorem trisOfQuad_run (f : Nat → Nat) : ∃ m, m < 4 ∧ (∀ i, i < 4 → f m ≤ f i) ∧
    trisOfQuad [f 0, f 1, f 2, f 3] = some ((quadPlan m).map (List.map f)) := by
  obtain ⟨m, x, h1, h2, h3⟩ := findMin_spec [f 0, f 1, f 2, f 3] (by simp)
  have hm : m < 4 := (List.getElem?_eq_some_iff.1 h2).1
  have hm' : m = 0 ∨ m = 1 ∨ m = 2 ∨ m = 3 := by omega
  have hfm : f m = x := by
    rcases hm' with rfl | rfl | rfl | rfl <;> exact Option.some.inj h2
  refine ⟨m, hm, ?_, ?_⟩
  · intro i hi
    rw [hfm]
    apply h3
    have hi' : i = 0 ∨ i = 1 ∨ i = 2 ∨ i = 3 := by omega
    rcases hi' with rfl | rfl | rfl | rfl <;> simp
  · have h1 : findMin [f 0, f 1, f 2, f 3] 4 = some m := h1
    unfold trisOfQuad
    rw [h1, Option.bind_some]
    rcases hm' with rfl | rfl | rfl | rfl <;>
      simp [quadTris, rotToFirst, rotNTimes, rotVerts, quadPlan]

/-- The unit square's corners. -/
def squarePos (i : Nat) : Int × Int := [((0 : Int), (0 : Int)), (1, 0), (1, 1), (0, 1)].getD i (0, 0)

theorem quad_table : (List.range 4).all (fun m =>
    (quadPlan m).all (fun t => t.length == 3 && t.all (fun i => decide (i < 4)) && decide (0 < triArea squarePos t)) &&
    ((quadPlan m).map (triArea squarePos)).sum == 2 &&
    (normTerms ((quadPlan m).map (fun σ => (1, σ)) ++
      negTerms ((cutBy [0, 1, 2, 3] (m % 2 == 0)).map (fun σ => (1, σ))))).all (fun t => t.1 == 0) &&
    (normTerms ((quadPlan m).flatMap bdTerms ++ negTerms ([[0, 1], [1, 2], [2, 3], [3, 0]].map (fun σ => (1, σ))))).all
      (fun t => t.1 == 0)) = true := by
  decide +kernel

theorem triArea_map (f : Nat → Nat) (pos : Nat → Int × Int) (h : ∀ i, i < 4 → pos (f i) = squarePos i) (t : List Nat)
    (ht : t.length = 3 ∧ ∀ i ∈ t, i < 4) : triArea pos (t.map f) = triArea squarePos t := by
  match t, ht.1 with
  | [a, b, c], _ =>
    have := ht.2
    simp only [List.mem_cons, List.not_mem_nil, or_false, forall_eq_or_imp, forall_eq] at this
    obtain ⟨ha, hb, hc⟩ := this
    show triArea pos [f a, f b, f c] = _
    simp only [triArea, h a ha, h b hb, h c hc]

/-- **Quadrilaterals.** A quadrilateral with four different vertices is cut into two triangles that subdivide it,
along the diagonal through its smallest vertex. -/
theorem C55_quads (v : List Nat) (h4 : v.length = 4) (hv : v.Nodup) :
    ∃ T, trisOfQuad v = some T ∧ T.length = 2 ∧ (∀ t ∈ T, t.length = 3) ∧ SplitsQuad v T := by
  obtain ⟨f, rfl⟩ := quadList h4
  obtain ⟨m, hm, hmin, hT⟩ := trisOfQuad_run f
  have h := List.all_eq_true.1 quad_table m (List.mem_range.2 hm)
  simp only [Bool.and_eq_true] at h
  obtain ⟨⟨⟨t1, t2⟩, t3⟩, t4⟩ := h
  have t1' : ∀ t ∈ quadPlan m, (t.length = 3 ∧ ∀ i ∈ t, i < 4) ∧ 0 < triArea squarePos t := by
    intro t ht
    have := List.all_eq_true.1 t1 t ht
    simp only [Bool.and_eq_true] at this
    obtain ⟨⟨a, b⟩, c⟩ := this
    exact ⟨⟨by simpa using a, fun i hi => by simpa using List.all_eq_true.1 b i hi⟩, of_decide_eq_true c⟩
  refine ⟨_, hT, rfl, ?_, ?_, ?_, ?_⟩
  · intro t ht
    obtain ⟨t', ht', rfl⟩ := List.mem_map.1 ht
    rw [List.length_map]
    exact (t1' t' ht').1.1
  · intro pos hp
    have hpos : ∀ i, i < 4 → pos (f i) = squarePos i := by
      intro i hi
      simp only [List.map_cons, List.map_nil, List.cons.injEq] at hp
      obtain ⟨k0, k1, k2, k3, -⟩ := hp
      have hi' : i = 0 ∨ i = 1 ∨ i = 2 ∨ i = 3 := by omega
      rcases hi' with rfl | rfl | rfl | rfl <;> assumption
    refine ⟨?_, ?_⟩
    · intro t ht
      obtain ⟨t', ht', rfl⟩ := List.mem_map.1 ht
      rw [triArea_map f pos hpos t' (t1' t' ht').1]
      exact (t1' t' ht').2
    · rw [List.map_map, ← of_decide_eq_true t2]
      congr 1
      apply List.map_congr_left
      intro t ht
      exact triArea_map f pos hpos t (t1' t ht).1
  · obtain ⟨flag, hflag, hcut⟩ := cutQuad_map f 0 1 2 3
    rw [hcut]
    have : flag = (m % 2 == 0) := by
      have hne : ∀ i j, i < 4 → j < 4 → i ≠ j → f i ≠ f j := by
        intro i j hi hj hij k
        have e : ∀ i, i < 4 → [f 0, f 1, f 2, f 3][i]? = some (f i) := by
          intro i hi
          have hi' : i = 0 ∨ i = 1 ∨ i = 2 ∨ i = 3 := by omega
          rcases hi' with rfl | rfl | rfl | rfl <;> rfl
        exact hij ((List.getElem?_inj (by rw [h4]; exact hi) hv).1 (by rw [e i hi, e j hj, k]))
      have a0 := hmin 0 (by omega)
      have a1 := hmin 1 (by omega)
      have a2 := hmin 2 (by omega)
      have a3 := hmin 3 (by omega)
      have hm' : m = 0 ∨ m = 1 ∨ m = 2 ∨ m = 3 := by omega
      rcases hm' with rfl | rfl | rfl | rfl
      · have n1 := hne 0 1 (by omega) (by omega) (by omega)
        have n2 := hne 0 3 (by omega) (by omega) (by omega)
        exact hflag.2 (cut_first a1 a3 n1 n2)
      · cases flag with
        | false => rfl
        | true => exact absurd (hflag.1 rfl) (cut_second a0 a2)
      · have n1 := hne 2 1 (by omega) (by omega) (by omega)
        have n2 := hne 2 3 (by omega) (by omega) (by omega)
        exact hflag.2 (cut_third a1 a3 n1 n2)
      · cases flag with
        | false => rfl
        | true => exact absurd (hflag.1 rfl) (cut_fourth a0 a2)
    subst this
    exact SameChain_map (sameChain_of_check t3) f
  · exact boundaryIs_map (boundaryIs_of_check t4) f

example : ∃ T, trisOfQuad [7, 4, 9, 5] = some T ∧ SplitsQuad [7, 4, 9, 5] T :=
  ⟨_, rfl, by
    obtain ⟨T, h1, -, -, h2⟩ := C55_quads [7, 4, 9, 5] rfl (by decide)
    cases h1.symm.trans (show trisOfQuad [7, 4, 9, 5] = some [[4, 9, 5], [5, 7, 4]] from rfl)
    exact h2⟩

/-- **Neighbours agree.** A quadrilateral that two cells have in common, seen from the two sides and from any of its
vertices, is cut into the same triangles, oppositely oriented: they cancel. -/
theorem C55_neighbours (q : List Nat) (h4 : q.length = 4) (hq : q.Nodup) (k : Nat) (hk : k < 4) :
    SameChain (cutQuad q ++ cutQuad (q.reverse.rotate k)) [] := by
  obtain ⟨f, rfl⟩ := quadList h4
  have hne : f 0 ≠ f 1 ∧ f 0 ≠ f 3 ∧ f 2 ≠ f 1 ∧ f 2 ≠ f 3 := by
    simp only [List.nodup_cons, List.mem_cons, List.not_mem_nil, or_false, not_or] at hq
    obtain ⟨⟨a, b, c⟩, ⟨d, e⟩, g, -⟩ := hq
    exact ⟨a, c, fun k => d k.symm, g⟩
  obtain ⟨n1, n2, n3, n4⟩ := hne
  obtain ⟨x, hx, ex⟩ := cutQuad_map f 0 1 2 3
  have hk' : k = 0 ∨ k = 1 ∨ k = 2 ∨ k = 3 := by omega
  have fin : ∀ {a b c d : Nat}, (∃ y : Bool, (y = true ↔ min (f a) (f c) < min (f b) (f d)) ∧
      cutQuad [f a, f b, f c, f d] = (cutBy [a, b, c, d] y).map (List.map f)) →
      (((min (f 0) (f 2) < min (f 1) (f 3) ↔ min (f a) (f c) < min (f b) (f d)) ∧
        (∀ y : Bool, (normTerms ((cutBy [0, 1, 2, 3] y ++ cutBy [a, b, c, d] y).map (fun σ => (1, σ)) ++
          negTerms (([] : List (List Nat)).map (fun σ => (1, σ))))).all (fun t => t.1 == 0) = true)) ∨
       ((min (f 0) (f 2) < min (f 1) (f 3) ↔ ¬ min (f a) (f c) < min (f b) (f d)) ∧
        (∀ y : Bool, (normTerms ((cutBy [0, 1, 2, 3] y ++ cutBy [a, b, c, d] (!y)).map (fun σ => (1, σ)) ++
          negTerms (([] : List (List Nat)).map (fun σ => (1, σ))))).all (fun t => t.1 == 0) = true))) →
      SameChain (cutQuad [f 0, f 1, f 2, f 3] ++ cutQuad [f a, f b, f c, f d]) [] := by
    rintro a b c d ⟨y, hy, ey⟩ (⟨h1, h2⟩ | ⟨h1, h2⟩)
    · have : y = x := Bool.eq_iff_iff.2 (hy.trans (h1.symm.trans hx.symm))
      subst this
      rw [ex, ey, ← List.map_append]
      exact SameChain_map (sameChain_of_check (h2 y)) f
    · have : y = !x := by
        rw [← hx, ← hy] at h1
        clear * - h1
        cases x <;> cases y <;> simp_all
      subst this
      rw [ex, ey, ← List.map_append]
      exact SameChain_map (sameChain_of_check (h2 x)) f
  rcases hk' with rfl | rfl | rfl | rfl
  · exact fin (cutQuad_map f 3 2 1 0) (.inr ⟨by omega, by decide⟩)
  · exact fin (cutQuad_map f 2 1 0 3) (.inl ⟨by omega, by decide⟩)
  · exact fin (cutQuad_map f 1 0 3 2) (.inr ⟨by omega, by decide⟩)
  · exact fin (cutQuad_map f 0 3 2 1) (.inl ⟨by omega, by decide⟩)

example : [6, 2, 3, 7].Nodup ∧ [6, 2, 3, 7].reverse.rotate 1 = [3, 2, 6, 7] := by decide

/-! ## Arrays -/

theorem mapM_lenEq {α β : Type} (F : α → Option β) (l : List α) : ∀ r, l.mapM F = some r → r.length = l.length := by
  induction l with
  | nil => intro r h; cases h; rfl
  | cons a l ih =>
    intro r h
    rw [List.mapM_cons] at h
    obtain ⟨b, -, h⟩ := Option.bind_eq_some_iff.1 h
    obtain ⟨r', h1, h⟩ := Option.bind_eq_some_iff.1 h
    cases h
    rw [List.length_cons, List.length_cons, ih r' h1]

/-- The tets of one hexahedron: five when no diagonal ends in the far corner, otherwise six. -/
theorem tetsOfHex_some (v : List Nat) (h8 : v.length = 8) : ∃ r T, tetsFromHex1 v = some r ∧ tetsOfHex v = some T ∧
    (∀ t ∈ T, t.length = 4) ∧ T.length = if r.2.countP id = 0 then 5 else 6 := by
  obtain ⟨f, rfl⟩ := list8 h8
  obtain ⟨m, hm, -, r, s, t, -, d0, d1, d2, -, hT⟩ := tetsOfHex_run f
  obtain ⟨T, p1, p2, -, -⟩ := hex_table_get hm d0 d1 d2
  rw [p1] at hT
  cases hr : tetsFromHex1 [f 0, f 1, f 2, f 3, f 4, f 5, f 6, f 7] with
  | none => unfold tetsOfHex at hT; rw [hr] at hT; cases hT
  | some r =>
    refine ⟨r, _, rfl, hT, ?_, ?_⟩
    · intro t ht
      obtain ⟨t', ht', rfl⟩ := List.mem_map.1 ht
      rw [List.length_map]
      exact (p2 t' ht').1
    · have hlen : ∀ (v : List Nat) (tab T : List (List Nat)), fillTets v tab = some T → T.length = tab.length := by
        intro v tab T h
        unfold fillTets at h
        exact mapM_lenEq _ _ _ h
      unfold tetsOfHex at hT
      rw [hr, Option.bind_some] at hT
      split at hT
      · rename_i h
        rw [if_pos h]
        exact hlen _ _ _ hT
      · rename_i h
        rw [if_neg h]
        split at hT
        · obtain ⟨_, -, hT⟩ := Option.bind_eq_some_iff.1 hT
          obtain ⟨_, -, hT⟩ := Option.bind_eq_some_iff.1 hT
          exact hlen _ _ _ hT
        · split at hT
          · obtain ⟨_, -, hT⟩ := Option.bind_eq_some_iff.1 hT
            obtain ⟨_, -, hT⟩ := Option.bind_eq_some_iff.1 hT
            exact hlen _ _ _ hT
          · exact hlen _ _ _ hT

/-- **All hexahedra.** The array of tets is the concatenation of the tets of the hexahedra, in order, for every pair
of schedules of the two passes. -/
theorem C55_hex_array (s s' : Sched) {hv2v : List Nat} {nh : Nat} (hl : hv2v.length = nh * 8) :
    ∃ T : Nat → List (List Nat),
      (∀ h, h < nh → tetsOfHex (row hv2v 8 h) = some (T h) ∧ ∀ t ∈ T h, t.length = 4) ∧
      tetsFromHexes s s' hv2v = some ((List.range nh).flatMap (fun h => (T h).flatten)) := by
  have hone : ∀ h, h < nh → _ := fun h hh => tetsOfHex_some (row hv2v 8 h) (row_length hl hh)
  obtain ⟨T, hTd⟩ : ∃ T : Nat → List (List Nat), ∀ h, T h = (tetsOfHex (row hv2v 8 h)).getD [] := ⟨_, fun _ => rfl⟩
  have hT : ∀ h, h < nh → tetsOfHex (row hv2v 8 h) = some (T h) ∧ ∀ t ∈ T h, t.length = 4 := by
    intro h hh
    obtain ⟨r, T', -, h2, h3, -⟩ := hone h hh
    rw [hTd, h2]
    exact ⟨rfl, h3⟩
  refine ⟨T, hT, ?_⟩
  obtain ⟨deg, d1, d2, d3⟩ := parEach s nh (fun h => (rowAt hv2v 8 h).bind (fun v => (tetsFromHex1 v).map
    (fun (r : List Nat × List Bool) => if r.2.countP id = 0 then (5 : Nat) else 6))) (by
      intro h hh
      obtain ⟨r, T', h1, -⟩ := hone h hh
      rw [rowAt_eq hl hh, Option.bind_some, h1]
      rfl)
  have d3' : ∀ h, h < nh → deg[h]? = some (T h).length := by
    intro h hh
    obtain ⟨r, T', h1, h2, -, h4⟩ := hone h hh
    rw [d3 h hh, rowAt_eq hl hh, Option.bind_some, h1, hTd, h2, Option.map_some, Option.getD_some, h4]
  have hdeg : deg = (List.range nh).map (fun h => (T h).length) := by
    apply List.ext_getElem?
    intro i
    by_cases hi : i < nh
    · rw [d3' i hi, List.getElem?_map, List.getElem?_range hi]; rfl
    · rw [List.getElem?_eq_none (by omega), List.getElem?_eq_none (by simp; omega)]
  have hoff : ∀ k, k ≤ nh → (offsetScan deg)[k]? = some (blockOff T k) := by
    intro k hk
    rw [offsetScan_nat_getElem? deg k (by omega), hdeg, ← List.map_take, List.take_range, Nat.min_eq_left hk]
    rfl
  have hB : ∀ k, k ≤ nh → blockOff (fun h => (T h).flatten) k = blockOff T k * 4 := by
    intro k
    induction k with
    | zero => intro _; rfl
    | succ k ih =>
      intro hk
      rw [blockOff_succ, blockOff_succ, ih (by omega), Nat.add_mul]
      congr 1
      rw [List.length_flatten, List.map_congr_left (g := fun _ => 4) (fun t ht => (hT k (by omega)).2 t ht)]
      simp
  unfold tetsFromHexes
  rw [divide_no_rem (by omega) hl, Option.bind_some]
  rw [show (fun h => (rowAt hv2v 8 h).bind (fun v => (tetsFromHex1 v).map (fun (r : List Nat × List Bool) =>
        [(h, if r.2.countP id = 0 then (5 : Nat) else 6)]))) = (fun h => ((rowAt hv2v 8 h).bind (fun v =>
        (tetsFromHex1 v).map (fun (r : List Nat × List Bool) => if r.2.countP id = 0 then (5 : Nat) else 6))).map (fun v => [(h, v)])) from by
      funext h
      cases rowAt hv2v 8 h with
      | none => rfl
      | some v => rw [Option.bind_some, Option.bind_some, Option.map_map]; rfl, d1, Option.bind_some]
  dsimp only
  rw [hoff nh (Nat.le_refl _), Option.bind_some, ← hB nh (Nat.le_refl _)]
  apply parConcat
  intro h hh
  rw [rowAt_eq hl hh, Option.bind_some, (hT h hh).1, Option.bind_some, hoff h (by omega), hB h (by omega)]
  rfl

example : tetsFromHexes Sched.serial Sched.reversed [0, 1, 3, 2, 4, 5, 7, 6] = some
    [0, 3, 2, 7, 0, 2, 6, 7, 0, 6, 4, 7, 0, 5, 7, 4, 1, 5, 7, 0, 1, 7, 3, 0] := by decide +kernel

theorem blockOff_fixed {α : Type} {B : Nat → List α} {n w : Nat} (h : ∀ i, i < n → (B i).length = w) :
    ∀ k, k ≤ n → blockOff B k = k * w := by
  intro k
  induction k with
  | zero => intro _; simp [blockOff]
  | succ k ih => intro hk; rw [blockOff_succ, ih (by omega), h k (by omega), Nat.add_mul, Nat.one_mul]

theorem parConcatFixed {α : Type} (s : Sched) {n w : Nat} {B : Nat → List α} {W : Nat → Option (List (Nat × α))}
    (h : ∀ i, i < n → (B i).length = w) (hW : ∀ i, i < n → W i = some (blockWrites (i * w) (B i))) :
    (parScatter s n W (Mem.alloc (n * w))).bind Mem.toArray? = some ((List.range n).flatMap B) := by
  rw [← blockOff_fixed h n (Nat.le_refl _)]
  exact parConcat s n B W (fun i hi => by rw [blockOff_fixed h i (by omega)]; exact hW i hi)

theorem flatten_fixed {α : Type} {T : List (List α)} {n w : Nat} (h1 : T.length = n) (h2 : ∀ t ∈ T, t.length = w) :
    T.flatten.length = n * w := by
  rw [List.length_flatten, List.map_congr_left (g := fun _ => w) h2]
  simp [h1]

/-- **All quadrilaterals.** The array of triangles is the concatenation of the pairs of triangles into which the
quadrilaterals are cut. -/
theorem C55_quad_array (s : Sched) {qv2v : List Nat} {nq : Nat} (hl : qv2v.length = nq * 4)
    (hd : ∀ q, q < nq → (row qv2v 4 q).Nodup) :
    ∃ T : Nat → List (List Nat),
      (∀ q, q < nq → (T q).length = 2 ∧ (∀ t ∈ T q, t.length = 3) ∧ SplitsQuad (row qv2v 4 q) (T q)) ∧
      trisFromQuads s qv2v = some ((List.range nq).flatMap (fun q => (T q).flatten)) := by
  obtain ⟨T, hTd⟩ : ∃ T : Nat → List (List Nat), ∀ q, T q = (trisOfQuad (row qv2v 4 q)).getD [] := ⟨_, fun _ => rfl⟩
  have hT : ∀ q, q < nq → trisOfQuad (row qv2v 4 q) = some (T q) ∧ (T q).length = 2 ∧ (∀ t ∈ T q, t.length = 3) ∧
      SplitsQuad (row qv2v 4 q) (T q) := by
    intro q hq
    obtain ⟨T', h1, h2⟩ := C55_quads (row qv2v 4 q) (row_length hl hq) (hd q hq)
    rw [hTd, h1]
    exact ⟨rfl, h2⟩
  refine ⟨T, fun q hq => (hT q hq).2, ?_⟩
  unfold trisFromQuads
  rw [divide_no_rem (by omega) hl, Option.bind_some, Nat.mul_assoc]
  refine parConcatFixed s (fun q hq => ?_) (fun q hq => ?_)
  · exact flatten_fixed (hT q hq).2.1 (hT q hq).2.2.1
  · rw [rowAt_eq hl hq, Option.bind_some, (hT q hq).1, Option.map_some, Nat.mul_assoc]

example : trisFromQuads Sched.reversed [0, 1, 4, 3, 2, 5, 4, 1] = some [0, 1, 4, 4, 3, 0, 1, 2, 5, 5, 4, 1] := by
  decide +kernel

/-! ## Boxes -/

/-- A hexahedron numbered like a cell of a box. -/
def boxHex (b x z : Nat) : List Nat := [b, b + 1, b + x + 1, b + x, b + z, b + z + 1, b + z + x + 1, b + z + x]

theorem boxHex_splits {b x z : Nat} (hx : 2 ≤ x) (hz : 2 * x ≤ z) :
    ∃ T, tetsOfHex (boxHex b x z) = some T ∧ SplitsHex (boxHex b x z) T := by
  have hnd : (boxHex b x z).Nodup := by
    simp only [boxHex, List.nodup_cons, List.mem_cons, List.not_mem_nil, or_false, not_or, List.nodup_nil,
      not_false_eq_true, and_true]
    omega
  obtain ⟨m, T, ⟨y, y1, y2⟩, h1, h2⟩ := C55_hexes_partial (boxHex b x z) rfl hnd
  refine ⟨T, h1, h2.2 ?_⟩
  have hb : b ∈ boxHex b x z := by simp [boxHex]
  have hy : y = b := by
    have h1 := y2 b hb
    have h2 : y ∈ boxHex b x z := List.mem_of_getElem? y1
    simp only [boxHex, List.mem_cons, List.not_mem_nil, or_false] at h2
    omega
  subst hy
  have : m = 0 := (List.getElem?_inj (i := m) (j := 0) (List.getElem?_eq_some_iff.1 y1).1 hnd).1 y1
  subst this
  refine ⟨_, _, _, rfl, ?_⟩
  show min (y + z + x + 1) (y + x) < min (y + x + 1) (y + z + x) ↔
    min (y + z + x + 1) (y + z) < min (y + z + x) (y + z + 1)
  omega

/-- **Boxes of tets.** The hexahedra of a generated box are all subdivided. -/
theorem C55_box_hexes (s s1 s2 : Sched) {nx ny nz : Nat} (hx : 0 < nx) (hy : 0 < ny) :
    ∃ (conn : List Nat) (T : Nat → List (List Nat)), box3Conn s nx ny nz = some conn ∧ conn.length = nx * ny * nz * 8 ∧
      (∀ h, h < nx * ny * nz → SplitsHex (row conn 8 h) (T h)) ∧
      tetsFromHexes s1 s2 conn = some ((List.range (nx * ny * nz)).flatMap (fun h => (T h).flatten)) := by
  have hxy : nx * ny ≠ 0 := Nat.mul_ne_zero (by omega) (by omega)
  obtain ⟨conn, o1, o2, o3⟩ := parFixed s (nx * ny * nz) 8
    (fun h => boxHex (h / (nx * ny) * ((nx + 1) * (ny + 1)) + h % (nx * ny) / nx * (nx + 1) + h % (nx * ny) % nx)
      (nx + 1) ((nx + 1) * (ny + 1)))
    (fun h => if nx * ny = 0 ∨ nx = 0 then none else
      let ij := h % (nx * ny)
      let k := h / (nx * ny)
      let i := ij % nx
      let j := ij / nx
      some (blockWrites (h * 8)
        [(k + 0) * ((nx + 1) * (ny + 1)) + (j + 0) * (nx + 1) + (i + 0), (k + 0) * ((nx + 1) * (ny + 1)) + (j + 0) * (nx + 1) + (i + 1),
         (k + 0) * ((nx + 1) * (ny + 1)) + (j + 1) * (nx + 1) + (i + 1), (k + 0) * ((nx + 1) * (ny + 1)) + (j + 1) * (nx + 1) + (i + 0),
         (k + 1) * ((nx + 1) * (ny + 1)) + (j + 0) * (nx + 1) + (i + 0), (k + 1) * ((nx + 1) * (ny + 1)) + (j + 0) * (nx + 1) + (i + 1),
         (k + 1) * ((nx + 1) * (ny + 1)) + (j + 1) * (nx + 1) + (i + 1), (k + 1) * ((nx + 1) * (ny + 1)) + (j + 1) * (nx + 1) + (i + 0)]))
    (fun _ => rfl) (by
      intro h _
      rw [if_neg (by omega)]
      dsimp only
      generalize h / (nx * ny) = k
      generalize h % (nx * ny) / nx = j
      generalize h % (nx * ny) % nx = i
      congr 2
      unfold boxHex
      simp only [Nat.add_mul k 1, Nat.add_mul j 1, Nat.add_zero, Nat.one_mul]
      generalize k * ((nx + 1) * (ny + 1)) = a
      generalize (nx + 1) * (ny + 1) = c
      generalize j * (nx + 1) = d
      refine List.cons_eq_cons.2 ⟨by omega, List.cons_eq_cons.2 ⟨by omega, List.cons_eq_cons.2 ⟨by omega,
        List.cons_eq_cons.2 ⟨by omega, List.cons_eq_cons.2 ⟨by omega, List.cons_eq_cons.2 ⟨by omega,
        List.cons_eq_cons.2 ⟨by omega, List.cons_eq_cons.2 ⟨by omega, rfl⟩⟩⟩⟩⟩⟩⟩⟩)
  obtain ⟨T, t1, t2⟩ := C55_hex_array s1 s2 o2
  refine ⟨conn, T, o1, o2, fun h hh => ?_, t2⟩
  have hrow : row conn 8 h = boxHex (h / (nx * ny) * ((nx + 1) * (ny + 1)) + h % (nx * ny) / nx * (nx + 1) +
      h % (nx * ny) % nx) (nx + 1) ((nx + 1) * (ny + 1)) := by
    apply List.ext_getElem?
    intro j
    by_cases hj : j < 8
    · rw [row_get _ _ hj]; exact o3 h j hh hj
    · rw [List.getElem?_eq_none (by rw [row_length o2 hh]; omega), List.getElem?_eq_none (by simp [boxHex]; omega)]
  have hz : 2 * (nx + 1) ≤ (nx + 1) * (ny + 1) := by
    rw [Nat.mul_comm 2]; exact Nat.mul_le_mul_left _ (by omega)
  obtain ⟨T', k1, k2⟩ := boxHex_splits (b := h / (nx * ny) * ((nx + 1) * (ny + 1)) + h % (nx * ny) / nx * (nx + 1) +
      h % (nx * ny) % nx) (x := nx + 1) (z := (nx + 1) * (ny + 1)) (by omega) hz
  rw [← hrow] at k1 k2
  rw [(t1 h hh).1] at k1
  cases k1
  exact k2

example : (box3Conn Sched.serial 2 1 1).bind (fun c => tetsFromHexes Sched.serial Sched.serial c) = some
    [0, 4, 3, 10, 0, 3, 9, 10, 0, 9, 6, 10, 0, 7, 10, 6, 1, 7, 10, 0, 1, 10, 4, 0,
     1, 5, 4, 11, 1, 4, 10, 11, 1, 10, 7, 11, 1, 8, 11, 7, 2, 8, 11, 1, 2, 11, 5, 1] := by decide +kernel

/-! ## Splitting around the middle -/

/-- The corners of the four triangles; corner 4 is the middle. -/
def quadFan : List (List Nat) := [[4, 0, 1], [4, 1, 2], [4, 2, 3], [4, 3, 0]]

/-- The corners of the twenty-four tets; corners 8 to 13 are the middles of the sides and 14 the middle. -/
def hexFan : List (List (List Nat)) :=
  [[[8, 0, 1, 14], [8, 3, 0, 14], [8, 2, 3, 14], [8, 1, 2, 14]],
   [[9, 1, 0, 14], [9, 5, 1, 14], [9, 4, 5, 14], [9, 0, 4, 14]],
   [[10, 2, 1, 14], [10, 6, 2, 14], [10, 5, 6, 14], [10, 1, 5, 14]],
   [[11, 3, 2, 14], [11, 7, 3, 14], [11, 6, 7, 14], [11, 2, 6, 14]],
   [[12, 0, 3, 14], [12, 4, 0, 14], [12, 7, 4, 14], [12, 3, 7, 14]],
   [[13, 5, 4, 14], [13, 6, 5, 14], [13, 7, 6, 14], [13, 4, 7, 14]]]

/-- The doubled square with its middle. -/
def squareMid (i : Nat) : Int × Int := [((0 : Int), (0 : Int)), (2, 0), (2, 2), (0, 2), (1, 1)].getD i (0, 0)

/-- The doubled cube with the middles of its sides and its own. -/
def cubeMid (i : Nat) : List Int := (cubePoints2 ++ sideMiddles ++ [[1, 1, 1]]).getD i []

theorem quadFan_table :
    quadFan.all (fun t => t.length == 3 && t.all (fun i => decide (i < 5)) && decide (0 < triArea squareMid t)) = true ∧
    (quadFan.map (triArea squareMid)).sum = 8 ∧
    (normTerms (quadFan.flatMap bdTerms ++ negTerms ([[0, 1], [1, 2], [2, 3], [3, 0]].map (fun σ => (1, σ))))).all
      (fun t => t.1 == 0) = true := by
  decide +kernel

/-- The surface of the twenty-four tets. -/
def hexFanSurface : List (List Nat) :=
  (hexSides.zip [8, 9, 10, 11, 12, 13]).flatMap (fun f => (cycleEdges f.1).map (fun e => [f.2, e.1, e.2]))

theorem hexFan_table :
    hexFan.flatten.all (fun t => t.length == 4 && t.all (fun i => decide (i < 15)) && decide (0 < tetVolume cubeMid t)) = true ∧
    (hexFan.flatten.map (tetVolume cubeMid)).sum = 48 ∧
    (normTerms (hexFan.flatten.flatMap bdTerms ++ negTerms (hexFanSurface.map (fun σ => (1, σ))))).all
      (fun t => t.1 == 0) = true := by
  decide +kernel

theorem quadFan_splits (v : List Nat) (h4 : v.length = 4) (c : Nat) : ∃ T,
    ((List.range 4).mapM (fun i => (v[i]?).bind (fun v0 => (v[(i + 1) % 4]?).map (fun v1 => [c, v0, v1])))) = some T ∧
    T.length = 4 ∧ (∀ t ∈ T, t.length = 3) ∧ SplitsQuadAround v c T := by
  obtain ⟨f, hf, hc⟩ : ∃ f : Nat → Nat, v = [f 0, f 1, f 2, f 3] ∧ c = f 4 := by
    match v, h4 with
    | [a0, a1, a2, a3], _ => exact ⟨fun i => [a0, a1, a2, a3, c].getD i 0, rfl, rfl⟩
  subst hf
  subst hc
  obtain ⟨t1, t2, t3⟩ := quadFan_table
  have t1' : ∀ t ∈ quadFan, (t.length = 3 ∧ ∀ i ∈ t, i < 5) ∧ 0 < triArea squareMid t := by
    intro t ht
    have := List.all_eq_true.1 t1 t ht
    simp only [Bool.and_eq_true] at this
    obtain ⟨⟨a, b⟩, c⟩ := this
    exact ⟨⟨by simpa using a, fun i hi => by simpa using List.all_eq_true.1 b i hi⟩, of_decide_eq_true c⟩
  refine ⟨quadFan.map (List.map f), by simp [List.range, List.range.loop, quadFan], rfl, ?_, ?_, ?_⟩
  · intro t ht
    obtain ⟨t', ht', rfl⟩ := List.mem_map.1 ht
    rw [List.length_map]
    exact (t1' t' ht').1.1
  · intro pos hp hc
    have hpos : ∀ i, i < 5 → pos (f i) = squareMid i := by
      intro i hi
      simp only [List.map_cons, List.map_nil, List.cons.injEq] at hp
      obtain ⟨k0, k1, k2, k3, -⟩ := hp
      have hi' : i = 0 ∨ i = 1 ∨ i = 2 ∨ i = 3 ∨ i = 4 := by omega
      rcases hi' with rfl | rfl | rfl | rfl | rfl <;> assumption
    have key : ∀ t ∈ quadFan, triArea pos (t.map f) = triArea squareMid t := by
      intro t ht
      obtain ⟨⟨hl, hi⟩, -⟩ := t1' t ht
      match t, hl with
      | [a, b, c], _ =>
        simp only [List.mem_cons, List.not_mem_nil, or_false, forall_eq_or_imp, forall_eq] at hi
        obtain ⟨ha, hb, hc⟩ := hi
        show triArea pos [f a, f b, f c] = _
        simp only [triArea, hpos a ha, hpos b hb, hpos c hc]
    refine ⟨?_, ?_⟩
    · intro t ht
      obtain ⟨t', ht', rfl⟩ := List.mem_map.1 ht
      rw [key t' ht']
      exact (t1' t' ht').2
    · rw [List.map_map, ← t2]
      congr 1
      apply List.map_congr_left
      exact key
  · exact boundaryIs_map (boundaryIs_of_check t3) f

theorem hexFan_splits (v : List Nat) (h8 : v.length = 8) (qs : List Nat) (h6 : qs.length = 6) (n c : Nat) : ∃ T,
    ((List.range 6).mapM (fun side => (qs[side]?).bind (fun q => (List.range 4).mapM (fun k =>
        (hexSideVert side k).bind (fun c0 => (hexSideVert side ((k + 1) % 4)).bind (fun c1 =>
        (v[c0]?).bind (fun v0 => (v[c1]?).map (fun v1 => [n + q, v1, v0, c]))))))) ) = some T ∧
    T.flatten.length = 24 ∧ (∀ t ∈ T.flatten, t.length = 4) ∧
    SplitsHexAround v (qs.map (fun q => n + q)) c T.flatten := by
  obtain ⟨f, hf, hq, hc⟩ : ∃ f : Nat → Nat, v = [f 0, f 1, f 2, f 3, f 4, f 5, f 6, f 7] ∧
      qs.map (fun q => n + q) = [f 8, f 9, f 10, f 11, f 12, f 13] ∧ c = f 14 := by
    match v, h8, qs, h6 with
    | [a0, a1, a2, a3, a4, a5, a6, a7], _, [q0, q1, q2, q3, q4, q5], _ =>
      exact ⟨fun i => [a0, a1, a2, a3, a4, a5, a6, a7, n + q0, n + q1, n + q2, n + q3, n + q4, n + q5, c].getD i 0,
        rfl, rfl, rfl⟩
  have hrun : ((List.range 6).mapM (fun side => (qs[side]?).bind (fun q => (List.range 4).mapM (fun k =>
        (hexSideVert side k).bind (fun c0 => (hexSideVert side ((k + 1) % 4)).bind (fun c1 =>
        (v[c0]?).bind (fun v0 => (v[c1]?).map (fun v1 => [n + q, v1, v0, c]))))))) ) =
        some (hexFan.map (List.map (List.map f))) := by
    match qs, h6 with
    | [q0, q1, q2, q3, q4, q5], _ =>
      simp only [List.map_cons, List.map_nil, List.cons.injEq] at hq
      obtain ⟨k0, k1, k2, k3, k4, k5, -⟩ := hq
      subst hf
      subst hc
      simp [List.range, List.range.loop, hexSideVert, hypercubeDownTemplate, hexFan, k0, k1, k2, k3, k4, k5]
  obtain ⟨t1, t2, t3⟩ := hexFan_table
  have t1' : ∀ t ∈ hexFan.flatten, (t.length = 4 ∧ ∀ i ∈ t, i < 15) ∧ 0 < tetVolume cubeMid t := by
    intro t ht
    have := List.all_eq_true.1 t1 t ht
    simp only [Bool.and_eq_true] at this
    obtain ⟨⟨a, b⟩, c⟩ := this
    exact ⟨⟨by simpa using a, fun i hi => by simpa using List.all_eq_true.1 b i hi⟩, of_decide_eq_true c⟩
  refine ⟨_, hrun, ?_⟩
  rw [← List.map_flatten]
  refine ⟨rfl, ?_, ?_, ?_⟩
  · intro t ht
    obtain ⟨t', ht', rfl⟩ := List.mem_map.1 ht
    rw [List.length_map]
    exact (t1' t' ht').1.1
  · intro pos hp hs hm
    rw [hq] at hs
    rw [hf] at hp
    rw [hc] at hm
    have hpos : ∀ i, i < 15 → pos (f i) = cubeMid i := by
      intro i hi
      simp only [List.map_cons, List.map_nil, cubePoints2, sideMiddles, List.cons.injEq] at hp hs
      obtain ⟨k0, k1, k2, k3, k4, k5, k6, k7, -⟩ := hp
      obtain ⟨k8, k9, k10, k11, k12, k13, -⟩ := hs
      have hi' : i = 0 ∨ i = 1 ∨ i = 2 ∨ i = 3 ∨ i = 4 ∨ i = 5 ∨ i = 6 ∨ i = 7 ∨ i = 8 ∨ i = 9 ∨ i = 10 ∨ i = 11 ∨
        i = 12 ∨ i = 13 ∨ i = 14 := by omega
      rcases hi' with rfl | rfl | rfl | rfl | rfl | rfl | rfl | rfl | rfl | rfl | rfl | rfl | rfl | rfl | rfl <;>
        assumption
    have key : ∀ t ∈ hexFan.flatten, tetVolume pos (t.map f) = tetVolume cubeMid t := by
      intro t ht
      obtain ⟨⟨hl, hi⟩, -⟩ := t1' t ht
      match t, hl with
      | [a, b, c, d], _ =>
        simp only [List.mem_cons, List.not_mem_nil, or_false, forall_eq_or_imp, forall_eq] at hi
        obtain ⟨ha, hb, hc, hd⟩ := hi
        show tripleProduct (pos (f a)) (pos (f b)) (pos (f c)) (pos (f d)) = _
        rw [hpos a ha, hpos b hb, hpos c hc, hpos d hd]
        rfl
    refine ⟨?_, ?_⟩
    · intro t ht
      obtain ⟨t', ht', rfl⟩ := List.mem_map.1 ht
      rw [key t' ht']
      exact (t1' t' ht').2
    · rw [List.map_map, ← t2]
      congr 1
      apply List.map_congr_left
      exact key
  · rw [hq, hf]
    exact boundaryIs_map (boundaryIs_of_check t3) f

/-- **Quadrilaterals, around the middle.** -/
theorem C55_symmetric_quads (s : Sched) {qv2v : List Nat} {nq : Nat} (nverts : Nat) (hl : qv2v.length = nq * 4) :
    ∃ T : Nat → List (List Nat),
      (∀ q, q < nq → (T q).length = 4 ∧ (∀ t ∈ T q, t.length = 3) ∧
        SplitsQuadAround (row qv2v 4 q) (nverts + q) (T q)) ∧
      trisFromQuadsSymmetric s nverts nq qv2v = some ((List.range nq).flatMap (fun q => (T q).flatten)) := by
  obtain ⟨T, hTd⟩ : ∃ T : Nat → List (List Nat), ∀ q, T q = ((List.range 4).mapM (fun i =>
      ((row qv2v 4 q)[i]?).bind (fun v0 => ((row qv2v 4 q)[(i + 1) % 4]?).map (fun v1 =>
        [nverts + q, v0, v1])))).getD [] := ⟨_, fun _ => rfl⟩
  have hT : ∀ q, q < nq → ((List.range 4).mapM (fun i =>
      ((row qv2v 4 q)[i]?).bind (fun v0 => ((row qv2v 4 q)[(i + 1) % 4]?).map (fun v1 =>
        [nverts + q, v0, v1])))) = some (T q) ∧ (T q).length = 4 ∧ (∀ t ∈ T q, t.length = 3) ∧
        SplitsQuadAround (row qv2v 4 q) (nverts + q) (T q) := by
    intro q hq
    obtain ⟨T', h1, h2⟩ := quadFan_splits (row qv2v 4 q) (row_length hl hq) (nverts + q)
    rw [hTd, h1]
    exact ⟨rfl, h2⟩
  refine ⟨T, fun q hq => (hT q hq).2, ?_⟩
  unfold trisFromQuadsSymmetric
  rw [Nat.mul_assoc]
  refine parConcatFixed s (fun q hq => ?_) (fun q hq => ?_)
  · exact flatten_fixed (hT q hq).2.1 (hT q hq).2.2.1
  · rw [rowAt_eq hl hq, Option.bind_some, (hT q hq).1, Option.map_some, Nat.mul_assoc]

example : trisFromQuadsSymmetric Sched.reversed 4 1 [0, 1, 3, 2] = some [4, 0, 1, 4, 1, 3, 4, 3, 2, 4, 2, 0] := by
  decide +kernel

/-- **Hexahedra, around the middle.** -/
theorem C55_symmetric_hexes (s : Sched) {hv2v hq2q : List Nat} {nh : Nat} (nverts nquads : Nat)
    (hl : hv2v.length = nh * 8) (hl' : hq2q.length = nh * 6) :
    ∃ T : Nat → List (List Nat),
      (∀ h, h < nh → (T h).length = 24 ∧ (∀ t ∈ T h, t.length = 4) ∧
        SplitsHexAround (row hv2v 8 h) ((row hq2q 6 h).map (fun q => nverts + q)) (nverts + nquads + h) (T h)) ∧
      tetsFromHexesSymmetric s nverts nquads nh hv2v hq2q =
        some ((List.range nh).flatMap (fun h => (T h).flatten)) := by
  obtain ⟨R, hR⟩ : ∃ R : Nat → Option (List (List (List Nat))), ∀ h, R h =
      (List.range 6).mapM (fun side => ((row hq2q 6 h)[side]?).bind (fun q => (List.range 4).mapM (fun k =>
        (hexSideVert side k).bind (fun c0 => (hexSideVert side ((k + 1) % 4)).bind (fun c1 =>
        ((row hv2v 8 h)[c0]?).bind (fun v0 => ((row hv2v 8 h)[c1]?).map (fun v1 =>
          [nverts + q, v1, v0, nverts + nquads + h]))))))) := ⟨_, fun _ => rfl⟩
  obtain ⟨T, hTd⟩ : ∃ T : Nat → List (List Nat), ∀ h, T h = ((R h).getD []).flatten := ⟨_, fun _ => rfl⟩
  have hT : ∀ h, h < nh → (∃ T', R h = some T' ∧ T'.flatten = T h) ∧ (T h).length = 24 ∧ (∀ t ∈ T h, t.length = 4) ∧
        SplitsHexAround (row hv2v 8 h) ((row hq2q 6 h).map (fun q => nverts + q)) (nverts + nquads + h) (T h) := by
    intro h hh
    obtain ⟨T', h1, h2⟩ := hexFan_splits (row hv2v 8 h) (row_length hl hh) (row hq2q 6 h) (row_length hl' hh) nverts
      (nverts + nquads + h)
    rw [← hR] at h1
    have : T h = T'.flatten := by rw [hTd, h1]; rfl
    rw [this]
    exact ⟨⟨T', h1, rfl⟩, h2⟩
  refine ⟨T, fun h hh => (hT h hh).2, ?_⟩
  unfold tetsFromHexesSymmetric
  rw [show nh * 6 * 4 * 4 = nh * 96 by omega]
  refine parConcatFixed s (fun h hh => ?_) (fun h hh => ?_)
  · exact flatten_fixed (hT h hh).2.1 (hT h hh).2.2.1
  · obtain ⟨⟨T', h1, h2⟩, -⟩ := hT h hh
    rw [hR] at h1
    rw [rowAt_eq hl hh, Option.bind_some, rowAt_eq hl' hh, Option.bind_some, h1, Option.map_some, h2,
      show h * 6 * 4 * 4 = h * 96 by omega]

/-- **Neighbours agree around the middle.** -/
theorem C55_symmetric_neighbours (q : List Nat) (h4 : q.length = 4) (c k : Nat) (hk : k < 4) :
    SameChain ((cycleEdges q).map (fun e => [c, e.1, e.2]) ++
      (cycleEdges (q.reverse.rotate k)).map (fun e => [c, e.1, e.2])) [] := by
  obtain ⟨f, hf, hc⟩ : ∃ f : Nat → Nat, q = [f 0, f 1, f 2, f 3] ∧ c = f 4 := by
    match q, h4 with
    | [a0, a1, a2, a3], _ => exact ⟨fun i => [a0, a1, a2, a3, c].getD i 0, rfl, rfl⟩
  subst hf
  subst hc
  have hk' : k = 0 ∨ k = 1 ∨ k = 2 ∨ k = 3 := by omega
  have e : ∀ g : List Nat, (normTerms ((quadFan ++ (cycleEdges g).map (fun e => [4, e.1, e.2])).map (fun σ => (1, σ)) ++
      negTerms (([] : List (List Nat)).map (fun σ => (1, σ))))).all (fun t => t.1 == 0) = true →
      SameChain ((quadFan ++ (cycleEdges g).map (fun e => [4, e.1, e.2])).map (List.map f)) [] :=
    fun g h => SameChain_map (sameChain_of_check h) f
  rcases hk' with rfl | rfl | rfl | rfl
  · exact e [3, 2, 1, 0] (by decide)
  · exact e [2, 1, 0, 3] (by decide)
  · exact e [1, 0, 3, 2] (by decide)
  · exact e [0, 3, 2, 1] (by decide)

/-! ## Coordinates -/

/-- Writing the next range of rows. -/
theorem mapIntoRange_append {α : Type} (s : Sched) {l a : List α} {b e w k : Nat} (hl : l.length = b * w) (he : b ≤ e)
    (ha : a.length = (e - b) * w) :
    mapIntoRange s a b e (Mem.ofList l ++ Mem.alloc (a.length + k)) w =
      some (Mem.ofList (l ++ a) ++ Mem.alloc k) := by
  unfold mapIntoRange
  rw [if_pos ⟨he, ha⟩]
  have hc : ∀ i, i < e - b → _ := fun i hi => copyRow_spec a w i (b + i) (by
    rw [ha]; exact Nat.mul_le_mul_right _ hi)
  obtain ⟨W, hW⟩ : ∃ W : Nat → List (Nat × α), ∀ i, W i = (copyRow a w i (b + i)).getD [] := ⟨_, fun _ => rfl⟩
  have hW1 : ∀ i, i < e - b → copyRow a w i (b + i) = some (W i) ∧
      ∀ p v, (p, v) ∈ W i ↔ ∃ j, j < w ∧ p = (b + i) * w + j ∧ a[i * w + j]? = some v := by
    intro i hi
    obtain ⟨ws, h1, h2⟩ := hc i hi
    rw [hW, h1]
    exact ⟨rfl, h2⟩
  have hlen : (Mem.ofList l ++ Mem.alloc (α := α) (a.length + k)).length = b * w + a.length + k := by
    simp [Mem.ofList, Mem.alloc, hl]; omega
  have hmem : ∀ i, i < e - b → ∀ p v, (p, v) ∈ W i → b * w ≤ p ∧ p < b * w + a.length ∧ a[p - b * w]? = some v := by
    intro i hi p v hp
    obtain ⟨j, hj, rfl, hv⟩ := ((hW1 i hi).2 p v).1 hp
    have h1 : (i + 1) * w ≤ a.length := by rw [ha]; exact Nat.mul_le_mul_right _ hi
    rw [Nat.add_mul, Nat.one_mul] at h1
    rw [Nat.add_mul]
    refine ⟨by omega, by omega, ?_⟩
    rw [show b * w + i * w + j - b * w = i * w + j by omega]
    exact hv
  obtain ⟨m, m1, m2, m3, m4⟩ := parScatter_specO s (e - b) (fun i => copyRow a w i (b + i)) W
    (fun p => a[p - b * w]?) (Mem.ofList l ++ Mem.alloc (a.length + k)) (fun i hi => (hW1 i hi).1) (by
      intro i hi p v hp
      obtain ⟨h1, h2, h3⟩ := hmem i hi p v hp
      exact ⟨by rw [hlen]; omega, h3⟩)
  rw [m1]
  congr 1
  apply List.ext_getElem?
  intro p
  by_cases hp : b * w ≤ p ∧ p < b * w + a.length
  · have hq : p - b * w < (e - b) * w := by omega
    have hw : 0 < w := by
      rcases Nat.eq_zero_or_pos w with rfl | h
      · simp at hq
      · exact h
    have hi : (p - b * w) / w < e - b := Nat.div_lt_of_lt_mul (by rw [Nat.mul_comm w]; exact hq)
    have hdm := Nat.div_add_mod (p - b * w) w
    rw [Nat.mul_comm w] at hdm
    have := m3 _ hi p (a[p - b * w]'(by omega)) (((hW1 _ hi).2 _ _).2 ⟨(p - b * w) % w, Nat.mod_lt _ hw, by
      rw [Nat.add_mul]; omega, by rw [hdm]; exact List.getElem?_eq_getElem _⟩)
    rw [this, List.getElem?_append_left (by simp [Mem.ofList, hl]; omega)]
    unfold Mem.ofList
    rw [List.getElem?_map, List.getElem?_append_right (by omega), hl, List.getElem?_eq_getElem (by omega)]
    rfl
  · rw [m4 p (by
      intro i hi v hv
      obtain ⟨h1, h2, -⟩ := hmem i hi p v hv
      exact hp ⟨h1, h2⟩)]
    rcases Nat.lt_or_ge p (b * w) with h | h
    · rw [List.getElem?_append_left (by simp [Mem.ofList]; omega),
        List.getElem?_append_left (by simp [Mem.ofList]; omega)]
      unfold Mem.ofList
      rw [List.getElem?_map, List.getElem?_map, List.getElem?_append_left (by omega)]
    · have h' : b * w + a.length ≤ p := by omega
      rw [List.getElem?_append_right (by simp [Mem.ofList]; omega),
        List.getElem?_append_right (by simp [Mem.ofList]; omega)]
      unfold Mem.alloc Mem.ofList
      simp only [List.length_map, List.length_append, List.getElem?_replicate]
      by_cases hk : p < b * w + a.length + k
      · rw [if_pos (by omega), if_pos (by omega)]
      · rw [if_neg (by omega), if_neg (by omega)]

section
variable {K : Type} [Field K]

/-- **Coordinates in the plane**: the old ones, and then the averages over the quadrilaterals. -/
theorem C55_symmetric_coords2 (s : Nat → Sched) {nverts nquads : Nat} {qv2v : List Nat} {coords : List K}
    (hc : coords.length = nverts * 2) (hq : qv2v.length = nquads * 4) (hv : ∀ v ∈ qv2v, v < nverts)
    (x : Nat → Nat → K) (hx : ∀ v a, v < nverts → a < 2 → coords[v * 2 + a]? = some (x v a)) :
    ∃ out, symmetricCoords2 s nverts nquads qv2v coords = some out ∧ out.length = (nverts + nquads) * 2 ∧
      (∀ v a, v < nverts → a < 2 → out[v * 2 + a]? = some (x v a)) ∧
      ∀ q a, q < nquads → a < 2 → out[(nverts + q) * 2 + a]? =
        some (((row qv2v 4 q).map (fun v => x v a)).sum / 4) := by
  obtain ⟨cent, c1, c2, c3⟩ := average_spec (s 0) (by omega) hc hq hv x hx
  refine ⟨coords ++ cent, ?_, by rw [List.length_append, hc, c2]; omega, ?_, ?_⟩
  · unfold symmetricCoords2
    rw [c1, Option.bind_some]
    have e1 := mapIntoRange_append (s 1) (l := ([] : List K)) (a := coords) (b := 0) (e := nverts) (w := 2)
      (k := cent.length) (by simp) (by omega) (by rw [hc]; rfl)
    have e2 := mapIntoRange_append (s 2) (l := coords) (a := cent) (b := nverts) (e := nverts + nquads) (w := 2)
      (k := 0) hc (by omega) (by rw [c2]; congr 1; omega)
    rw [show coords.length + cent.length = (nverts + nquads) * 2 by rw [hc, c2]; omega] at e1
    have e1 : mapIntoRange (s 1) coords 0 nverts (Mem.alloc ((nverts + nquads) * 2)) 2 = _ := e1
    rw [e1, Option.bind_some, List.nil_append]
    rw [Nat.add_zero] at e2
    rw [e2, Option.bind_some]
    show Mem.toArray? (Mem.ofList _ ++ []) = _
    rw [List.append_nil, Mem.toArray?_ofList]
  · intro v a hv' ha
    rw [List.getElem?_append_left (by omega)]
    exact hx v a hv' ha
  · intro q a hq' ha
    rw [List.getElem?_append_right (by omega), show (nverts + q) * 2 + a - coords.length = q * 2 + a by omega]
    exact c3 q a hq' ha

/-- **Coordinates in space**: the old ones, then the averages over the sides, then those over the hexahedra. -/
theorem C55_symmetric_coords3 (s : Nat → Sched) {nverts nquads nhexes : Nat} {qv2v hv2v : List Nat} {coords : List K}
    (hc : coords.length = nverts * 3) (hq : qv2v.length = nquads * 4) (hv : ∀ v ∈ qv2v, v < nverts)
    (hh : hv2v.length = nhexes * 8) (hv' : ∀ v ∈ hv2v, v < nverts)
    (x : Nat → Nat → K) (hx : ∀ v a, v < nverts → a < 3 → coords[v * 3 + a]? = some (x v a)) :
    ∃ out, symmetricCoords3 s nverts nquads nhexes qv2v hv2v coords = some out ∧
      out.length = (nverts + nquads + nhexes) * 3 ∧
      (∀ v a, v < nverts → a < 3 → out[v * 3 + a]? = some (x v a)) ∧
      (∀ q a, q < nquads → a < 3 → out[(nverts + q) * 3 + a]? =
        some (((row qv2v 4 q).map (fun v => x v a)).sum / 4)) ∧
      ∀ h a, h < nhexes → a < 3 → out[(nverts + nquads + h) * 3 + a]? =
        some (((row hv2v 8 h).map (fun v => x v a)).sum / 8) := by
  obtain ⟨cent, c1, c2, c3⟩ := average_spec (s 0) (by omega) hc hq hv x hx
  obtain ⟨hent, d1, d2, d3⟩ := average_spec (s 1) (by omega) hc hh hv' x hx
  refine ⟨coords ++ cent ++ hent, ?_, by rw [List.length_append, List.length_append, hc, c2, d2]; omega, ?_, ?_, ?_⟩
  · unfold symmetricCoords3
    rw [c1, Option.bind_some, d1, Option.bind_some]
    have e1 := mapIntoRange_append (s 2) (l := ([] : List K)) (a := coords) (b := 0) (e := nverts) (w := 3)
      (k := cent.length + hent.length) (by simp) (by omega) (by rw [hc]; rfl)
    have e2 := mapIntoRange_append (s 3) (l := coords) (a := cent) (b := nverts) (e := nverts + nquads) (w := 3)
      (k := hent.length) hc (by omega) (by rw [c2]; congr 1; omega)
    have e3 := mapIntoRange_append (s 4) (l := coords ++ cent) (a := hent) (b := nverts + nquads)
      (e := nverts + nquads + nhexes) (w := 3)
      (k := 0) (by rw [List.length_append, hc, c2]; omega) (by omega) (by rw [d2]; congr 1; omega)
    rw [show coords.length + (cent.length + hent.length) = (nverts + nquads + nhexes) * 3 by
      rw [hc, c2, d2]; omega] at e1
    have e1 : mapIntoRange (s 2) coords 0 nverts (Mem.alloc ((nverts + nquads + nhexes) * 3)) 3 = _ := e1
    rw [e1, Option.bind_some, List.nil_append]
    rw [Nat.add_zero] at e3
    rw [e2, Option.bind_some, e3, Option.bind_some]
    show Mem.toArray? (Mem.ofList _ ++ []) = _
    rw [List.append_nil, Mem.toArray?_ofList]
  · intro v a hv' ha
    rw [List.getElem?_append_left (by rw [List.length_append]; omega), List.getElem?_append_left (by omega)]
    exact hx v a hv' ha
  · intro q a hq' ha
    rw [List.getElem?_append_left (by rw [List.length_append]; omega), List.getElem?_append_right (by omega),
      show (nverts + q) * 3 + a - coords.length = q * 3 + a by omega]
    exact c3 q a hq' ha
  · intro h a hh' ha
    rw [List.getElem?_append_right (by rw [List.length_append]; omega),
      show (nverts + nquads + h) * 3 + a - (coords ++ cent).length = h * 3 + a by rw [List.length_append]; omega]
    exact d3 h a hh' ha
end

example : symmetricCoords2 (fun _ => Sched.reversed) 4 1 [0, 1, 3, 2] ([0, 0, 1, 0, 0, 1, 1, 1] : List Rat) =
    some [0, 0, 1, 0, 0, 1, 1, 1, 1 / 2, 1 / 2] := by decide +kernel

end OmegaH
