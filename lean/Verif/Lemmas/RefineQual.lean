import Verif.Spec.RefineQual
import Mathlib.Order.Lattice
import Mathlib.Order.Defs.LinearOrder
/-!
# Lemmas about the qualities of edges to be split
-/
namespace OmegaH
open Spec

variable {K V M : Type}

theorem side_table : ∀ dim ∈ [(2 : Nat), 3], ∀ w ∈ List.range (simplexDegree (dim : Int) 1).toNat, ∀ r ∈ List.range 2, ∀ eev ∈ List.range 2,
    ∀ csv ∈ List.range dim,
      let t := simplexDownTemplate dim ((dim : Int) - 1) (simplexOppositeTemplate dim 0 (simplexDownTemplate dim 1
        (codeWhichDown (8 * (w : Int) + 2 * (r : Int))) ((eev ^^^ (codeRotation (8 * (w : Int) + 2 * (r : Int))).toNat : Nat) : Int))) (csv : Int)
      0 ≤ t ∧ t.toNat < dim + 1 := by decide +kernel

theorem mapM_total {α β : Type} (l : List α) (g : α → Option β) (h : ∀ x ∈ l, (g x).isSome) :
    ∃ L, l.mapM g = some L ∧ L.length = l.length := by
  induction l with
  | nil => exact ⟨[], rfl, rfl⟩
  | cons a l ih =>
    obtain ⟨L, h1, h2⟩ := ih (fun x hx => h x (by simp [hx]))
    obtain ⟨y, hy⟩ := Option.isSome_iff_exists.1 (h a (by simp))
    exact ⟨y :: L, by rw [List.mapM_cons, hy, h1]; rfl, by simp [h2]⟩

theorem mapM_mem_source {α β : Type} {l : List α} {g : α → Option β} : ∀ {L : List β}, l.mapM g = some L →
    ∀ y ∈ L, ∃ x ∈ l, g x = some y := by
  induction l with
  | nil => intro L h; simp only [List.mapM_nil, pure, Option.some.injEq] at h; subst h; intro y hy; simp at hy
  | cons a l ih =>
    intro L h
    rw [List.mapM_cons] at h
    simp only [bind, Option.bind_eq_some_iff, pure, Option.some.injEq] at h
    obtain ⟨x, hx, r, hr, rfl⟩ := h
    intro y hy
    rcases List.mem_cons.1 hy with rfl | hy
    · exact ⟨a, by simp, hx⟩
    · obtain ⟨z, h1, h2⟩ := ih hr y hy
      exact ⟨z, by simp [h1], h2⟩

theorem mapM_fuse {α β γ : Type} (l : List α) (g : α → Option β) (f : β → Option γ) : ∀ {L : List β}, l.mapM g = some L →
    l.mapM (fun x => (g x).bind f) = L.mapM f := by
  induction l with
  | nil => intro L h; simp only [List.mapM_nil, pure, Option.some.injEq] at h; subst h; rfl
  | cons a l ih =>
    intro L h
    rw [List.mapM_cons] at h
    simp only [bind, Option.bind_eq_some_iff, pure, Option.some.injEq] at h
    obtain ⟨x, hx, r, hr, rfl⟩ := h
    rw [List.mapM_cons, List.mapM_cons, hx, ih hr]; rfl

/-- The side opposite to an end of the edge consists of vertices of the cell. -/
theorem sideVerts_total {cv2v : List Nat} {dim dom : Nat} (hdim : dim = 2 ∨ dim = 3) {code : Int} {N : List Nat} {a b eev : Nat}
    (hlen : N.length = dim + 1) (hN : ∀ i, i < dim + 1 → cv2v[dom * (dim + 1) + i]? = N[i]?) (hc : EdgeCodeIn dim code N a b)
    (he : eev < 2) : ∃ vs, sideVerts cv2v dim dom code eev = some vs ∧ vs.length = dim ∧ ∀ v ∈ vs, v ∈ N := by
  obtain ⟨w, r, hw, hr, rfl, _, _⟩ := hc
  have ht := side_table dim (by rcases hdim with rfl | rfl <;> simp) w (List.mem_range.2 (by omega)) r (List.mem_range.2 hr) eev (List.mem_range.2 he)
  have hs : ∀ csv ∈ List.range dim, ∃ v ∈ N, (fun (csv : Nat) =>
      let ccv2 := simplexDownTemplate dim ((dim : Int) - 1) (simplexOppositeTemplate dim 0 (simplexDownTemplate dim 1
        (codeWhichDown (8 * (w : Int) + 2 * (r : Int))) ((eev ^^^ (codeRotation (8 * (w : Int) + 2 * (r : Int))).toNat : Nat) : Int))) (csv : Int)
      if 0 ≤ ccv2 then cv2v[dom * (dim + 1) + ccv2.toNat]? else none) csv = some v := by
    intro csv hcs
    obtain ⟨h0, h1⟩ := ht csv hcs
    refine ⟨N[_]'(hlen ▸ h1), List.getElem_mem (hlen ▸ h1), ?_⟩
    show (if _ then _ else _) = _
    rw [if_pos h0, hN _ h1, List.getElem?_eq_getElem]
  obtain ⟨vs, h1, h2⟩ := mapM_total (List.range dim) _ (fun x hx => by
    obtain ⟨v, _, hv⟩ := hs x hx
    exact Option.isSome_iff_exists.2 ⟨v, hv⟩)
  refine ⟨vs, h1, by rw [h2, List.length_range], ?_⟩
  intro v hv
  obtain ⟨x, hx, hg⟩ := mapM_mem_source h1 v hv
  obtain ⟨u, hu, hg'⟩ := hs x hx
  have := Option.some.inj (hg.symm.trans hg')
  exact this ▸ hu

/-- The vertices of the new cell are those of the side in the new numbering, with the new vertex behind them. -/
theorem pairVerts_side {cv2v old2new : List Nat} {dim dom : Nat} {code : Int} {m eev : Nat} {vs : List Nat}
    (h : sideVerts cv2v dim dom code eev = some vs) :
    pairVerts cv2v old2new dim dom code m eev = (vs.mapM (fun v => old2new[v]?)).bind (fun ns => flipNewElem dim (ns ++ [m])) := by
  unfold pairVerts
  simp only [bind]
  have e := mapM_fuse _ _ (fun v => old2new[v]?) h
  have e2 : (List.range dim).mapM (fun (dsv : Nat) => newDomVert cv2v old2new dim dom (simplexDownTemplate dim ((dim : Int) - 1)
      (simplexOppositeTemplate dim 0 (simplexDownTemplate dim 1 (codeWhichDown code) ((eev ^^^ (codeRotation code).toNat : Nat) : Int)))
      (dsv : Int))) = vs.mapM (fun v => old2new[v]?) := by
    rw [← e]
    congr 1
    funext dsv
    unfold newDomVert
    split
    · rename_i h0; simp only []; rw [if_pos h0]
    · rename_i h0; simp only []; rw [if_neg h0]; rfl
  rw [e2]
  rfl

/-- A predicted quality is that of the cell that is made. -/
theorem half_made {d : QualData K V M} {coords newCoords : List V} {metrics newMetrics : List M} {cv2v old2new : List Nat} {dim dom : Nat}
    (hdim : dim = 2 ∨ dim = 3) {code : Int} {m eev : Nat} {vs : List Nat} {midp : V} {midm : M}
    (h : sideVerts cv2v dim dom code eev = some vs) (hl : vs.length = dim)
    (hv : ∀ v ∈ vs, v < coords.length ∧ v < metrics.length ∧ v < old2new.length)
    (hk : ∀ v n : Nat, old2new[v]? = some n → newCoords[n]? = coords[v]? ∧ newMetrics[n]? = metrics[v]?)
    (hc : newCoords[m]? = some midp) (hm : newMetrics[m]? = some midm) :
    ∃ row q, pairVerts cv2v old2new dim dom code m eev = some row ∧ row.length = dim + 1 ∧
      halfQuality d coords metrics cv2v dim dom code eev midp midm = some q ∧ measureQuality d newCoords newMetrics row = some q := by
  have key : ∀ v ∈ vs, ∃ p x n, coords[v]? = some p ∧ metrics[v]? = some x ∧ old2new[v]? = some n ∧ newCoords[n]? = some p ∧
      newMetrics[n]? = some x := by
    intro v h
    obtain ⟨h1, h2, h3⟩ := hv v h
    have e1 := List.getElem?_eq_getElem h1
    have e2 := List.getElem?_eq_getElem h2
    have e3 := List.getElem?_eq_getElem h3
    obtain ⟨k1, k2⟩ := hk v _ e3
    exact ⟨_, _, _, e1, e2, e3, k1.trans e1, k2.trans e2⟩
  rw [pairVerts_side h]
  unfold halfQuality measureQuality
  rw [h]
  rcases hdim with rfl | rfl
  · obtain ⟨u, v, rfl⟩ := List.length_eq_two.1 hl
    obtain ⟨p1, x1, n1, a1, a2, a3, a4, a5⟩ := key u (by simp)
    obtain ⟨p2, x2, n2, b1, b2, b3, b4, b5⟩ := key v (by simp)
    refine ⟨[n1, n2, m], d.quality [p1, p2, midp] [x1, x2, midm], ?_, rfl, ?_, ?_⟩ <;>
      simp [List.mapM_cons, flipNewElem, a1, a2, a3, a4, a5, b1, b2, b3, b4, b5, hc, hm]
  · obtain ⟨u, v, w, rfl⟩ := List.length_eq_three.1 hl
    obtain ⟨p1, x1, n1, a1, a2, a3, a4, a5⟩ := key u (by simp)
    obtain ⟨p2, x2, n2, b1, b2, b3, b4, b5⟩ := key v (by simp)
    obtain ⟨p3, x3, n3, c1, c2, c3, c4, c5⟩ := key w (by simp)
    refine ⟨[n1, n3, n2, m], d.quality [p1, p3, p2, midp] [x1, x3, x2, midm], ?_, rfl, ?_, ?_⟩ <;>
      simp [List.mapM_cons, flipNewElem, swapAt, a1, a2, a3, a4, a5, b1, b2, b3, b4, b5, c1, c2, c3, c4, c5, hc, hm]

theorem half_total {d : QualData K V M} {coords : List V} {metrics : List M} {cv2v : List Nat} {dim dom : Nat}
    (hdim : dim = 2 ∨ dim = 3) {code : Int} {eev : Nat} {vs : List Nat} (midp : V) (midm : M)
    (h : sideVerts cv2v dim dom code eev = some vs) (hl : vs.length = dim)
    (hv : ∀ v ∈ vs, v < coords.length ∧ v < metrics.length) :
    ∃ q, halfQuality d coords metrics cv2v dim dom code eev midp midm = some q := by
  have key : ∀ v ∈ vs, ∃ p x, coords[v]? = some p ∧ metrics[v]? = some x := fun v h =>
    ⟨_, _, List.getElem?_eq_getElem (hv v h).1, List.getElem?_eq_getElem (hv v h).2⟩
  unfold halfQuality
  rw [h]
  rcases hdim with rfl | rfl
  · obtain ⟨u, v, rfl⟩ := List.length_eq_two.1 hl
    obtain ⟨p1, x1, a1, a2⟩ := key u (by simp)
    obtain ⟨p2, x2, b1, b2⟩ := key v (by simp)
    refine ⟨d.quality [p1, p2, midp] [x1, x2, midm], ?_⟩
    simp [List.mapM_cons, flipNewElem, a1, a2, b1, b2]
  · obtain ⟨u, v, w, rfl⟩ := List.length_eq_three.1 hl
    obtain ⟨p1, x1, a1, a2⟩ := key u (by simp)
    obtain ⟨p2, x2, b1, b2⟩ := key v (by simp)
    obtain ⟨p3, x3, c1, c2⟩ := key w (by simp)
    refine ⟨d.quality [p1, p3, p2, midp] [x1, x3, x2, midm], ?_⟩
    simp [List.mapM_cons, flipNewElem, swapAt, a1, a2, b1, b2, c1, c2]

theorem foldl_min_least [LinearOrder K] (qs : List K) : ∀ one : K, LeastOf one qs (qs.foldl min one) := by
  induction qs with
  | nil => intro one; exact ⟨le_refl _, by simp, Or.inl rfl⟩
  | cons q qs ih =>
    intro one
    obtain ⟨h1, h2, h3⟩ := ih (min one q)
    refine ⟨le_trans h1 (min_le_left _ _), ?_, ?_⟩
    · intro x hx
      rcases List.mem_cons.1 hx with rfl | hx
      · exact le_trans h1 (min_le_right _ _)
      · exact h2 x hx
    · rcases h3 with h3 | h3
      · rw [List.foldl_cons, h3]
        rcases min_choice one q with h | h
        · exact Or.inl h
        · exact Or.inr (by rw [h]; simp)
      · exact Or.inr (by rw [List.foldl_cons]; simp [h3])

/-- What the kernel finds at an edge: its ends, the cells around it and a quality for every cell that would be made. -/
theorem edge_qual [LinearOrder K] {d : QualData K V M} (one : K) {coords : List V} {metrics midms : List M} {mesh : RefineMesh} {dim : Nat}
    (hdim : dim = 2 ∨ dim = 3) (hm : metrics.length = coords.length) {cands : List Nat} {c e : Nat} (hc : cands[c]? = some e)
    (he : SplittableEdge mesh dim coords.length e) :
    ∃ a b p q x y fan, (mesh.vertsOf 1)[e * 2]? = some a ∧ (mesh.vertsOf 1)[e * 2 + 1]? = some b ∧ coords[a]? = some p ∧
      coords[b]? = some q ∧ metrics[a]? = some x ∧ metrics[b]? = some y ∧ fanMembers (mesh.upOffsets dim) e = some fan ∧
      (midms[c]? = some (d.avg x y) → ∃ Q : Nat → Nat → K,
        splitQuality d one coords metrics midms mesh dim cands c = some ((fan.flatMap (fun ed => [Q ed 0, Q ed 1])).foldl min one) ∧
        ∀ ed ∈ fan, ∃ dom code, (mesh.upEnts dim)[ed]? = some dom ∧ (mesh.upCodes dim)[ed]? = some code ∧ ∀ i, i < 2 →
          halfQuality d coords metrics (mesh.vertsOf dim) dim dom code i (d.mid p q) (d.avg x y) = some (Q ed i) ∧
          ∃ vs, sideVerts (mesh.vertsOf dim) dim dom code i = some vs ∧ vs.length = dim ∧ ∀ v ∈ vs, v < coords.length) := by
  obtain ⟨a, b, lo, hi, h1, h2, h3, h4, h5, h6, h7, h8⟩ := he
  have ep := List.getElem?_eq_getElem h3
  have eq := List.getElem?_eq_getElem h4
  have ex := List.getElem?_eq_getElem (show a < metrics.length by omega)
  have ey := List.getElem?_eq_getElem (show b < metrics.length by omega)
  have ef : fanMembers (mesh.upOffsets dim) e = some (List.range' lo (hi - lo)) := by unfold fanMembers; rw [h5, h6]
  refine ⟨a, b, _, _, _, _, _, h1, h2, ep, eq, ex, ey, ef, ?_⟩
  intro hmid
  have hex : ∀ ed i, ∃ q : K, ed ∈ List.range' lo (hi - lo) → i < 2 → ∃ dom code, (mesh.upEnts dim)[ed]? = some dom ∧
      (mesh.upCodes dim)[ed]? = some code ∧
      halfQuality d coords metrics (mesh.vertsOf dim) dim dom code i (d.mid coords[a] coords[b])
        (d.avg (metrics[a]'(by omega)) (metrics[b]'(by omega))) = some q ∧
      ∃ vs, sideVerts (mesh.vertsOf dim) dim dom code i = some vs ∧ vs.length = dim ∧ ∀ v ∈ vs, v < coords.length := by
    intro ed i
    by_cases hh : ed ∈ List.range' lo (hi - lo) ∧ i < 2
    · obtain ⟨hed, hi2⟩ := hh
      rw [List.mem_range'_1] at hed
      obtain ⟨dom, code, N, n1, n2, n3, n4, n5, n6⟩ := h8 ed hed.1 (by omega)
      obtain ⟨vs, v1, v2, v3⟩ := sideVerts_total hdim n3 n5 n6 hi2
      obtain ⟨q, hq⟩ := half_total (d := d) (coords := coords) (metrics := metrics) hdim (d.mid coords[a] coords[b])
        (d.avg (metrics[a]'(by omega)) (metrics[b]'(by omega))) v1 v2
        (fun v hv => ⟨n4 v (v3 v hv), by have := n4 v (v3 v hv); omega⟩)
      exact ⟨q, fun _ _ => ⟨dom, code, n1, n2, hq, vs, v1, v2, fun v hv => n4 v (v3 v hv)⟩⟩
    · exact ⟨one, fun u v => absurd ⟨u, v⟩ hh⟩
  choose Q hQ using hex
  refine ⟨Q, ?_, ?_⟩
  · unfold splitQuality
    rw [hc, Option.bind_some, h1, Option.bind_some, h2, Option.bind_some, ep, Option.bind_some, eq, Option.bind_some, hmid, Option.bind_some,
      ef, Option.bind_some]
    rw [mapM_map (List.range' lo (hi - lo)) _ (fun ed => [Q ed 0, Q ed 1]) (by
      intro ed hed
      obtain ⟨dom, code, n1, n2, n3, _⟩ := hQ ed 0 hed (by omega)
      obtain ⟨dom', code', m1, m2, m3, _⟩ := hQ ed 1 hed (by omega)
      obtain rfl := Option.some.inj (n1.symm.trans m1)
      obtain rfl := Option.some.inj (n2.symm.trans m2)
      rw [n1, Option.bind_some, n2, Option.bind_some, n3, Option.bind_some, m3]; rfl)]
    rw [Option.map_some, List.flatMap_def]
  · intro ed hed
    obtain ⟨dom, code, n1, n2, n3, n4⟩ := hQ ed 0 hed (by omega)
    obtain ⟨dom', code', m1, m2, m3, m4⟩ := hQ ed 1 hed (by omega)
    obtain rfl := Option.some.inj (n1.symm.trans m1)
    obtain rfl := Option.some.inj (n2.symm.trans m2)
    refine ⟨dom, code, n1, n2, ?_⟩
    intro i hi2
    rcases (show i = 0 ∨ i = 1 by omega) with rfl | rfl
    · exact ⟨n3, n4⟩
    · exact ⟨m3, m4⟩

theorem midMetrics_spec (s : Sched) (d : QualData K V M) (metrics : List M) (ev2v cands : List Nat)
    (h : ∀ c e : Nat, cands[c]? = some e → ∃ (a b : Nat) (x y : M), ev2v[e * 2]? = some a ∧ ev2v[e * 2 + 1]? = some b ∧ metrics[a]? = some x ∧
      metrics[b]? = some y) :
    ∃ out, midMetrics s d metrics ev2v cands = some out ∧ out.length = cands.length ∧
      ∀ (c e a b : Nat) (x y : M), cands[c]? = some e → ev2v[e * 2]? = some a → ev2v[e * 2 + 1]? = some b → metrics[a]? = some x →
        metrics[b]? = some y → out[c]? = some (d.avg x y) := by
  obtain ⟨out, h1, h2, h3⟩ := parEach s cands.length (fun a => (cands[a]?).bind (fun e => (ev2v[e * 2]?).bind (fun v =>
      (ev2v[e * 2 + 1]?).bind (fun w => (metrics[v]?).bind (fun m => (metrics[w]?).map (fun n => d.avg m n)))))) (by
    intro i hi
    have e1 := List.getElem?_eq_getElem hi
    obtain ⟨a, b, x, y, q1, q2, q3, q4⟩ := h i _ e1
    rw [e1, Option.bind_some, q1, Option.bind_some, q2, Option.bind_some, q3, Option.bind_some, q4]; rfl)
  refine ⟨out, h1, h2, ?_⟩
  intro c e a b x y q0 q1 q2 q3 q4
  rw [h3 c (List.getElem?_eq_some_iff.1 q0).1, q0, Option.bind_some, q1, Option.bind_some, q2, Option.bind_some, q3, Option.bind_some, q4]; rfl

end OmegaH
