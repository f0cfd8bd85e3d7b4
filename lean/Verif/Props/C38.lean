import Verif.Model.Swap2d
import Verif.Lemmas.Blocks
import Verif.Lemmas.Rows
import Verif.Props.C36
/-!
# C38 — swapping an edge in 2D
-/
namespace OmegaH
open Spec

/-- The triangle listed as `row`, read from the edge with the upward code `8 w + 2 r`: the code places
`a` and `b` at the edge's ends, and the vertex opposite to it is `o`. -/
def Spec.TriOnEdge (row : List Nat) (w r a b o : Nat) : Prop :=
  w < 3 ∧ r < 2 ∧ row.length = 3 ∧
  row[(simplexDownTemplate 2 1 w (r : Int)).toNat]? = some a ∧
  row[(simplexDownTemplate 2 1 w ((1 - r : Nat) : Int)).toNat]? = some b ∧
  (∀ x ∈ row, x = a ∨ x = b ∨ x = o) ∧ [a, b, o].Nodup ∧ o ∈ row

/-- A triangle on the edge is `a b o` when the edge runs along it and `b a o` when it runs against it, and
the opposite-vertex table finds `o`. -/
theorem triOnEdge_spec {row : List Nat} {w r a b o : Nat} (h : TriOnEdge row w r a b o) :
    0 ≤ simplexOppositeTemplate 2 1 w ∧ row[(simplexOppositeTemplate 2 1 w).toNat]? = some o ∧
    SameChain [row] [if r = 0 then [a, b, o] else [b, a, o]] := by
  obtain ⟨hw, hr, hl, ha, hb, hall, hnd, ho⟩ := h
  obtain ⟨x, y, z, rfl⟩ : ∃ x y z, row = [x, y, z] := by
    match row, hl with
    | [x, y, z], _ => exact ⟨x, y, z, rfl⟩
  have key : ∀ p ∈ [[0, 1, 2], [1, 2, 0], [2, 0, 1]],
      SameChain [[x, y, z]] [p.map (naming [x, y, z])] := by
    intro p hp
    have h0 : sameChainB [[0, 1, 2]] [p] = true := by
      revert p; decide +kernel
    have := SameChain_map (sameChain_of_check h0) (naming [x, y, z])
    simpa [naming_get (L := [x, y, z]) (i := 0) rfl, naming_get (L := [x, y, z]) (i := 1) rfl,
      naming_get (L := [x, y, z]) (i := 2) rfl] using this
  have n0 : naming [x, y, z] 0 = x := naming_get rfl
  have n1 : naming [x, y, z] 1 = y := naming_get rfl
  have n2 : naming [x, y, z] 2 = z := naming_get rfl
  have k0 := key [0, 1, 2] (by simp)
  have k1 := key [1, 2, 0] (by simp)
  have k2 := key [2, 0, 1] (by simp)
  simp only [List.map_cons, List.map_nil, n0, n1, n2] at k0 k1 k2
  have hx := hall x (by simp)
  have hy := hall y (by simp)
  have hz := hall z (by simp)
  simp only [List.mem_cons, List.not_mem_nil, or_false] at ho
  simp only [List.nodup_cons, List.mem_cons, List.not_mem_nil, or_false, not_or, not_false_eq_true,
    List.nodup_nil, and_true] at hnd
  rcases (show w = 0 ∨ w = 1 ∨ w = 2 by omega) with rfl | rfl | rfl <;>
  rcases (show r = 0 ∨ r = 1 by omega) with rfl | rfl <;>
  simp [simplexDownTemplate] at ha hb <;> subst ha <;> subst hb <;>
  simp [simplexOppositeTemplate]
  all_goals
    first
    | (obtain rfl : z = o := by omega
       first | exact ⟨rfl, k0⟩ | exact ⟨rfl, k1⟩ | exact ⟨rfl, k2⟩)
    | (obtain rfl : x = o := by omega
       first | exact ⟨rfl, k0⟩ | exact ⟨rfl, k1⟩ | exact ⟨rfl, k2⟩)
    | (obtain rfl : y = o := by omega
       first | exact ⟨rfl, k0⟩ | exact ⟨rfl, k1⟩ | exact ⟨rfl, k2⟩)


theorem row3_get {tv2v : List Nat} {t i v : Nat} (hi : i < 3) (h : (row tv2v 3 t)[i]? = some v) :
    tv2v[t * 3 + i]? = some v := by
  rw [row_get tv2v t hi] at h; exact h

theorem opp_lt : ∀ w : Nat, w < 3 → (simplexOppositeTemplate 2 1 (w : Int)).toNat < 3 := by
  intro w hw
  rcases (show w = 0 ∨ w = 1 ∨ w = 2 by omega) with rfl | rfl | rfl <;> decide

theorem swap2dOpposite_spec {e2et et2t : List Nat} {codes : List Int} {tv2v : List Nat} {e i lo w r t a b o : Nat}
    (ov : List Int) (h0 : e2et[e]? = some lo)
    (h1 : codes[lo + i]? = some (8 * (w : Int) + 2 * (r : Int))) (h2 : et2t[lo + i]? = some t)
    (h3 : TriOnEdge (row tv2v 3 t) w r a b o) :
    swap2dOpposite e2et et2t codes tv2v e ov i = some (ov.set r (o : Int)) := by
  obtain ⟨s1, s2, _⟩ := triOnEdge_spec h3
  obtain ⟨f1, f2⟩ := edgeCode_fields w r h3.2.1
  unfold swap2dOpposite
  rw [h0]
  simp only [bind, Option.bind_some]
  rw [h1]
  simp only [Option.bind_some]
  rw [h2]
  simp only [Option.bind_some, f1, f2]
  rw [if_pos s1, row3_get (opp_lt w h3.1) s2]
  simp only [Option.bind_some]
  rw [if_pos (by have := h3.2.1; omega), Int.toNat_natCast]

/-- **C38, one edge.** The edge from `a` to `b` lies in two triangles, one with vertices `a b x` in
this order up to rotation, the other `b a y`. Their list positions and local numberings are free. The new edge is
`x y`, and the new triangles `b x y` and `a y x` have the oriented boundary of the old ones. -/
theorem C38_swap_edge (e2et et2t : List Nat) (codes : List Int) (tv2v ev2v : List Nat)
    (e lo w0 r0 w1 r1 t0 t1 a b o0 o1 : Nat) (hlo : e2et[e]? = some lo)
    (hc0 : codes[lo]? = some (8 * (w0 : Int) + 2 * (r0 : Int))) (ht0 : et2t[lo]? = some t0)
    (hc1 : codes[lo + 1]? = some (8 * (w1 : Int) + 2 * (r1 : Int))) (ht1 : et2t[lo + 1]? = some t1)
    (h0 : TriOnEdge (row tv2v 3 t0) w0 r0 a b o0) (h1 : TriOnEdge (row tv2v 3 t1) w1 r1 a b o1)
    (hr : r0 ≠ r1) (ha : ev2v[e * 2]? = some a) (hb : ev2v[e * 2 + 1]? = some b) :
    ∃ x y : Nat, (x, y) = (if r0 = 0 then (o0, o1) else (o1, o0)) ∧
      swap2dKey e2et et2t codes tv2v ev2v e =
        some ([(x : Int), (y : Int)], [[(b : Int), (x : Int), (y : Int)], [(a : Int), (y : Int), (x : Int)]]) ∧
      SameBoundary [row tv2v 3 t0, row tv2v 3 t1] [[b, x, y], [a, y, x]] := by
  have hb0 : SameBoundary [row tv2v 3 t0] [if r0 = 0 then [a, b, o0] else [b, a, o0]] :=
    SameBoundary_of_sameChain (triOnEdge_spec h0).2.2
  have hb1 : SameBoundary [row tv2v 3 t1] [if r1 = 0 then [a, b, o1] else [b, a, o1]] :=
    SameBoundary_of_sameChain (triOnEdge_spec h1).2.2
  have hboth := SameBoundary_append hb0 hb1
  have chk : ∀ x y : Nat, SameBoundary [[a, b, x], [b, a, y]] [[b, x, y], [a, y, x]] := by
    intro x y
    have := SameBoundary_map (sameBoundary_of_check
      (show sameBoundaryB [[0, 1, 2], [1, 0, 3]] [[1, 2, 3], [0, 3, 2]] = true by decide +kernel))
      (naming [a, b, x, y])
    simpa [naming_get (L := [a, b, x, y]) (i := 0) rfl, naming_get (L := [a, b, x, y]) (i := 1) rfl,
      naming_get (L := [a, b, x, y]) (i := 2) rfl, naming_get (L := [a, b, x, y]) (i := 3) rfl] using this
  have hr0 := h0.2.1
  have hr1 := h1.2.1
  have run : swap2dKey e2et et2t codes tv2v ev2v e = (do
      let ov := (([-42, -42] : List Int).set r0 (o0 : Int)).set r1 (o1 : Int)
      let x ← ov[0]?
      let y ← ov[1]?
      pure (ov, [[(b : Int), x, y], [(a : Int), y, x]])) := by
    unfold swap2dKey
    rw [swap2dOpposite_spec [-42, -42] hlo (i := 0) hc0 ht0 h0]
    simp only [bind, Option.bind_some]
    rw [swap2dOpposite_spec _ hlo hc1 ht1 h1]
    simp only [Option.bind_some, Nat.add_zero]
    rw [ha, hb]
    rfl
  rcases (show r0 = 0 ∨ r0 = 1 by omega) with rfl | rfl
  · obtain rfl : r1 = 1 := by omega
    exact ⟨o0, o1, rfl, by rw [run]; rfl, SameBoundary_trans hboth (chk o0 o1)⟩
  · obtain rfl : r1 = 0 := by omega
    refine ⟨o1, o0, rfl, by rw [run]; rfl, SameBoundary_trans hboth ?_⟩
    exact SameBoundary_trans (SameBoundary_of_perm (List.Perm.swap _ _ _)) (chk o1 o0)

/-- **C38, all keys.** The arrays hold the new edge and the two new triangles of every key, in the order of
the keys, on every schedule. -/
theorem C38_swap_arrays (s : Sched) (keys2edges e2et et2t : List Nat) (codes : List Int)
    (tv2v ev2v : List Nat) (X Y A B : Nat → Nat)
    (h : ∀ k e, keys2edges[k]? = some e → swap2dKey e2et et2t codes tv2v ev2v e =
      some ([(X k : Int), (Y k : Int)], [[(B k : Int), (X k : Int), (Y k : Int)],
        [(A k : Int), (Y k : Int), (X k : Int)]])) :
    ∃ k2e k2t, swap2dTopology s keys2edges e2et et2t codes tv2v ev2v =
        some (k2e, k2t,
          (List.range keys2edges.length).flatMap (fun k => [(X k : Int), (Y k : Int)]),
          (List.range keys2edges.length).flatMap (fun k => [(B k : Int), (X k : Int), (Y k : Int),
            (A k : Int), (Y k : Int), (X k : Int)])) ∧
      (∀ k, k ≤ keys2edges.length → k2e[k]? = some (k : Int) ∧ k2t[k]? = some (2 * (k : Int))) := by
  have o2 : ∀ n, blockOff (fun k => [(X k : Int), (Y k : Int)]) n = n * 2 := by
    intro n
    induction n with
    | zero => rfl
    | succ n ih => rw [blockOff_succ, ih, Nat.succ_mul]; rfl
  have o6 : ∀ n, blockOff (fun k => [(B k : Int), (X k : Int), (Y k : Int),
            (A k : Int), (Y k : Int), (X k : Int)]) n = n * 2 * 3 := by
    intro n
    induction n with
    | zero => rfl
    | succ n ih => rw [blockOff_succ, ih]; simp; omega
  refine ⟨(List.range (keys2edges.length + 1)).map (fun i : Nat => 0 + (i : Int) * 1),
    (List.range (keys2edges.length + 1)).map (fun i : Nat => 0 + (i : Int) * 2), ?_, ?_⟩
  · unfold swap2dTopology
    simp only [Mem.filled_eq]
    have p1 := parConcat_onto s keys2edges.length (fun k => [(X k : Int), (Y k : Int)])
      (List.replicate (keys2edges.length * 1 * 2) (-42)) (fun key => do
        let e ← keys2edges[key]?
        let p ← swap2dKey e2et et2t codes tv2v ev2v e
        pure (blockWrites (key * 2) p.1)) (by rw [List.length_replicate, o2]; omega) (by
      intro k hk
      have ek := List.getElem?_eq_getElem hk
      simp only [ek, bind, Option.bind_some, h k _ ek, o2]
      rfl)
    have p2 := parConcat_onto s keys2edges.length (fun k => [(B k : Int), (X k : Int), (Y k : Int),
            (A k : Int), (Y k : Int), (X k : Int)])
      (List.replicate (keys2edges.length * 2 * 3) (-42)) (fun key => do
        let e ← keys2edges[key]?
        let p ← swap2dKey e2et et2t codes tv2v ev2v e
        pure (blockWrites (key * 2 * 3) p.2.flatten)) (by rw [List.length_replicate, o6]) (by
      intro k hk
      have ek := List.getElem?_eq_getElem hk
      simp only [ek, bind, Option.bind_some, h k _ ek, o6]
      rfl)
    simp only [bind] at p1 p2 ⊢
    rw [p1]
    simp only [Option.bind_some]
    rw [p2]
    rfl
  · intro k hk
    rw [List.getElem?_map, List.getElem?_map, List.getElem?_range (by omega)]
    exact ⟨congrArg some (show 0 + (k : Int) * 1 = k by omega),
      congrArg some (show 0 + (k : Int) * 2 = 2 * k by omega)⟩

/-! ## Concrete swaps -/

-- the diagonal 0 2 of the square 0 1 2 3 becomes 3 1: here the edge runs against its first triangle 0 1 2
example : swap2dTopology .reversed [1] [0, 1, 3, 4, 5, 6] [0, 0, 1, 1, 0, 1] [0, 18, 16, 10, 8, 0]
    [0, 1, 2, 2, 3, 0] [0, 1, 0, 2, 0, 3, 1, 2, 2, 3] =
    some ([0, 1], [0, 2], [3, 1], [2, 3, 1, 0, 1, 3]) := by decide +kernel

-- the hypotheses of the theorem hold for it
example : TriOnEdge (row [0, 1, 2, 2, 3, 0] 3 0) 2 1 0 2 1 ∧ TriOnEdge (row [0, 1, 2, 2, 3, 0] 3 1) 2 0 0 2 3 := by
  unfold TriOnEdge; decide

-- two triangles on the same side of the edge: one opposite vertex is never set and -42 is stored
example : swap2dKey [0, 2] [0, 1] [0, 0] [0, 1, 2, 0, 1, 3] [0, 1] 0 =
    some ([3, -42], [[1, 3, -42], [0, -42, 3]]) := by decide +kernel

end OmegaH
