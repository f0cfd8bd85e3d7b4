import Verif.Model.Simplify
import Verif.Spec.Simplify
import Verif.Lemmas.Chain
import Verif.Lemmas.Rows
import Verif.Lemmas.Blocks
/-!
# C55: splitting quadrilaterals and hexahedra
-/
namespace OmegaH
open Spec

/-! ## One hexahedron -/

/-- The rotations and the flip that bring corner `m` to the front lower left. -/
def hexNormal (v : List Nat) (m : Nat) : Option (List Nat) :=
  if 4 ≤ m then flipHex (rotToFirst (v.take 4) (m % 4) ++ rotToFirst (v.drop 4) (m % 4))
  else some (rotToFirst (v.take 4) (m % 4) ++ rotToFirst (v.drop 4) (m % 4))

/-- The diagonals into the far corner. -/
def hexDiags (v : List Nat) : Option (List Bool) :=
  hexBurFaces.mapM (fun f => (v[f.1]?).bind (fun a => (v[f.2.1]?).bind (fun b => (v[f.2.2.1]?).bind (fun c =>
      (v[f.2.2.2]?).map (fun d => minLt a c b d)))))

/-- The choice of the template. -/
def hexTetsBy (r : List Nat × List Bool) : Option (List (List Nat)) :=
  if r.2.countP id = 0 then fillTets r.1 hexTets0
  else if r.2.countP id = 1 then
    (lastDiag r.2 true).bind (fun f => (hexBurRotToRight r.1 f).bind (fun v => fillTets v hexTets1))
  else if r.2.countP id = 2 then
    (lastDiag r.2 false).bind (fun f => (hexBurRotToRight r.1 f).bind (fun v => fillTets v hexTets2))
  else fillTets r.1 hexTets3

theorem tetsOfHex_eq (v : List Nat) : tetsOfHex v = (findMin v 8).bind (fun m => (hexNormal v m).bind (fun w =>
    (hexDiags w).bind (fun ds => hexTetsBy (w, ds)))) := by
  unfold tetsOfHex tetsFromHex1
  rw [Option.bind_assoc]
  congr 1
  funext m
  rw [Option.bind_assoc]
  show (hexNormal v m).bind _ = _
  congr 1
  funext w
  show ((hexDiags w).map _).bind hexTetsBy = _
  rw [Option.bind_map]
  rfl

/-- The corners of the tets. -/
def hexPlan (m : Nat) (ds : List Bool) : Option (List (List Nat)) :=
  (hexNormal (List.range 8) m).bind (fun w => hexTetsBy (w, ds))

/-- All three diagonals. -/
def threeBools : List (List Bool) :=
  [[false, false, false], [false, false, true], [false, true, false], [false, true, true],
   [true, false, false], [true, false, true], [true, true, false], [true, true, true]]

theorem mem_threeBools (a b c : Bool) : [a, b, c] ∈ threeBools := by
  cases a <;> cases b <;> cases c <;> decide

section
variable (a0 a1 a2 a3 a4 a5 a6 a7 : Nat)

theorem burRot0 : hexBurRotNTimes [a0, a1, a2, a3, a4, a5, a6, a7] 0 = some [a0, a1, a2, a3, a4, a5, a6, a7] := by
  simp [hexBurRotNTimes, hexBurRing, rotNTimes, List.range, List.range.loop]
theorem burRot1 : hexBurRotNTimes [a0, a1, a2, a3, a4, a5, a6, a7] 1 = some [a0, a5, a4, a1, a7, a3, a6, a2] := by
  simp [hexBurRotNTimes, hexBurRing, rotNTimes, rotVerts, List.range, List.range.loop]
theorem burRot2 : hexBurRotNTimes [a0, a1, a2, a3, a4, a5, a6, a7] 2 = some [a0, a3, a7, a5, a2, a1, a6, a4] := by
  simp [hexBurRotNTimes, hexBurRing, rotNTimes, rotVerts, List.range, List.range.loop]

/-- The vertices are carried along by the templates. -/
theorem hexTetsBy_map (f : Nat → Nat) (a b c : Bool) :
    hexTetsBy ([f a0, f a1, f a2, f a3, f a4, f a5, f a6, f a7], [a, b, c]) =
      (hexTetsBy ([a0, a1, a2, a3, a4, a5, a6, a7], [a, b, c])).map (List.map (List.map f)) := by
  cases a <;> cases b <;> cases c <;>
    simp [hexTetsBy, lastDiag, hexBurRotToRight, burRot0, burRot1, burRot2, fillTets, hexTets0, hexTets1, hexTets2,
      hexTets3, List.range, List.range.loop]

set_option linter.unusedSimpArgs false

theorem hexNormal0 : hexNormal [a0, a1, a2, a3, a4, a5, a6, a7] 0 = some [a0, a1, a2, a3, a4, a5, a6, a7] := by
  simp [hexNormal, rotToFirst, rotNTimes, rotVerts, flipHex, hexFlipPairs, swapEntries]
theorem hexNormal1 : hexNormal [a0, a1, a2, a3, a4, a5, a6, a7] 1 = some [a1, a2, a3, a0, a5, a6, a7, a4] := by
  simp [hexNormal, rotToFirst, rotNTimes, rotVerts, flipHex, hexFlipPairs, swapEntries]
theorem hexNormal2 : hexNormal [a0, a1, a2, a3, a4, a5, a6, a7] 2 = some [a2, a3, a0, a1, a6, a7, a4, a5] := by
  simp [hexNormal, rotToFirst, rotNTimes, rotVerts, flipHex, hexFlipPairs, swapEntries]
theorem hexNormal3 : hexNormal [a0, a1, a2, a3, a4, a5, a6, a7] 3 = some [a3, a0, a1, a2, a7, a4, a5, a6] := by
  simp [hexNormal, rotToFirst, rotNTimes, rotVerts, flipHex, hexFlipPairs, swapEntries]
theorem hexNormal4 : hexNormal [a0, a1, a2, a3, a4, a5, a6, a7] 4 = some [a4, a7, a6, a5, a0, a3, a2, a1] := by
  simp [hexNormal, rotToFirst, rotNTimes, rotVerts, flipHex, hexFlipPairs, swapEntries]
theorem hexNormal5 : hexNormal [a0, a1, a2, a3, a4, a5, a6, a7] 5 = some [a5, a4, a7, a6, a1, a0, a3, a2] := by
  simp [hexNormal, rotToFirst, rotNTimes, rotVerts, flipHex, hexFlipPairs, swapEntries]
theorem hexNormal6 : hexNormal [a0, a1, a2, a3, a4, a5, a6, a7] 6 = some [a6, a5, a4, a7, a2, a1, a0, a3] := by
  simp [hexNormal, rotToFirst, rotNTimes, rotVerts, flipHex, hexFlipPairs, swapEntries]
theorem hexNormal7 : hexNormal [a0, a1, a2, a3, a4, a5, a6, a7] 7 = some [a7, a6, a5, a4, a3, a2, a1, a0] := by
  simp [hexNormal, rotToFirst, rotNTimes, rotVerts, flipHex, hexFlipPairs, swapEntries]

/-- The vertices are carried along by the rotations. -/
theorem hexNormal_some (m : Nat) (hm : m < 8) (f : Nat → Nat) : ∃ b0 b1 b2 b3 b4 b5 b6 b7,
    hexNormal [a0, a1, a2, a3, a4, a5, a6, a7] m = some [b0, b1, b2, b3, b4, b5, b6, b7] ∧
    hexNormal [f a0, f a1, f a2, f a3, f a4, f a5, f a6, f a7] m =
      some [f b0, f b1, f b2, f b3, f b4, f b5, f b6, f b7] := by
  have hm : m = 0 ∨ m = 1 ∨ m = 2 ∨ m = 3 ∨ m = 4 ∨ m = 5 ∨ m = 6 ∨ m = 7 := by omega
  rcases hm with rfl | rfl | rfl | rfl | rfl | rfl | rfl | rfl
  · exact ⟨_, _, _, _, _, _, _, _, hexNormal0 .., hexNormal0 ..⟩
  · exact ⟨_, _, _, _, _, _, _, _, hexNormal1 .., hexNormal1 ..⟩
  · exact ⟨_, _, _, _, _, _, _, _, hexNormal2 .., hexNormal2 ..⟩
  · exact ⟨_, _, _, _, _, _, _, _, hexNormal3 .., hexNormal3 ..⟩
  · exact ⟨_, _, _, _, _, _, _, _, hexNormal4 .., hexNormal4 ..⟩
  · exact ⟨_, _, _, _, _, _, _, _, hexNormal5 .., hexNormal5 ..⟩
  · exact ⟨_, _, _, _, _, _, _, _, hexNormal6 .., hexNormal6 ..⟩
  · exact ⟨_, _, _, _, _, _, _, _, hexNormal7 .., hexNormal7 ..⟩

/-- The vertices are carried along. -/
theorem hexPlan_map (f : Nat → Nat) (m : Nat) (hm : m < 8) (a b c : Bool) :
    (hexNormal [f 0, f 1, f 2, f 3, f 4, f 5, f 6, f 7] m).bind (fun w => hexTetsBy (w, [a, b, c])) =
      (hexPlan m [a, b, c]).map (List.map (List.map f)) := by
  unfold hexPlan
  obtain ⟨b0, b1, b2, b3, b4, b5, b6, b7, h1, h2⟩ := hexNormal_some 0 1 2 3 4 5 6 7 m hm f
  rw [show List.range 8 = [0, 1, 2, 3, 4, 5, 6, 7] from rfl, h1, h2]
  exact hexTetsBy_map _ _ _ _ _ _ _ _ f a b c
end

/-- How side `f` is cut, by its corners. -/
def cutBy (f : List Nat) (flag : Bool) : List (List Nat) :=
  match f with
  | [a, b, c, d] => if flag then [[a, b, c], [a, c, d]] else [[b, c, d], [b, d, a]]
  | _ => []

/-- Which diagonal of side `f` the smallest vertex is on, from the corner of the smallest vertex of all and the
diagonals of the far sides. -/
def sideFlag (m : Nat) (ds : List Bool) (f : List Nat) : Bool :=
  match f with
  | [a, b, c, d] =>
    if m = a ∨ m = c then true
    else if m = b ∨ m = d then false
    else
      let far := farSides.getD m []
      let k := far.findIdx (fun g => g.contains a && g.contains b && g.contains c)
      let g := far.getD k []
      if g.head? = some a ∨ g.head? = some c then ds.getD k false else !(ds.getD k false)
  | _ => false

/-- The table: the boundary of the tets, and their volumes. -/
theorem hex_table : (List.range 8).all (fun m => threeBools.all (fun ds =>
    match hexPlan m ds with
    | none => false
    | some T => T.all (fun t => t.length == 4 && t.all (fun i => decide (i < 8))) &&
      (if ds[1]? = ds[2]? then
        (normTerms (T.flatMap bdTerms ++ negTerms ((hexSides.flatMap (fun f => cutBy f (sideFlag m ds f))).map
          (fun σ => (1, σ))))).all (fun t => t.1 == 0) &&
        T.all (fun t => decide (0 < tetVolume (fun i => (cubeVertex.getD i []).map Int.ofNat) t)) &&
        (T.map (tetVolume (fun i => (cubeVertex.getD i []).map Int.ofNat))).sum == 6
      else
        T.any (fun t => decide (tetVolume (fun i => (cubeVertex.getD i []).map Int.ofNat) t ≤ 0))))) = true := by
  decide +kernel

/-- The loop finds the smallest vertex. -/
theorem findMin_spec (v : List Nat) (hv : v ≠ []) :
    ∃ m x, findMin v v.length = some m ∧ v[m]? = some x ∧ ∀ y ∈ v, x ≤ y := by
  obtain ⟨v0, w, rfl⟩ := List.exists_cons_of_ne_nil hv
  have key : ∀ k, k ≤ w.length → ∃ m x, (List.range' 1 k).foldlM (fun (m : Nat × Nat) i =>
      ((v0 :: w)[i]?).map (fun x => if x < m.2 then (i, x) else m)) (0, v0) = some (m, x) ∧
      (v0 :: w)[m]? = some x ∧ ∀ j y, j ≤ k → (v0 :: w)[j]? = some y → x ≤ y := by
    intro k
    induction k with
    | zero =>
      intro _
      refine ⟨0, v0, rfl, rfl, fun j y hj hy => ?_⟩
      obtain rfl : j = 0 := by omega
      cases hy
      exact Nat.le_refl _
    | succ k ih =>
      intro hk
      obtain ⟨m, x, h1, h2, h3⟩ := ih (by omega)
      have hlt : 1 + k < (v0 :: w).length := by simp; omega
      rw [List.range'_1_concat, List.foldlM_append, h1]
      simp only [Option.bind_eq_bind, Option.bind_some, List.foldlM_cons, List.foldlM_nil,
        List.getElem?_eq_getElem hlt, Option.map_some]
      by_cases hx : (v0 :: w)[1 + k] < x
      · rw [if_pos hx]
        refine ⟨_, _, rfl, List.getElem?_eq_getElem hlt, fun j y hj hy => ?_⟩
        rcases Nat.lt_or_ge k j with h | h
        · obtain rfl : j = 1 + k := by omega
          rw [List.getElem?_eq_getElem hlt] at hy
          cases hy
          exact Nat.le_refl _
        · exact Nat.le_trans (Nat.le_of_lt hx) (h3 j y h hy)
      · rw [if_neg hx]
        refine ⟨_, _, rfl, h2, fun j y hj hy => ?_⟩
        rcases Nat.lt_or_ge k j with h | h
        · obtain rfl : j = 1 + k := by omega
          rw [List.getElem?_eq_getElem hlt] at hy
          cases hy
          omega
        · exact h3 j y h hy
  obtain ⟨m, x, h1, h2, h3⟩ := key w.length (Nat.le_refl _)
  refine ⟨m, x, ?_, h2, fun y hy => ?_⟩
  · unfold findMin
    simp only [List.getElem?_cons_zero, Option.bind_some, List.length_cons, Nat.add_sub_cancel, h1, Option.map_some]
  · obtain ⟨j, hj⟩ := List.mem_iff_getElem?.1 hy
    refine h3 j y ?_ hj
    have := (List.getElem?_eq_some_iff.1 hj).1
    simp at this
    omega

theorem list8 {v : List Nat} (h : v.length = 8) : ∃ f : Nat → Nat, v = [f 0, f 1, f 2, f 3, f 4, f 5, f 6, f 7] := by
  match v, h with
  | [a0, a1, a2, a3, a4, a5, a6, a7], _ => exact ⟨fun i => [a0, a1, a2, a3, a4, a5, a6, a7].getD i 0, rfl⟩

/-- What the loop does on one hexahedron. -/
theorem tetsOfHex_run (f : Nat → Nat) : ∃ m, m < 8 ∧ (∀ i, i < 8 → f m ≤ f i) ∧ ∃ r s t,
    farSides[m]? = some [r, s, t] ∧ ∃ d0 d1 d2 : Bool,
    ((d0 = true ↔ CutFromFirst [f 0, f 1, f 2, f 3, f 4, f 5, f 6, f 7] r) ∧
     (d1 = true ↔ CutFromFirst [f 0, f 1, f 2, f 3, f 4, f 5, f 6, f 7] s) ∧
     (d2 = true ↔ CutFromFirst [f 0, f 1, f 2, f 3, f 4, f 5, f 6, f 7] t)) ∧
    tetsOfHex [f 0, f 1, f 2, f 3, f 4, f 5, f 6, f 7] = (hexPlan m [d0, d1, d2]).map (List.map (List.map f)) := by
  obtain ⟨m, x, h1, h2, h3⟩ := findMin_spec [f 0, f 1, f 2, f 3, f 4, f 5, f 6, f 7] (by simp)
  have hm : m < 8 := (List.getElem?_eq_some_iff.1 h2).1
  have hfm : f m = x := by
    have hm' : m = 0 ∨ m = 1 ∨ m = 2 ∨ m = 3 ∨ m = 4 ∨ m = 5 ∨ m = 6 ∨ m = 7 := by omega
    rcases hm' with rfl | rfl | rfl | rfl | rfl | rfl | rfl | rfl <;> exact Option.some.inj h2
  have hmin : ∀ i, i < 8 → f m ≤ f i := by
    intro i hi
    rw [hfm]
    apply h3
    have hi' : i = 0 ∨ i = 1 ∨ i = 2 ∨ i = 3 ∨ i = 4 ∨ i = 5 ∨ i = 6 ∨ i = 7 := by omega
    rcases hi' with rfl | rfl | rfl | rfl | rfl | rfl | rfl | rfl <;> simp
  refine ⟨m, hm, hmin, ?_⟩
  have h1 : findMin [f 0, f 1, f 2, f 3, f 4, f 5, f 6, f 7] 8 = some m := h1
  rw [tetsOfHex_eq, h1, Option.bind_some]
  have key : ∀ d0 d1 d2, ((hexNormal [f 0, f 1, f 2, f 3, f 4, f 5, f 6, f 7] m).bind hexDiags = some [d0, d1, d2]) →
      ((hexNormal [f 0, f 1, f 2, f 3, f 4, f 5, f 6, f 7] m).bind (fun w =>
        (hexDiags w).bind (fun ds => hexTetsBy (w, ds)))) = (hexPlan m [d0, d1, d2]).map (List.map (List.map f)) := by
    intro d0 d1 d2 h
    rw [← hexPlan_map f m hm]
    cases hn : hexNormal [f 0, f 1, f 2, f 3, f 4, f 5, f 6, f 7] m with
    | none => rfl
    | some w =>
      rw [hn] at h
      have h : hexDiags w = some [d0, d1, d2] := h
      simp only [Option.bind_some, h]
  have hm' : m = 0 ∨ m = 1 ∨ m = 2 ∨ m = 3 ∨ m = 4 ∨ m = 5 ∨ m = 6 ∨ m = 7 := by omega
  rcases hm' with rfl | rfl | rfl | rfl | rfl | rfl | rfl | rfl
  · refine ⟨_, _, _, rfl, _, _, _, ?_, key _ _ _ (by rw [hexNormal0]; rfl)⟩
    exact ⟨decide_eq_true_iff, decide_eq_true_iff, decide_eq_true_iff⟩
  · refine ⟨_, _, _, rfl, _, _, _, ?_, key _ _ _ (by rw [hexNormal1]; rfl)⟩
    exact ⟨decide_eq_true_iff, decide_eq_true_iff, decide_eq_true_iff⟩
  · refine ⟨_, _, _, rfl, _, _, _, ?_, key _ _ _ (by rw [hexNormal2]; rfl)⟩
    exact ⟨decide_eq_true_iff, decide_eq_true_iff, decide_eq_true_iff⟩
  · refine ⟨_, _, _, rfl, _, _, _, ?_, key _ _ _ (by rw [hexNormal3]; rfl)⟩
    exact ⟨decide_eq_true_iff, decide_eq_true_iff, decide_eq_true_iff⟩
  · refine ⟨_, _, _, rfl, _, _, _, ?_, key _ _ _ (by rw [hexNormal4]; rfl)⟩
    exact ⟨decide_eq_true_iff, decide_eq_true_iff, decide_eq_true_iff⟩
  · refine ⟨_, _, _, rfl, _, _, _, ?_, key _ _ _ (by rw [hexNormal5]; rfl)⟩
    exact ⟨decide_eq_true_iff, decide_eq_true_iff, decide_eq_true_iff⟩
  · refine ⟨_, _, _, rfl, _, _, _, ?_, key _ _ _ (by rw [hexNormal6]; rfl)⟩
    exact ⟨decide_eq_true_iff, decide_eq_true_iff, decide_eq_true_iff⟩
  · refine ⟨_, _, _, rfl, _, _, _, ?_, key _ _ _ (by rw [hexNormal7]; rfl)⟩
    exact ⟨decide_eq_true_iff, decide_eq_true_iff, decide_eq_true_iff⟩

theorem cut_first {a b c d : Nat} (h1 : a ≤ b) (h2 : a ≤ d) (n1 : a ≠ b) (n2 : a ≠ d) : min a c < min b d := by omega
theorem cut_third {a b c d : Nat} (h1 : c ≤ b) (h2 : c ≤ d) (n1 : c ≠ b) (n2 : c ≠ d) : min a c < min b d := by omega
theorem cut_second {a b c d : Nat} (h1 : b ≤ a) (h2 : b ≤ c) : ¬ min a c < min b d := by omega
theorem cut_fourth {a b c d : Nat} (h1 : d ≤ a) (h2 : d ≤ c) : ¬ min a c < min b d := by omega
theorem cut_same {x y z w a b c d : Nat} (h1 : min x z = min a c) (h2 : min y w = min b d) :
    min x z < min y w ↔ min a c < min b d := by rw [h1, h2]
theorem cut_flip {x y z w a b c d : Nat} {flag : Bool} (h : flag = true ↔ min x z < min y w) (h1 : min x z = min b d)
    (h2 : min y w = min a c) (n1 : x ≠ y) (n2 : x ≠ w) (n3 : z ≠ y) (n4 : z ≠ w) :
    (!flag) = true ↔ min a c < min b d := by
  cases flag with
  | true => have := h.1 rfl; simp only [Bool.not_true, Bool.false_eq_true, false_iff]; omega
  | false =>
    have : ¬ min x z < min y w := fun k => by cases h.2 k
    simp only [Bool.not_false, true_iff]; omega

/-- The sides are cut as the table says. -/
theorem sides_cut (f : Nat → Nat) (hf : ∀ i j, i < 8 → j < 8 → f i = f j → i = j) {m : Nat} (hm : m < 8)
    (hmin : ∀ i, i < 8 → f m ≤ f i) {r s t : List Nat} (hfar : farSides[m]? = some [r, s, t]) {d0 d1 d2 : Bool}
    (h0 : d0 = true ↔ CutFromFirst [f 0, f 1, f 2, f 3, f 4, f 5, f 6, f 7] r)
    (h1 : d1 = true ↔ CutFromFirst [f 0, f 1, f 2, f 3, f 4, f 5, f 6, f 7] s)
    (h2 : d2 = true ↔ CutFromFirst [f 0, f 1, f 2, f 3, f 4, f 5, f 6, f 7] t) :
    hexSides.flatMap (fun g => cutQuad (atCorners [f 0, f 1, f 2, f 3, f 4, f 5, f 6, f 7] g)) =
      (hexSides.flatMap (fun g => cutBy g (sideFlag m [d0, d1, d2] g))).map (List.map f) := by
  have hcut : ∀ a b c d : Nat, ∀ flag : Bool, (flag = true ↔ min (f a) (f c) < min (f b) (f d)) →
      cutQuad [f a, f b, f c, f d] = (cutBy [a, b, c, d] flag).map (List.map f) := by
    intro a b c d flag h
    cases flag with
    | true => exact if_pos (h.1 rfl)
    | false => exact if_neg (fun k => by cases h.2 k)
  have hne : ∀ i j, i < 8 → j < 8 → i ≠ j → f i ≠ f j := fun i j hi hj h k => h (hf i j hi hj k)
  show cutQuad [f 0, f 3, f 2, f 1] ++ (cutQuad [f 0, f 1, f 5, f 4] ++ (cutQuad [f 1, f 2, f 6, f 5] ++
    (cutQuad [f 2, f 3, f 7, f 6] ++ (cutQuad [f 3, f 0, f 4, f 7] ++ (cutQuad [f 4, f 5, f 6, f 7] ++ []))))) = _
  have hm' : m = 0 ∨ m = 1 ∨ m = 2 ∨ m = 3 ∨ m = 4 ∨ m = 5 ∨ m = 6 ∨ m = 7 := by omega
  rcases hm' with rfl | rfl | rfl | rfl | rfl | rfl | rfl | rfl
  · cases hfar
    have h0 : d0 = true ↔ min (f 6) (f 1) < min (f 5) (f 2) := h0
    have h1 : d1 = true ↔ min (f 6) (f 3) < min (f 2) (f 7) := h1
    have h2 : d2 = true ↔ min (f 6) (f 4) < min (f 7) (f 5) := h2
    have e0 := hcut 0 3 2 1 true (iff_of_true rfl (cut_first (hmin 3 (by decide)) (hmin 1 (by decide)) (hne 0 3 (by decide) (by decide) (by decide)) (hne 0 1 (by decide) (by decide) (by decide))))
    have e1 := hcut 0 1 5 4 true (iff_of_true rfl (cut_first (hmin 1 (by decide)) (hmin 4 (by decide)) (hne 0 1 (by decide) (by decide) (by decide)) (hne 0 4 (by decide) (by decide) (by decide))))
    have e2 := hcut 1 2 6 5 d0 (h0.trans (cut_same (by omega) (by omega)))
    have e3 := hcut 2 3 7 6 (!d1) (cut_flip h1 (by omega) (by omega) (hne 6 2 (by decide) (by decide) (by decide)) (hne 6 7 (by decide) (by decide) (by decide)) (hne 3 2 (by decide) (by decide) (by decide)) (hne 3 7 (by decide) (by decide) (by decide)))
    have e4 := hcut 3 0 4 7 false (iff_of_false Bool.false_ne_true (cut_second (hmin 3 (by decide)) (hmin 4 (by decide))))
    have e5 := hcut 4 5 6 7 d2 (h2.trans (cut_same (by omega) (by omega)))
    rw [e0, e1, e2, e3, e4, e5]
    simp only [hexSides, List.flatMap_cons, List.flatMap_nil, List.map_append, List.map_nil]
    rfl
  · cases hfar
    have h0 : d0 = true ↔ min (f 7) (f 2) < min (f 6) (f 3) := h0
    have h1 : d1 = true ↔ min (f 7) (f 0) < min (f 3) (f 4) := h1
    have h2 : d2 = true ↔ min (f 7) (f 5) < min (f 4) (f 6) := h2
    have e0 := hcut 0 3 2 1 false (iff_of_false Bool.false_ne_true (cut_fourth (hmin 0 (by decide)) (hmin 2 (by decide))))
    have e1 := hcut 0 1 5 4 false (iff_of_false Bool.false_ne_true (cut_second (hmin 0 (by decide)) (hmin 5 (by decide))))
    have e2 := hcut 1 2 6 5 true (iff_of_true rfl (cut_first (hmin 2 (by decide)) (hmin 5 (by decide)) (hne 1 2 (by decide) (by decide) (by decide)) (hne 1 5 (by decide) (by decide) (by decide))))
    have e3 := hcut 2 3 7 6 d0 (h0.trans (cut_same (by omega) (by omega)))
    have e4 := hcut 3 0 4 7 (!d1) (cut_flip h1 (by omega) (by omega) (hne 7 3 (by decide) (by decide) (by decide)) (hne 7 4 (by decide) (by decide) (by decide)) (hne 0 3 (by decide) (by decide) (by decide)) (hne 0 4 (by decide) (by decide) (by decide)))
    have e5 := hcut 4 5 6 7 (!d2) (cut_flip h2 (by omega) (by omega) (hne 7 4 (by decide) (by decide) (by decide)) (hne 7 6 (by decide) (by decide) (by decide)) (hne 5 4 (by decide) (by decide) (by decide)) (hne 5 6 (by decide) (by decide) (by decide)))
    rw [e0, e1, e2, e3, e4, e5]
    simp only [hexSides, List.flatMap_cons, List.flatMap_nil, List.map_append, List.map_nil]
    rfl
  · cases hfar
    have h0 : d0 = true ↔ min (f 4) (f 3) < min (f 7) (f 0) := h0
    have h1 : d1 = true ↔ min (f 4) (f 1) < min (f 0) (f 5) := h1
    have h2 : d2 = true ↔ min (f 4) (f 6) < min (f 5) (f 7) := h2
    have e0 := hcut 0 3 2 1 true (iff_of_true rfl (cut_third (hmin 3 (by decide)) (hmin 1 (by decide)) (hne 2 3 (by decide) (by decide) (by decide)) (hne 2 1 (by decide) (by decide) (by decide))))
    have e1 := hcut 0 1 5 4 (!d1) (cut_flip h1 (by omega) (by omega) (hne 4 0 (by decide) (by decide) (by decide)) (hne 4 5 (by decide) (by decide) (by decide)) (hne 1 0 (by decide) (by decide) (by decide)) (hne 1 5 (by decide) (by decide) (by decide)))
    have e2 := hcut 1 2 6 5 false (iff_of_false Bool.false_ne_true (cut_second (hmin 1 (by decide)) (hmin 6 (by decide))))
    have e3 := hcut 2 3 7 6 true (iff_of_true rfl (cut_first (hmin 3 (by decide)) (hmin 6 (by decide)) (hne 2 3 (by decide) (by decide) (by decide)) (hne 2 6 (by decide) (by decide) (by decide))))
    have e4 := hcut 3 0 4 7 d0 (h0.trans (cut_same (by omega) (by omega)))
    have e5 := hcut 4 5 6 7 d2 (h2.trans (cut_same (by omega) (by omega)))
    rw [e0, e1, e2, e3, e4, e5]
    simp only [hexSides, List.flatMap_cons, List.flatMap_nil, List.map_append, List.map_nil]
    rfl
  · cases hfar
    have h0 : d0 = true ↔ min (f 5) (f 0) < min (f 4) (f 1) := h0
    have h1 : d1 = true ↔ min (f 5) (f 2) < min (f 1) (f 6) := h1
    have h2 : d2 = true ↔ min (f 5) (f 7) < min (f 6) (f 4) := h2
    have e0 := hcut 0 3 2 1 false (iff_of_false Bool.false_ne_true (cut_second (hmin 0 (by decide)) (hmin 2 (by decide))))
    have e1 := hcut 0 1 5 4 d0 (h0.trans (cut_same (by omega) (by omega)))
    have e2 := hcut 1 2 6 5 (!d1) (cut_flip h1 (by omega) (by omega) (hne 5 1 (by decide) (by decide) (by decide)) (hne 5 6 (by decide) (by decide) (by decide)) (hne 2 1 (by decide) (by decide) (by decide)) (hne 2 6 (by decide) (by decide) (by decide)))
    have e3 := hcut 2 3 7 6 false (iff_of_false Bool.false_ne_true (cut_second (hmin 2 (by decide)) (hmin 7 (by decide))))
    have e4 := hcut 3 0 4 7 true (iff_of_true rfl (cut_first (hmin 0 (by decide)) (hmin 7 (by decide)) (hne 3 0 (by decide) (by decide) (by decide)) (hne 3 7 (by decide) (by decide) (by decide))))
    have e5 := hcut 4 5 6 7 (!d2) (cut_flip h2 (by omega) (by omega) (hne 5 6 (by decide) (by decide) (by decide)) (hne 5 4 (by decide) (by decide) (by decide)) (hne 7 6 (by decide) (by decide) (by decide)) (hne 7 4 (by decide) (by decide) (by decide)))
    rw [e0, e1, e2, e3, e4, e5]
    simp only [hexSides, List.flatMap_cons, List.flatMap_nil, List.map_append, List.map_nil]
    rfl
  · cases hfar
    have h0 : d0 = true ↔ min (f 2) (f 7) < min (f 3) (f 6) := h0
    have h1 : d1 = true ↔ min (f 2) (f 5) < min (f 6) (f 1) := h1
    have h2 : d2 = true ↔ min (f 2) (f 0) < min (f 1) (f 3) := h2
    have e0 := hcut 0 3 2 1 d2 (h2.trans (cut_same (by omega) (by omega)))
    have e1 := hcut 0 1 5 4 false (iff_of_false Bool.false_ne_true (cut_fourth (hmin 0 (by decide)) (hmin 5 (by decide))))
    have e2 := hcut 1 2 6 5 (!d1) (cut_flip h1 (by omega) (by omega) (hne 2 6 (by decide) (by decide) (by decide)) (hne 2 1 (by decide) (by decide) (by decide)) (hne 5 6 (by decide) (by decide) (by decide)) (hne 5 1 (by decide) (by decide) (by decide)))
    have e3 := hcut 2 3 7 6 d0 (h0.trans (cut_same (by omega) (by omega)))
    have e4 := hcut 3 0 4 7 true (iff_of_true rfl (cut_third (hmin 0 (by decide)) (hmin 7 (by decide)) (hne 4 0 (by decide) (by decide) (by decide)) (hne 4 7 (by decide) (by decide) (by decide))))
    have e5 := hcut 4 5 6 7 true (iff_of_true rfl (cut_first (hmin 5 (by decide)) (hmin 7 (by decide)) (hne 4 5 (by decide) (by decide) (by decide)) (hne 4 7 (by decide) (by decide) (by decide))))
    rw [e0, e1, e2, e3, e4, e5]
    simp only [hexSides, List.flatMap_cons, List.flatMap_nil, List.map_append, List.map_nil]
    rfl
  · cases hfar
    have h0 : d0 = true ↔ min (f 3) (f 4) < min (f 0) (f 7) := h0
    have h1 : d1 = true ↔ min (f 3) (f 6) < min (f 7) (f 2) := h1
    have h2 : d2 = true ↔ min (f 3) (f 1) < min (f 2) (f 0) := h2
    have e0 := hcut 0 3 2 1 (!d2) (cut_flip h2 (by omega) (by omega) (hne 3 2 (by decide) (by decide) (by decide)) (hne 3 0 (by decide) (by decide) (by decide)) (hne 1 2 (by decide) (by decide) (by decide)) (hne 1 0 (by decide) (by decide) (by decide)))
    have e1 := hcut 0 1 5 4 true (iff_of_true rfl (cut_third (hmin 1 (by decide)) (hmin 4 (by decide)) (hne 5 1 (by decide) (by decide) (by decide)) (hne 5 4 (by decide) (by decide) (by decide))))
    have e2 := hcut 1 2 6 5 false (iff_of_false Bool.false_ne_true (cut_fourth (hmin 1 (by decide)) (hmin 6 (by decide))))
    have e3 := hcut 2 3 7 6 (!d1) (cut_flip h1 (by omega) (by omega) (hne 3 7 (by decide) (by decide) (by decide)) (hne 3 2 (by decide) (by decide) (by decide)) (hne 6 7 (by decide) (by decide) (by decide)) (hne 6 2 (by decide) (by decide) (by decide)))
    have e4 := hcut 3 0 4 7 d0 (h0.trans (cut_same (by omega) (by omega)))
    have e5 := hcut 4 5 6 7 false (iff_of_false Bool.false_ne_true (cut_second (hmin 4 (by decide)) (hmin 6 (by decide))))
    rw [e0, e1, e2, e3, e4, e5]
    simp only [hexSides, List.flatMap_cons, List.flatMap_nil, List.map_append, List.map_nil]
    rfl
  · cases hfar
    have h0 : d0 = true ↔ min (f 0) (f 5) < min (f 1) (f 4) := h0
    have h1 : d1 = true ↔ min (f 0) (f 7) < min (f 4) (f 3) := h1
    have h2 : d2 = true ↔ min (f 0) (f 2) < min (f 3) (f 1) := h2
    have e0 := hcut 0 3 2 1 d2 (h2.trans (cut_same (by omega) (by omega)))
    have e1 := hcut 0 1 5 4 d0 (h0.trans (cut_same (by omega) (by omega)))
    have e2 := hcut 1 2 6 5 true (iff_of_true rfl (cut_third (hmin 2 (by decide)) (hmin 5 (by decide)) (hne 6 2 (by decide) (by decide) (by decide)) (hne 6 5 (by decide) (by decide) (by decide))))
    have e3 := hcut 2 3 7 6 false (iff_of_false Bool.false_ne_true (cut_fourth (hmin 2 (by decide)) (hmin 7 (by decide))))
    have e4 := hcut 3 0 4 7 (!d1) (cut_flip h1 (by omega) (by omega) (hne 0 4 (by decide) (by decide) (by decide)) (hne 0 3 (by decide) (by decide) (by decide)) (hne 7 4 (by decide) (by decide) (by decide)) (hne 7 3 (by decide) (by decide) (by decide)))
    have e5 := hcut 4 5 6 7 true (iff_of_true rfl (cut_third (hmin 5 (by decide)) (hmin 7 (by decide)) (hne 6 5 (by decide) (by decide) (by decide)) (hne 6 7 (by decide) (by decide) (by decide))))
    rw [e0, e1, e2, e3, e4, e5]
    simp only [hexSides, List.flatMap_cons, List.flatMap_nil, List.map_append, List.map_nil]
    rfl
  · cases hfar
    have h0 : d0 = true ↔ min (f 1) (f 6) < min (f 2) (f 5) := h0
    have h1 : d1 = true ↔ min (f 1) (f 4) < min (f 5) (f 0) := h1
    have h2 : d2 = true ↔ min (f 1) (f 3) < min (f 0) (f 2) := h2
    have e0 := hcut 0 3 2 1 (!d2) (cut_flip h2 (by omega) (by omega) (hne 1 0 (by decide) (by decide) (by decide)) (hne 1 2 (by decide) (by decide) (by decide)) (hne 3 0 (by decide) (by decide) (by decide)) (hne 3 2 (by decide) (by decide) (by decide)))
    have e1 := hcut 0 1 5 4 (!d1) (cut_flip h1 (by omega) (by omega) (hne 1 5 (by decide) (by decide) (by decide)) (hne 1 0 (by decide) (by decide) (by decide)) (hne 4 5 (by decide) (by decide) (by decide)) (hne 4 0 (by decide) (by decide) (by decide)))
    have e2 := hcut 1 2 6 5 d0 (h0.trans (cut_same (by omega) (by omega)))
    have e3 := hcut 2 3 7 6 true (iff_of_true rfl (cut_third (hmin 3 (by decide)) (hmin 6 (by decide)) (hne 7 3 (by decide) (by decide) (by decide)) (hne 7 6 (by decide) (by decide) (by decide))))
    have e4 := hcut 3 0 4 7 false (iff_of_false Bool.false_ne_true (cut_fourth (hmin 3 (by decide)) (hmin 4 (by decide))))
    have e5 := hcut 4 5 6 7 false (iff_of_false Bool.false_ne_true (cut_fourth (hmin 4 (by decide)) (hmin 6 (by decide))))
    rw [e0, e1, e2, e3, e4, e5]
    simp only [hexSides, List.flatMap_cons, List.flatMap_nil, List.map_append, List.map_nil]
    rfl

theorem boundaryIs_of_check {A B : List (List Nat)}
    (h : (normTerms (A.flatMap bdTerms ++ negTerms (B.map (fun σ => (1, σ))))).all (fun t => t.1 == 0) = true) :
    BoundaryIs A B := by
  intro φ hφ
  have := evalTerms_zero φ _ h
  rw [normTerms_eval hφ, evalTerms_append, negTerms_eval, evalTerms_flatMap] at this
  simp only [bdTerms_eval] at this
  have e : evalTerms φ (B.map (fun σ => (1, σ))) = (B.map φ).sum := by
    unfold evalTerms
    rw [List.map_map]
    congr 1
    apply List.map_congr_left
    intro σ _
    simp
  rw [e] at this
  have this : (A.map (boundary φ)).sum + -(B.map φ).sum = 0 := this
  omega

theorem boundaryIs_map {A B : List (List Nat)} (h : BoundaryIs A B) (v : Nat → Nat) :
    BoundaryIs (A.map (List.map v)) (B.map (List.map v)) := by
  intro φ hφ
  have := h _ (alternating_comp hφ v)
  simp only [List.map_map]
  rw [show ((boundary φ) ∘ (List.map v)) = boundary (fun σ => φ (σ.map v)) from
    funext (fun σ => by rw [Function.comp, boundary_map])]
  exact this

/-- The cube's corners as positions. -/
def cubePos (i : Nat) : List Int := (cubeVertex.getD i []).map Int.ofNat

theorem hex_table_get {m : Nat} (hm : m < 8) (d0 d1 d2 : Bool) : ∃ T, hexPlan m [d0, d1, d2] = some T ∧
    (∀ t ∈ T, t.length = 4 ∧ ∀ i ∈ t, i < 8) ∧
    (d1 = d2 → BoundaryIs T (hexSides.flatMap (fun f => cutBy f (sideFlag m [d0, d1, d2] f))) ∧
      (∀ t ∈ T, 0 < tetVolume cubePos t) ∧ (T.map (tetVolume cubePos)).sum = 6) ∧
    (d1 ≠ d2 → ∃ t ∈ T, tetVolume cubePos t ≤ 0) := by
  have h := List.all_eq_true.1 (List.all_eq_true.1 hex_table m (List.mem_range.2 hm)) _ (mem_threeBools d0 d1 d2)
  cases hT : hexPlan m [d0, d1, d2] with
  | none => rw [hT] at h; cases h
  | some T =>
    rw [hT] at h
    have h := Bool.and_eq_true_iff.1 h
    refine ⟨T, rfl, fun t ht => ?_, fun hd => ?_, fun hd => ?_⟩
    · have := Bool.and_eq_true_iff.1 (List.all_eq_true.1 h.1 t ht)
      exact ⟨by simpa using this.1, fun i hi => by simpa using List.all_eq_true.1 this.2 i hi⟩
    · have h2 := h.2
      rw [if_pos (by rw [hd]; rfl)] at h2
      have h2 := Bool.and_eq_true_iff.1 h2
      have h3 := Bool.and_eq_true_iff.1 h2.1
      exact ⟨boundaryIs_of_check h3.1, fun t ht => of_decide_eq_true (List.all_eq_true.1 h3.2 t ht), by
        have := h2.2
        exact of_decide_eq_true this⟩
    · have h2 := h.2
      rw [if_neg (by intro k; exact hd (Option.some.inj k))] at h2
      obtain ⟨t, ht, k⟩ := List.any_eq_true.1 h2
      exact ⟨t, ht, of_decide_eq_true k⟩

/-- The volume of a tet with the vertices at the given corners. -/
theorem tetVolume_map (f : Nat → Nat) (pos : Nat → List Int) (h : ∀ i, i < 8 → pos (f i) = cubePos i) (t : List Nat)
    (ht : t.length = 4 ∧ ∀ i ∈ t, i < 8) : tetVolume pos (t.map f) = tetVolume cubePos t := by
  match t, ht.1 with
  | [a, b, c, d], _ =>
    have := ht.2
    simp only [List.mem_cons, List.not_mem_nil, or_false, forall_eq_or_imp, forall_eq] at this
    obtain ⟨ha, hb, hc, hd⟩ := this
    show tripleProduct (pos (f a)) (pos (f b)) (pos (f c)) (pos (f d)) = _
    rw [h a ha, h b hb, h c hc, h d hd]
    rfl

/-- **Hexahedra**, exactly. For a hexahedron with eight different vertices, the smallest in corner `m`, tets are
made that subdivide it and cut its sides from their smallest vertices *if and only if* it is `Upright`; otherwise
some of the tets have no volume or are inverted.

Missing from the full property: hexahedra that are not upright, for which it fails; the table of corners by which
they should be turned is not a rotation. -/
theorem C55_hexes_partial (v : List Nat) (h8 : v.length = 8) (hv : v.Nodup) : ∃ m T, SmallestAt v m ∧
    tetsOfHex v = some T ∧ (SplitsHex v T ↔ Upright v m) := by
  obtain ⟨f, rfl⟩ := list8 h8
  have hinj : ∀ i j, i < 8 → j < 8 → f i = f j → i = j := by
    intro i j hi hj h
    have e : ∀ i, i < 8 → [f 0, f 1, f 2, f 3, f 4, f 5, f 6, f 7][i]? = some (f i) := by
      intro i hi
      have hi' : i = 0 ∨ i = 1 ∨ i = 2 ∨ i = 3 ∨ i = 4 ∨ i = 5 ∨ i = 6 ∨ i = 7 := by omega
      rcases hi' with rfl | rfl | rfl | rfl | rfl | rfl | rfl | rfl <;> rfl
    exact (List.getElem?_inj (by rw [h8]; exact hi) hv).1 (by rw [e i hi, e j hj, h])
  obtain ⟨m, hm, hmin, r, s, t, hfar, d0, d1, d2, ⟨h0, h1, h2⟩, hT⟩ := tetsOfHex_run f
  obtain ⟨T, p1, p2, p3, p4⟩ := hex_table_get hm d0 d1 d2
  rw [p1] at hT
  have hup : Upright [f 0, f 1, f 2, f 3, f 4, f 5, f 6, f 7] m ↔ d1 = d2 := by
    unfold Upright
    rw [hfar]
    constructor
    · rintro ⟨r', s', t', e, k⟩
      cases e
      rw [← h1, ← h2] at k
      cases d1 <;> cases d2 <;> simp_all
    · intro k
      exact ⟨r, s, t, rfl, by rw [← h1, ← h2, k]⟩
  refine ⟨m, _, ?_, hT, ?_⟩
  · refine ⟨f m, ?_, ?_⟩
    · have hm' : m = 0 ∨ m = 1 ∨ m = 2 ∨ m = 3 ∨ m = 4 ∨ m = 5 ∨ m = 6 ∨ m = 7 := by omega
      rcases hm' with rfl | rfl | rfl | rfl | rfl | rfl | rfl | rfl <;> rfl
    · intro y hy
      simp only [List.mem_cons, List.not_mem_nil, or_false] at hy
      rcases hy with rfl | rfl | rfl | rfl | rfl | rfl | rfl | rfl <;> exact hmin _ (by omega)
  · rw [hup]
    constructor
    · intro hs
      apply Classical.byContradiction
      intro hd
      obtain ⟨t, ht, k⟩ := p4 hd
      obtain ⟨pos, hpos⟩ : ∃ pos : Nat → List Int, ∀ i, i < 8 → pos (f i) = cubePos i := by
        refine ⟨fun y => if y = f 0 then cubePos 0 else if y = f 1 then cubePos 1 else
          if y = f 2 then cubePos 2 else if y = f 3 then cubePos 3 else if y = f 4 then cubePos 4 else
          if y = f 5 then cubePos 5 else if y = f 6 then cubePos 6 else cubePos 7, fun i hi => ?_⟩
        have hn : ∀ j, j < 8 → j ≠ i → f i ≠ f j := fun j hj h k => h (hinj j i hj hi k.symm)
        have hi' : i = 0 ∨ i = 1 ∨ i = 2 ∨ i = 3 ∨ i = 4 ∨ i = 5 ∨ i = 6 ∨ i = 7 := by omega
        rcases hi' with rfl | rfl | rfl | rfl | rfl | rfl | rfl | rfl <;> simp [hn]
      have := (hs.1 pos (by
        simp only [List.map_cons, List.map_nil]
        rw [hpos 0 (by omega), hpos 1 (by omega), hpos 2 (by omega), hpos 3 (by omega), hpos 4 (by omega),
          hpos 5 (by omega), hpos 6 (by omega), hpos 7 (by omega)]
        rfl)).1 (t.map f) (List.mem_map_of_mem ht)
      rw [tetVolume_map f _ hpos t (p2 t ht)] at this
      omega
    · intro hd
      obtain ⟨q1, q2, q3⟩ := p3 hd
      refine ⟨fun pos hp => ?_, ?_⟩
      · have hpos : ∀ i, i < 8 → pos (f i) = cubePos i := by
          intro i hi
          simp only [List.map_cons, List.map_nil, cubeVertex, List.cons.injEq] at hp
          obtain ⟨k0, k1, k2, k3, k4, k5, k6, k7, -⟩ := hp
          have hi' : i = 0 ∨ i = 1 ∨ i = 2 ∨ i = 3 ∨ i = 4 ∨ i = 5 ∨ i = 6 ∨ i = 7 := by omega
          rcases hi' with rfl | rfl | rfl | rfl | rfl | rfl | rfl | rfl <;> assumption
        refine ⟨?_, ?_⟩
        · intro t ht
          obtain ⟨t', ht', rfl⟩ := List.mem_map.1 ht
          rw [tetVolume_map f pos hpos t' (p2 t' ht')]
          exact q2 t' ht'
        · rw [List.map_map, ← q3]
          congr 1
          apply List.map_congr_left
          intro t ht
          exact tetVolume_map f pos hpos t (p2 t ht)
      · rw [sides_cut f hinj hm hmin hfar h0 h1 h2]
        exact boundaryIs_map q1 f

end OmegaH
