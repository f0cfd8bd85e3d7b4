import Verif.Props.C02
import Verif.Lemmas.VtkParts

/-!
# C51: what is written to a VTK file is read back

The mesh that is read has the cells of the one that was written and the tags that were asked for, whatever the byte orders, the schedules and whether `char` is signed.
-/

namespace OmegaH

open Spec

theorem reads_all {α : Type} {p : FileParser α} {b : FileBytes} {a : α} (h : Reads p b a) : p b = .ok (a, []) := by
  have := h []
  rwa [List.append_nil] at this

theorem good_names : ∀ n ∈ [str "UnstructuredGrid", str "Cells", str "Points", str "PointData", str "CellData", str "Piece", str "VTKFile"], GoodName n ∧ ch '\n' ∉ n := by
  unfold GoodName
  decide

theorem countGlobals_sorted {n : Nat} (h : n < 2 ^ 31) : sortedGlobals (countGlobals n) = true := by
  unfold sortedGlobals countGlobals
  rw [decide_eq_true_eq, List.map_map, List.isChain_iff_pairwise, List.pairwise_map]
  refine List.Pairwise.imp_of_mem ?_ List.pairwise_lt_range
  intro a b ha hb hab
  have := List.mem_range.1 ha
  have := List.mem_range.1 hb
  simp only [Function.comp]
  rw [← BitVec.ofInt_natCast, ← BitVec.ofInt_natCast, BitVec.toInt_ofInt, BitVec.toInt_ofInt, Int.bmod_eq_of_le (by omega) (by omega), Int.bmod_eq_of_le (by omega) (by omega)]
  omega

theorem sortedGlobals_of {a : List (BitVec 64)} (h : (a.map BitVec.toInt).Pairwise (· ≤ ·)) : sortedGlobals a = true := by
  unfold sortedGlobals
  rw [decide_eq_true_eq, List.isChain_iff_pairwise]
  exact h

/-- The global numbers: read first on several ranks, made up otherwise. Either way the rest of the section is read by the loop. -/
theorem rt_globals {compress : Bool} {z zr : Option Zlib} (hz : SameZlib compress z zr) (schw sch : FileBytes → Sched) (lw lr cs : Bool) {dim nents : Nat}
    {tags : List FileTag} {set : List FileBytes} (h : GoodVtkTags dim nents tags set) (first : Prop) [Decidable first] (hf : first → str "global" ∈ set) :
    ∃ (g0 : FileBytes) (bg : List (FileBytes × FileTag)) (a : List (BitVec 64)), writeGlobal schw z lw compress dim tags set = .ok (g0 ++ bg.flatMap Prod.fst) ∧
      Reads (if first then vtkReadKnown zr lr cs (lw != lr) compress .i64 (str "global") nents 1 64 else .give (countGlobals (nents : Int).toNat)) g0 a ∧
      (∀ x ∈ bg, HoldsTag sch zr lr cs (lw != lr) compress dim nents x.1 x.2) ∧ bg.length ≤ 1 ∧ a.length = nents ∧
      (first → findTag (str "global") tags = some ⟨str "global", 1, .i64 (some a)⟩) ∧ (¬ first → a = countGlobals nents) ∧
      (findTag (str "global") (bg.map Prod.snd)).or (some ⟨str "global", 1, .i64 (some a)⟩) =
        (if str "global" ∈ set then findTag (str "global") tags else some ⟨str "global", 1, .i64 (some (countGlobals nents))⟩) ∧
      ∀ t ∈ bg.map Prod.snd, t.name = str "global" := by
  by_cases hc : first
  · obtain ⟨a, h1, h2, b, h3, h4⟩ := global_first hz schw lw lr cs h (hf hc)
    refine ⟨b, [], a, by simpa using h3, by rw [if_pos hc]; exact h4, (by simp), by simp, h2, fun _ => h1, fun hn => absurd hc hn, ?_, by simp⟩
    rw [if_pos (hf hc), h1]
    rfl
  · obtain ⟨bg, h1, h2, h3, h4⟩ := global_loop hz schw sch lw lr cs h
    refine ⟨[], bg, countGlobals nents, h1, by rw [if_neg hc]; exact reads_give _, h2, h3, by simp [countGlobals], fun hn => absurd hn hc, fun _ => rfl, ?_, ?_⟩
    · rw [h4]
      split
      · rename_i hs
        obtain ⟨t, ht⟩ := known_tag h hs (by decide)
        have := (findTag_some ht).2
        rw [ht]
        simp [findTag, this]
      · rfl
    · rw [h4]
      intro t ht
      split at ht
      · cases hx : findTag (str "global") tags with
        | none => rw [hx] at ht; simp at ht
        | some t' =>
          rw [hx] at ht
          simp at ht
          subst ht
          exact (findTag_some hx).2
      · simp at ht

theorem rt_coords {compress : Bool} {z zr : Option Zlib} (hz : SameZlib compress z zr) (schw sch : FileBytes → Sched) (lw lr cs : Bool) {m : VtkMesh}
    {vset cset : List FileBytes} (h : GoodVtk m vset cset) : ∃ b a3 a, findTag (str "coordinates") m.vertTags = some ⟨str "coordinates", m.dim, .f64 (some a)⟩ ∧
      a.length = m.nverts * m.dim ∧ writeCoords schw z lw compress m = .ok b ∧
      Reads (vtkReadKnown zr lr cs (lw != lr) compress .f64 (str "coordinates") m.nverts 3 64) b a3 ∧
      resizeVectors (sch (str "coordinates")) a3 3 m.dim = .ok a := by
  obtain ⟨a, h1, h2⟩ := h.coords
  have hv := h.verts
  have hd := h.dim
  have hf := findTag_mem h.vertTags.nodup h1
  obtain ⟨a3, g1, g2, g3⟩ := resizeVectors_back (schw (str "coordinates")) (sch (str "coordinates")) hd.1 hd.2 h2 (by omega)
  obtain ⟨b, w1, r1⟩ := rt_known hz (Or.inr (Or.inr rfl) : FileWidth 64) lw lr cs .f64 (name := str "coordinates") (by decide) m.nverts 3 a3 (by omega) (by omega)
  refine ⟨b, a3, a, hf, h2, ?_, r1, g3⟩
  unfold writeCoords
  rw [show findTag (str "coordinates") m.vertTags = _ from hf]
  dsimp only
  rw [g1, Res.bind_ok]
  exact w1

theorem filter_count {tags : List FileTag} (p : FileTag → Bool) (h : tags.length ≤ 120) : (tags.filter p).length ≤ 120 :=
  Nat.le_trans (List.length_filter_le _ _) h

/-- A mesh within the limits is read as it was written. Partial: tags of 6 reals in two dimensions, names with quotes or line feeds, hypercubes of dimension 1 and vertices
that are not sorted by their global numbers are left out; see the theorems below for what happens to them. -/
theorem C51_roundtrip_partial {compress : Bool} {z zr : Option Zlib} (hz : SameZlib compress z zr) (schw schr : FileBytes → Sched) (lw lr charSigned : Bool) {m : VtkMesh}
    {vset cset : List FileBytes} (h : GoodVtk m vset cset) {others : Nat × Int} (ho : SameKind m others) :
    ∃ b, writeVtu schw z lw compress m vset cset = .ok b ∧
      ∃ m', (readVtu schr zr lr charSigned m.commSize m.ghosted others true) b = .ok (m', []) ∧ SameVtk m m' vset cset := by
  have hv31 : m.nverts < 2 ^ 31 := by have := h.verts; omega
  have hc31 := cells_small h
  obtain ⟨bS, wS, rS⟩ := rt_vtuStart hz lw lr
  obtain ⟨bC, wC, rC⟩ := rt_conn hz lw lr charSigned h ho
  obtain ⟨bX, a3, ax, fX, lX, wX, rX, zX⟩ := rt_coords hz schw schr lw lr charSigned h
  obtain ⟨vg0, vbg, vga, wVG, rVG, tVG, lVG, nVG, fVG, cVG, eVG, nmVG⟩ := rt_globals hz schw schr lw lr charSigned h.vertTags (m.commSize ≠ 1) (fun hc => (h.globals hc).1)
  obtain ⟨vbl, wVL, tVL, lVL, nVL⟩ := locals_loop hz schr lw lr charSigned m.dim hv31 (fun hc => (h.owners hc).1) vset
  obtain ⟨vbo, wVO, tVO, eVO⟩ := others_loop hz schw schr lw lr charSigned h.vertTags [str "coordinates", str "global"]
  obtain ⟨cg0, cbg, cga, wCG, rCG, tCG, lCG, nCG, fCG, cCG, eCG, nmCG⟩ := rt_globals hz schw schr lw lr charSigned h.cellTags (m.commSize ≠ 1 ∧ m.ghosted)
    (fun hc => (h.globals hc.1).2.1 hc.2)
  obtain ⟨cbl, wCL, tCL, lCL, nCL⟩ := locals_loop hz schr lw lr charSigned m.dim hc31 (fun hc => (h.owners hc).2.1) cset
  obtain ⟨cbh, wCH, tCH, lCH, nCH⟩ := ghost_loop hz schr lw lr charSigned m.dim hc31 (fun hc => (h.owners hc).2.2) cset
  obtain ⟨cbo, wCO, tCO, eCO⟩ := others_loop hz schw schr lw lr charSigned h.cellTags [str "global"]
  have hV : ∀ x ∈ vbg ++ (vbl ++ vbo), HoldsTag schr zr lr charSigned (lw != lr) compress m.dim m.nverts x.1 x.2 := by
    intro x hx
    rcases List.mem_append.1 hx with hx | hx
    · exact tVG x hx
    · rcases List.mem_append.1 hx with hx | hx
      · exact tVL x hx
      · exact tVO x hx
  have hC : ∀ x ∈ cbg ++ ((cbl ++ cbh) ++ cbo), HoldsTag schr zr lr charSigned (lw != lr) compress m.dim m.ncells x.1 x.2 := by
    intro x hx
    rcases List.mem_append.1 hx with hx | hx
    · exact tCG x hx
    · rcases List.mem_append.1 hx with hx | hx
      · rcases List.mem_append.1 hx with hx | hx
        · exact tCL x hx
        · exact tCH x hx
      · exact tCO x hx
  have lVO : vbo.length ≤ 120 := by
    rw [← List.length_map (f := Prod.snd), eVO]
    exact filter_count _ h.vertTags.count
  have lCO : cbo.length ≤ 120 := by
    rw [← List.length_map (f := Prod.snd), eCO]
    exact filter_count _ h.cellTags.count
  have gn := good_names
  let vt0 : List FileTag := [⟨str "global", 1, .i64 (some vga)⟩, ⟨str "coordinates", m.dim, .f64 (some ax)⟩]
  let ct0 : List FileTag := [⟨str "global", 1, .i64 (some cga)⟩]
  have rV := reads_loop schr zr lr charSigned (lw != lr) compress (gn (str "PointData") (by simp)).1 (gn (str "PointData") (by simp)).2 (vbg ++ (vbl ++ vbo)) vt0 hV (by
    simp only [List.length_append]
    show 2 + _ ≤ 127
    omega)
  have rC2 := reads_loop schr zr lr charSigned (lw != lr) compress (gn (str "CellData") (by simp)).1 (gn (str "CellData") (by simp)).2 (cbg ++ ((cbl ++ cbh) ++ cbo)) ct0 hC (by
    simp only [List.length_append]
    show 1 + _ ≤ 127
    omega)
  generalize hvt : putTags vt0 ((vbg ++ (vbl ++ vbo)).map Prod.snd) = vt at rV
  generalize hct : putTags ct0 ((cbg ++ ((cbl ++ cbh) ++ cbo)).map Prod.snd) = ct at rC2
  have hadd1 : ((addTag m.nverts [] ⟨str "global", 1, .i64 (some vga)⟩).bind fun ts => addTag m.nverts ts ⟨str "coordinates", m.dim, .f64 (some ax)⟩) = .ok vt0 := by
    have hd := h.dim
    have hv := h.verts
    have hp : m.nverts * m.dim ≤ m.nverts * 3 := Nat.mul_le_mul_left _ hd.2
    rw [addTag_new (t := ⟨str "global", 1, .i64 (some vga)⟩) ⟨(show str "global" ≠ [] by decide), (show (str "global").length < 2 ^ 31 by decide),
      (by decide : (0 : Int) ≤ 1 ∧ (1 : Int) ≤ 127), vga.length, rfl, (by show (vga.length : Int) = m.nverts * 1; omega), by omega⟩ (by omega) (by simp) (by decide), Res.bind_ok,
      addTag_new (t := ⟨str "coordinates", m.dim, .f64 (some ax)⟩) ⟨(show str "coordinates" ≠ [] by decide), (show (str "coordinates").length < 2 ^ 31 by decide),
      (by show (0 : Int) ≤ m.dim ∧ (m.dim : Int) ≤ 127; omega), ax.length, rfl, (by show (ax.length : Int) = m.nverts * (m.dim : Int); rw [lX]; push_cast; rfl), by omega⟩
      (by omega) (by simp; decide) (by simp)]
    rfl
  have hadd2 : addTag m.ncells [] ⟨str "global", 1, .i64 (some cga)⟩ = .ok ct0 := by
    rw [addTag_new (t := ⟨str "global", 1, .i64 (some cga)⟩) ⟨(show str "global" ≠ [] by decide), (show (str "global").length < 2 ^ 31 by decide),
      (by decide : (0 : Int) ≤ 1 ∧ (1 : Int) ≤ 127), cga.length, rfl, (by show (cga.length : Int) = m.ncells * 1; omega), by omega⟩ (by omega) (by simp) (by decide)]
    rfl
  have hsorted : sortedGlobals vga = true := by
    by_cases hc : m.commSize ≠ 1
    · obtain ⟨t1, t2⟩ := findTag_some (fVG hc)
      exact sortedGlobals_of ((h.globals hc).2.2 _ t1 t2 _ rfl)
    · rw [cVG hc]
      exact countGlobals_sorted hv31
  let m' : VtkMesh := ⟨m.family, m.dim, m.commSize, m.ghosted, m.nverts, m.ncells, m.conn, removeTag (str "owner") (removeTag (str "local") vt),
    removeTag (str "owner") (removeTag (str "local") ct), [], [], []⟩
  refine ⟨bS ++ (str "<UnstructuredGrid>\n" ++ ((str "<Piece NumberOfPoints=\"" ++ intText m.nverts ++ str "\"" ++ (str " NumberOfCells=\"" ++ intText m.ncells ++ str "\">\n")) ++
    (str "<Cells>\n" ++ (bC ++ (str "</Cells>\n" ++ (str "<Points>\n" ++ (bX ++ (str "</Points>\n" ++ (str "<PointData>\n" ++ (vg0 ++
    (((vbg ++ (vbl ++ vbo)).flatMap Prod.fst ++ (str "</" ++ (str "PointData" ++ str ">\n"))) ++ (str "<CellData>\n" ++ (cg0 ++
    (((cbg ++ ((cbl ++ cbh) ++ cbo)).flatMap Prod.fst ++ (str "</" ++ (str "CellData" ++ str ">\n"))) ++ (str "</Piece>\n" ++ (str "</UnstructuredGrid>\n" ++
    str "</VTKFile>\n")))))))))))))))), ?_, m', ?_, ?_⟩
  · unfold writeVtu
    rw [verify_ok h.vertTags, verify_ok h.cellTags, wS, wC, wX, wVG, wVL, wVO, wCG, wCL, wCH, wCO]
    simp only [wlist, wcat, Res.bind_ok, List.flatMap_append, List.append_assoc, List.nil_append, List.append_nil]
    rfl
  · refine reads_all ?_
    unfold readVtu
    refine reads_andThen rS ?_
    refine reads_andThen (reads_named_start (gn (str "UnstructuredGrid") (by simp)).1 (gn (str "UnstructuredGrid") (by simp)).2) ?_
    refine reads_andThen (reads_piece hv31 hc31) ?_
    refine reads_andThen (reads_named_start (gn (str "Cells") (by simp)).1 (gn (str "Cells") (by simp)).2) ?_
    refine reads_andThen rC ?_
    refine reads_andThen (reads_named_end (gn (str "Cells") (by simp)).1 (gn (str "Cells") (by simp)).2) ?_
    refine reads_andThen (reads_named_start (gn (str "Points") (by simp)).1 (gn (str "Points") (by simp)).2) ?_
    refine reads_andThen rX ?_
    refine reads_first (reads_lift zX) ?_
    refine reads_andThen (reads_named_end (gn (str "Points") (by simp)).1 (gn (str "Points") (by simp)).2) ?_
    refine reads_andThen (reads_named_start (gn (str "PointData") (by simp)).1 (gn (str "PointData") (by simp)).2) ?_
    refine reads_andThen rVG ?_
    refine reads_first (reads_lift hadd1) ?_
    refine reads_andThen rV ?_
    refine reads_andThen (reads_named_start (gn (str "CellData") (by simp)).1 (gn (str "CellData") (by simp)).2) ?_
    refine reads_andThen rCG ?_
    refine reads_first (reads_lift hadd2) ?_
    refine reads_first (a := (⟨m.family, m.dim, m.commSize, m.ghosted, m.nverts, m.ncells, m.conn, removeTag (str "owner") (removeTag (str "local") vt), ct0, [], [], []⟩ : VtkMesh))
      (reads_lift (by dsimp only; rw [hsorted]; rfl)) ?_
    refine reads_andThen rC2 ?_
    refine reads_andThen (reads_named_end (gn (str "Piece") (by simp)).1 (gn (str "Piece") (by simp)).2) ?_
    refine reads_andThen (reads_named_end (gn (str "UnstructuredGrid") (by simp)).1 (gn (str "UnstructuredGrid") (by simp)).2) ?_
    refine reads_last (reads_named_end (gn (str "VTKFile") (by simp)).1 (gn (str "VTKFile") (by simp)).2) ?_
    exact reads_give _
  · refine ⟨rfl, rfl, rfl, rfl, rfl, ?_, ?_⟩
    · intro n _
      show findTag n (removeTag (str "owner") (removeTag (str "local") vt)) = _
      rw [findTag_remove, findTag_remove]
      by_cases h1 : n = str "local" ∨ n = str "owner"
      · rw [if_pos h1]
        rcases h1 with rfl | rfl
        · rw [if_pos rfl]; split <;> rfl
        · rw [if_pos rfl]
      · rw [if_neg h1]
        rw [not_or] at h1
        rw [if_neg h1.2, if_neg h1.1, ← hvt, List.map_append, List.map_append, eVO,
          findTag_end _ _ _ _ _ _ h.vertTags.nodup (by
            intro t ht e
            rcases nVL t ht with h2 | h2
            · exact h1.1 (by rw [← e, h2])
            · exact h1.2 (by rw [← e, h2])) (by simpa using lVG)]
        by_cases hg : n = str "global"
        · subst hg
          rw [if_neg (by simp), Option.none_or]
          have : findTag (str "global") vt0 = some ⟨str "global", 1, .i64 (some vga)⟩ := by simp [vt0, findTag]
          rw [this, eVG, if_pos rfl]
          have hx : ¬ str "global" ∈ [str "coordinates"] := by decide
          by_cases hs : str "global" ∈ vset
          · rw [if_pos hs, if_pos (Or.inl hs)]; rfl
          · rw [if_neg hs, if_neg (by simp only [hs, hx, or_self, not_false_eq_true])]; rfl
        · rw [findTag_none (n := n) (tags := vbg.map Prod.snd) (fun t ht e => hg (by rw [← e, nmVG t ht])), Option.none_or]
          by_cases hx : n = str "coordinates"
          · subst hx
            rw [if_neg (by simp), Option.none_or, if_pos (Or.inr (by simp))]
            have : findTag (str "coordinates") vt0 = some ⟨str "coordinates", m.dim, .f64 (some ax)⟩ := by
              have : ¬ str "global" = str "coordinates" := by decide
              simp [vt0, findTag, this]
            rw [this]
            exact fX.symm
          · have : findTag n vt0 = none := findTag_none (by
              intro t ht e
              simp only [vt0, List.mem_cons, List.not_mem_nil, or_false] at ht
              rcases ht with rfl | rfl
              · exact hg e.symm
              · exact hx e.symm)
            rw [this, Option.or_none]
            by_cases hs : n ∈ vset
            · rw [if_pos ⟨by simp [hx, hg], hs⟩, if_pos (Or.inl hs)]; rfl
            · rw [if_neg (fun h => hs h.2), if_neg (by simp [hs, hx]), if_neg hg]
    · intro n hn
      show findTag n (removeTag (str "owner") (removeTag (str "local") ct)) = _
      rw [findTag_remove, findTag_remove]
      by_cases h1 : n = str "local" ∨ n = str "owner"
      · rw [if_pos h1]
        rcases h1 with rfl | rfl
        · rw [if_pos rfl]; split <;> rfl
        · rw [if_pos rfl]
      · rw [if_neg h1]
        rw [not_or] at h1
        rw [if_neg h1.2, if_neg h1.1, ← hct, List.map_append, List.map_append, eCO,
          findTag_end _ _ _ _ _ _ h.cellTags.nodup (by
            intro t ht e
            rw [List.map_append] at ht
            rcases List.mem_append.1 ht with ht | ht
            · rcases nCL t ht with h2 | h2
              · exact h1.1 (by rw [← e, h2])
              · exact h1.2 (by rw [← e, h2])
            · exact hn (by rw [← e, nCH t ht]; simp)) (by simpa using lCG)]
        by_cases hg : n = str "global"
        · subst hg
          rw [if_neg (by simp), Option.none_or]
          have : findTag (str "global") ct0 = some ⟨str "global", 1, .i64 (some cga)⟩ := by simp [ct0, findTag]
          rw [this, eCG, if_pos rfl]
          by_cases hs : str "global" ∈ cset
          · rw [if_pos hs, if_pos (Or.inl hs)]; rfl
          · rw [if_neg hs, if_neg (by simp [hs])]; rfl
        · rw [findTag_none (n := n) (tags := cbg.map Prod.snd) (fun t ht e => hg (by rw [← e, nmCG t ht])), Option.none_or]
          have : findTag n ct0 = none := findTag_none (by
            intro t ht e
            simp only [ct0, List.mem_cons, List.not_mem_nil, or_false] at ht
            subst ht
            exact hg e.symm)
          rw [this, Option.or_none]
          by_cases hs : n ∈ cset
          · rw [if_pos ⟨by simp [hg], hs⟩, if_pos (Or.inl hs)]; rfl
          · rw [if_neg (fun h => hs h.2), if_neg (by simp [hs]), if_neg hg]

/-! ## Meshes that are read as they were written -/

def someReals (n : Nat) : List (BitVec 64) := (List.range n).map (BitVec.ofNat 64)

/-- A triangle with some tags of vertices and cells. -/
def vtkTri (commSize : Nat) (globals : List (BitVec 64)) (tags : List FileTag) : VtkMesh :=
  ⟨.simplex, 2, commSize, true, 3, 1, [0#32, 1#32, 2#32], ⟨str "coordinates", 2, .f64 (some (someReals 6))⟩ :: ⟨str "global", 1, .i64 (some globals)⟩ :: tags,
    [⟨str "global", 1, .i64 (some [5#64])⟩, ⟨str "class_id", 1, .i32 (some [9#32])⟩], [0#32, 1#32, 0#32], [0#32], [1#8]⟩

def vtkTriTags : List FileTag := [⟨str "velocity", 2, .f64 (some (someReals 6))⟩, ⟨str "metric", 3, .f64 (some (someReals 9))⟩]

/-- Two ranks, a vector and a symmetric tensor. -/
theorem vtkTri_good : GoodVtk (vtkTri 2 [1#64, 4#64, 6#64] vtkTriTags) [str "global", str "velocity", str "metric", str "owner"] [str "global", str "class_id", str "vtkGhostType"] where
  dim := by decide
  family := by decide
  verts := by decide
  conn := by decide
  owners := fun _ => by decide
  coords := ⟨someReals 6, by simp [vtkTri], by decide⟩
  vertTags := {
    good := by
      intro t ht hs
      simp only [vtkTri, vtkTriTags, List.mem_cons, List.not_mem_nil, or_false] at ht
      rcases ht with rfl | rfl | rfl | rfl
      · exact absurd hs (by decide)
      · exact ⟨by decide, by decide, by decide, ⟨3, rfl, rfl⟩, by decide, fun _ _ h => by cases h⟩
      · exact ⟨by decide, by decide, by decide, ⟨6, rfl, rfl⟩, by decide, fun _ _ _ => by decide⟩
      · exact ⟨by decide, by decide, by decide, ⟨9, rfl, rfl⟩, by decide, fun _ _ _ => by decide⟩
    nodup := by decide
    count := by decide
    known := by decide
    global := by
      intro t ht hn
      simp only [vtkTri, vtkTriTags, List.mem_cons, List.not_mem_nil, or_false] at ht
      rcases ht with rfl | rfl | rfl | rfl
      · exact absurd hn (by decide)
      · exact ⟨rfl, _, rfl⟩
      · exact absurd hn (by decide)
      · exact absurd hn (by decide) }
  cellTags := {
    good := by
      intro t ht hs
      simp only [vtkTri, List.mem_cons, List.not_mem_nil, or_false] at ht
      rcases ht with rfl | rfl
      · exact ⟨by decide, by decide, by decide, ⟨1, rfl, rfl⟩, by decide, fun _ _ h => by cases h⟩
      · exact ⟨by decide, by decide, by decide, ⟨1, rfl, rfl⟩, by decide, fun _ _ h => by cases h⟩
    nodup := by decide
    count := by decide
    known := by decide
    global := by
      intro t ht hn
      simp only [vtkTri, List.mem_cons, List.not_mem_nil, or_false] at ht
      rcases ht with rfl | rfl
      · exact ⟨rfl, _, rfl⟩
      · exact absurd hn (by decide) }
  globals := by
    intro _
    refine ⟨by decide, fun _ => by decide, ?_⟩
    intro t ht hn a ha
    simp only [vtkTri, vtkTriTags, List.mem_cons, List.not_mem_nil, or_false] at ht
    rcases ht with rfl | rfl | rfl | rfl
    · exact absurd hn (by decide)
    · cases ha; decide
    · exact absurd hn (by decide)
    · exact absurd hn (by decide)

/-- The other rank may have nothing to say. -/
example : SameKind (vtkTri 2 [1#64, 4#64, 6#64] vtkTriTags) (0, -1) := ⟨by decide, by decide⟩

/-- Without compression no library is needed. -/
example : SameZlib false none none := ⟨fun h => (by cases h), fun h => (by cases h)⟩

/-! ## What is not read as it was written -/

/-- Writing and reading on one little-endian machine without compression, one rank knowing nothing of the others. -/
def vtkRound (m : VtkMesh) (vset cset : List FileBytes) : Res VtkMesh :=
  (writeVtu (fun _ => .serial) none true false m vset cset).bind fun b =>
    (readVtu (fun _ => .serial) none true true m.commSize m.ghosted (0, -1) true b).bind fun r => .ok r.1

/-- A tag of vertices of the mesh that is read. -/
def roundTag (m : VtkMesh) (vset : List FileBytes) (name : FileBytes) : Res (Option FileTag) := (vtkRound m vset []).bind fun m' => .ok (findTag name m'.vertTags)

/-- A tag of six reals in two dimensions becomes one of three, half of the values are lost. -/
theorem C51_six_refuted : roundTag (vtkTri 1 [0#64, 1#64, 2#64] [⟨str "s", 6, .f64 (some (someReals 18))⟩]) [str "s"] (str "s") =
    .ok (some ⟨str "s", 3, .f64 (some [0#64, 1#64, 3#64, 6#64, 7#64, 9#64, 12#64, 13#64, 15#64])⟩) := by decide +kernel

/-- A file with a quote in the name of a tag is written, but cannot be read. -/
theorem C51_quote_refuted : (∃ b, writeVtu (fun _ => .serial) none true false (vtkTri 1 [0#64, 1#64, 2#64] [⟨str "a\"b", 1, .f64 (some (someReals 3))⟩]) [str "a\"b"] [] = .ok b) ∧
    roundTag (vtkTri 1 [0#64, 1#64, 2#64] [⟨str "a\"b", 1, .f64 (some (someReals 3))⟩]) [str "a\"b"] (str "a\"b") = .fail := by
  constructor
  · cases h : writeVtu (fun _ => .serial) none true false (vtkTri 1 [0#64, 1#64, 2#64] [⟨str "a\"b", 1, .f64 (some (someReals 3))⟩]) [str "a\"b"] [] with
    | ok b => exact ⟨b, rfl⟩
    | fail => exact absurd h (by decide +kernel)
    | ub => exact absurd h (by decide +kernel)
  · decide +kernel

/-- A tag named "owner" is written, but not there any more when the file is read. -/
theorem C51_special_refuted : roundTag (vtkTri 1 [0#64, 1#64, 2#64] [⟨str "owner", 1, .f64 (some (someReals 3))⟩]) [str "owner"] (str "owner") = .ok none := by decide +kernel

def vtkLine (family : Family) : VtkMesh := ⟨family, 1, 1, false, 2, 1, [0#32, 1#32], [⟨str "coordinates", 1, .f64 (some (someReals 2))⟩], [], [], [], []⟩

/-- A one-dimensional mesh of hypercubes is read as one of simplices. -/
theorem C51_line_refuted : ((vtkRound (vtkLine .hypercube) [] []).bind fun m => .ok m.family) = .ok .simplex := by decide +kernel

/-- Two edges 2 – 1 – 0 with the global numbers of the vertices in descending order; each cell has its global number as a tag `t`. -/
def vtkPath : VtkMesh :=
  ⟨.simplex, 1, 2, true, 3, 2, [0#32, 1#32, 1#32, 2#32], [⟨str "coordinates", 1, .f64 (some (someReals 3))⟩, ⟨str "global", 1, .i64 (some [2#64, 1#64, 0#64])⟩],
    [⟨str "global", 1, .i64 (some [1#64, 0#64])⟩, ⟨str "t", 1, .i64 (some [1#64, 0#64])⟩], [0#32, 0#32, 0#32], [0#32, 0#32], [1#8, 1#8]⟩

/-- If the vertices are not sorted by their global numbers, the cells are put into a new order, but the tags that are read after that are not: cell 0 gets the value of
cell 1. -/
theorem C51_unsorted_refuted : ((vtkRound vtkPath [str "global"] [str "global", str "t"]).bind fun m => .ok (findTag (str "global") m.cellTags, findTag (str "t") m.cellTags)) =
    .ok (some ⟨str "global", 1, .i64 (some [0#64, 1#64])⟩, some ⟨str "t", 1, .i64 (some [1#64, 0#64])⟩) := by decide +kernel

/-- A mesh without cells on one rank is written, but cannot be read, as its dimension is not known. -/
theorem C51_empty_refuted : vtkRound ⟨.simplex, 2, 1, false, 1, 0, [], [⟨str "coordinates", 2, .f64 (some (someReals 2))⟩], [], [], [], []⟩ [] [] = .fail := by decide +kernel

theorem reorderRows_moved {α : Type} {perm : List Nat} {n w : Nat} (hp : IsPermutation perm n) {l : List α} (hl : l.length = n * w) :
    RowsMoved perm w l (reorderRows perm w l) := by
  have hk : ∀ k ∈ perm, ((l.drop (k * w)).take w).length = w := by
    intro k hk
    have := hp.2.1 k hk
    have : (k + 1) * w ≤ n * w := Nat.mul_le_mul_right w this
    rw [Nat.add_mul, Nat.one_mul] at this
    simp only [List.length_take, List.length_drop]
    omega
  have gen : ∀ perm : List Nat, (∀ k ∈ perm, ((l.drop (k * w)).take w).length = w) →
      (reorderRows perm w l).length = perm.length * w ∧
      ∀ i k j : Nat, perm[i]? = some k → j < w → (reorderRows perm w l)[i * w + j]? = l[k * w + j]? := by
    intro perm
    induction perm with
    | nil => intro _; exact ⟨by simp [reorderRows], by simp⟩
    | cons a perm ih =>
      intro h
      obtain ⟨g1, g2⟩ := ih (fun k hk => h k (by simp [hk]))
      have ha := h a (by simp)
      have e : reorderRows (a :: perm) w l = (l.drop (a * w)).take w ++ reorderRows perm w l := rfl
      rw [e]
      refine ⟨by rw [List.length_append, ha, g1, List.length_cons, Nat.add_mul]; omega, ?_⟩
      intro i k j hi hj
      cases i with
      | zero =>
        rw [Nat.zero_mul, Nat.zero_add, List.getElem?_append_left (by omega), List.getElem?_take_of_lt hj, List.getElem?_drop]
        simp only [List.getElem?_cons_zero, Option.some.injEq] at hi
        rw [hi]
      | succ i =>
        have : (i + 1) * w + j = w + (i * w + j) := by rw [Nat.add_mul]; omega
        rw [this, List.getElem?_append_right (by omega), ha, Nat.add_sub_cancel_left]
        exact g2 i k j hi hj
  obtain ⟨g1, g2⟩ := gen perm hk
  exact ⟨by rw [g1, hp.1, hl], g2⟩

theorem tag_moved {perm : List Nat} {n : Nat} (hp : IsPermutation perm n) {t : FileTag}
    (h : 0 ≤ t.ncomps ∧ ∃ k, t.data.size = some k ∧ (k : Int) = n * t.ncomps) :
    TagMoved perm t { t with data := t.data.reorder perm t.ncomps.toNat } := by
  refine ⟨rfl, rfl, ?_⟩
  obtain ⟨h0, k, h1, h2⟩ := h
  have hk : k = n * t.ncomps.toNat := by
    have : ((n * t.ncomps.toNat : Nat) : Int) = n * t.ncomps := by rw [Int.natCast_mul, Int.toNat_of_nonneg h0]
    omega
  cases hd : t.data <;> rename_i a <;> cases a <;> rw [hd] at h1 <;>
    simp only [TagData.size, Option.map_none, Option.map_some, reduceCtorEq, Option.some.injEq] at h1
  all_goals
    dsimp only [TagData.reorder, Option.map_some]
    exact reorderRows_moved hp (by omega)

/-- Reordering by global numbers gives the same mesh with new numbers, in which the global numbers are sorted. -/
theorem C51_reordered {m : VtkMesh} {vg cg : List (BitVec 64)} (hv : m.nverts < 2 ^ 32)
    (hvg : findTag (str "global") m.vertTags = some ⟨str "global", 1, .i64 (some vg)⟩) (hvl : vg.length = m.nverts)
    (hcg : findTag (str "global") m.cellTags = some ⟨str "global", 1, .i64 (some cg)⟩) (hcl : cg.length = m.ncells)
    (hconn : m.conn.length = m.ncells * (elementDegree m.family m.dim 0).toNat)
    (hvt : ∀ t ∈ m.vertTags, 0 ≤ t.ncomps ∧ ∃ k, t.data.size = some k ∧ (k : Int) = m.nverts * t.ncomps)
    (hct : ∀ t ∈ m.cellTags, 0 ≤ t.ncomps ∧ ∃ k, t.data.size = some k ∧ (k : Int) = m.ncells * t.ncomps) :
    ∃ m' vp cp, reorderByGlobals m = .ok m' ∧ VtkRenumbered m m' vp cp ∧
      ∀ (g : List (BitVec 64)) (p : List Nat), (g = vg ∧ p = vp) ∨ (g = cg ∧ p = cp) →
        ∀ (i j a b : Nat) (x y : BitVec 64), i < j → p[i]? = some a → p[j]? = some b → g[a]? = some x → g[b]? = some y → x.toInt ≤ y.toInt := by
  obtain ⟨vp, v1, v2⟩ := C02_sort_by_keys (vg.map BitVec.toInt) 1 m.nverts (by decide) (by simp [hvl])
  obtain ⟨cp, c1, c2⟩ := C02_sort_by_keys (cg.map BitVec.toInt) 1 m.ncells (by decide) (by simp [hcl])
  have hsort : ∀ (g : List (BitVec 64)) (n : Nat) (p : List Nat), IsStableSort (g.map BitVec.toInt) 1 n p →
      ∀ (i j a b : Nat) (x y : BitVec 64), i < j → p[i]? = some a → p[j]? = some b → g[a]? = some x → g[b]? = some y → x.toInt ≤ y.toInt := by
    intro g n p hp i j a b x y hij hi hj hx hy
    have kx : (g.map BitVec.toInt)[a]? = some x.toInt := by rw [List.getElem?_map, hx]; rfl
    have ky : (g.map BitVec.toInt)[b]? = some y.toInt := by rw [List.getElem?_map, hy]; rfl
    rcases hp.2 i j a b hij hi hj with h | ⟨h, _⟩
    · obtain ⟨k, hk, _, x', y', h1, h2, h3⟩ := h
      obtain rfl : k = 0 := by omega
      unfold entry at h1 h2
      rw [Nat.mul_one, Nat.add_zero] at h1 h2
      have e1 := Option.some.inj (kx.symm.trans h1)
      have e2 := Option.some.inj (ky.symm.trans h2)
      omega
    · have := h 0 (by decide)
      unfold entry at this
      rw [Nat.mul_one, Nat.add_zero, Nat.mul_one, Nat.add_zero, kx, ky] at this
      have := Option.some.inj this
      omega
  refine ⟨{ m with
      conn := (reorderRows cp (elementDegree m.family m.dim 0).toNat m.conn).map (fun v => BitVec.ofNat 32 (vp.idxOf v.toNat))
      vertTags := m.vertTags.map (fun t => { t with data := t.data.reorder vp t.ncomps.toNat })
      cellTags := m.cellTags.map (fun t => { t with data := t.data.reorder cp t.ncomps.toNat }) }, vp, cp, ?_, ⟨⟨rfl, rfl, rfl, rfl⟩, v2.1, c2.1, ?_, ?_, ?_, ?_⟩, ?_⟩
  · unfold reorderByGlobals
    rw [hvg, hcg]
    simp only [Option.bind_some, FileTag.globals, v1, c1]
  · dsimp only
    rw [List.length_map]
    exact (reorderRows_moved c2.1 hconn).1
  · intro k c j v v' hk hj hold hv'
    dsimp only
    rw [List.getElem?_map, (reorderRows_moved c2.1 hconn).2 k c j hk hj]
    cases hx : m.conn[c * (elementDegree m.family m.dim 0).toNat + j]? with
    | none => rw [hx] at hold; cases hold
    | some x =>
      rw [hx] at hold
      simp only [Option.map_some, Option.some.injEq] at hold ⊢
      rw [hold]
      have hlt : v' < vp.length := (List.getElem?_eq_some_iff.1 hv').1
      have : vp.idxOf v = v' := by
        exact v2.1.2.2 _ _ v (List.getElem?_idxOf (List.mem_of_getElem? hv')) hv'
      rw [this, BitVec.toNat_ofNat, Nat.mod_eq_of_lt]
      have := v2.1.1
      omega
  · dsimp only
    rw [List.forall₂_map_right_iff]
    exact List.forall₂_same.2 (fun t ht => tag_moved v2.1 (hvt t ht))
  · dsimp only
    rw [List.forall₂_map_right_iff]
    exact List.forall₂_same.2 (fun t ht => tag_moved c2.1 (hct t ht))
  · rintro g p (⟨rfl, rfl⟩ | ⟨rfl, rfl⟩)
    · exact hsort _ _ _ v2
    · exact hsort _ _ _ c2

example : ∃ m' vp cp, reorderByGlobals vtkPath = .ok m' ∧ VtkRenumbered vtkPath m' vp cp := by
  obtain ⟨m', vp, cp, h1, h2, _⟩ := C51_reordered (m := vtkPath) (vg := [2#64, 1#64, 0#64]) (cg := [1#64, 0#64]) (by decide) (by decide) rfl (by decide) rfl (by decide)
    (by
      intro t ht
      simp only [vtkPath, List.mem_cons, List.not_mem_nil, or_false] at ht
      rcases ht with rfl | rfl <;> exact ⟨by decide, _, rfl, by decide⟩)
    (by
      intro t ht
      simp only [vtkPath, List.mem_cons, List.not_mem_nil, or_false] at ht
      rcases ht with rfl | rfl <;> exact ⟨by decide, _, rfl, by decide⟩)
  exact ⟨m', vp, cp, h1, h2⟩

example : (reorderByGlobals vtkPath).bind (fun m => .ok m.conn) = .ok [1#32, 0#32, 2#32, 1#32] := by decide +kernel

end OmegaH
