import Verif.Lemmas.VtkTags

/-! # Reading the parts of a VTK file -/

namespace OmegaH

open Spec

/-! ## Start tags -/

def vtuAttrs (lw compress : Bool) : List XmlAttr :=
  [⟨1, str "type", ch '"', str "UnstructuredGrid"⟩, ⟨1, str "byte_order", ch '"', if lw then str "LittleEndian" else str "BigEndian"⟩,
    ⟨1, str "header_type", ch '"', str "UInt64"⟩] ++ if compress then [⟨1, str "compressor", ch '"', str "vtkZLibDataCompressor"⟩] else []

theorem vtuAttrs_good (lw compress : Bool) : ∀ a ∈ vtuAttrs lw compress, a.Good := by
  intro a ha
  unfold vtuAttrs at ha
  have hval : ch '"' ∉ (if lw then str "LittleEndian" else str "BigEndian") := by cases lw <;> decide
  rcases List.mem_append.1 ha with ha | ha
  · rw [List.mem_cons, List.mem_cons, List.mem_singleton] at ha
    rcases ha with rfl | rfl | rfl
    · exact attr_good ⟨ch 't', str "ype", by decide, by decide, by decide, by decide, by decide⟩ (by decide)
    · exact attr_good ⟨ch 'b', str "yte_order", by decide, by decide, by decide, by decide, by decide⟩ hval
    · exact attr_good ⟨ch 'h', str "eader_type", by decide, by decide, by decide, by decide, by decide⟩ (by decide)
  · cases compress with
    | false => simp at ha
    | true =>
      simp only [if_true, List.mem_singleton] at ha
      subst ha
      exact attr_good ⟨ch 'c', str "ompressor", by decide, by decide, by decide, by decide, by decide⟩ (by decide)

theorem rt_vtuStart {compress : Bool} {z zr : Option Zlib} (hz : SameZlib compress z zr) (lw lr : Bool) :
    Roundtrip (vtuStart z lw compress) (readVtuStart lr) (lw != lr, compress) := by
  obtain ⟨tag, h1, h2, h3, h4, h5⟩ := reads_xml .start (name := str "VTKFile") (attrs := vtuAttrs lw compress) (by unfold GoodName; decide) (vtuAttrs_good lw compress)
    (by cases lw <;> cases compress <;> intro a ha <;> cases ha <;> exact Nat.one_pos) (fun h => by cases h) (by cases lw <;> cases compress <;> decide)
  refine ⟨tagText .start 0 0 (str "VTKFile") (vtuAttrs lw compress) 0 ++ str "\n", ?_, ?_⟩
  · unfold vtuStart
    rw [if_neg]
    · congr 1
      cases lw <;> cases compress <;> decide
    · cases compress with
      | false => simp
      | true =>
        obtain ⟨y, rfl, _⟩ := hz.good rfl
        simp
  · refine reads_last h1 ?_
    refine reads_first (reads_check (by rw [decide_eq_true_eq, h4]; exact ⟨h3, by cases lw <;> cases compress <;> rfl⟩)) ?_
    rw [h4, h5]
    have e1 : decide ((attrValue (vtuAttrs lw compress) (str "byte_order")).getD [] = str "LittleEndian") = lw := by cases lw <;> cases compress <;> decide
    have e2 : (attrValue (vtuAttrs lw compress) (str "compressor")).isSome = compress := by cases lw <;> cases compress <;> decide
    rw [e1, e2]
    exact reads_give _

def pieceAttrs (n k : Int) : List XmlAttr := [⟨1, str "NumberOfPoints", ch '"', intText n⟩, ⟨1, str "NumberOfCells", ch '"', intText k⟩]

theorem reads_piece {n k : Nat} (hn : n < 2 ^ 31) (hk : k < 2 ^ 31) :
    Reads readPiece (str "<Piece NumberOfPoints=\"" ++ intText n ++ str "\"" ++ (str " NumberOfCells=\"" ++ intText k ++ str "\">\n")) ((n : Int), (k : Int)) := by
  have hgood : ∀ a ∈ pieceAttrs n k, a.Good := by
    intro a ha
    unfold pieceAttrs at ha
    rw [List.mem_cons, List.mem_singleton] at ha
    rcases ha with rfl | rfl
    · exact attr_good ⟨ch 'N', str "umberOfPoints", by decide, by decide, by decide, by decide, by decide⟩ (fun h => (intText_chars _ _ h).1 rfl)
    · exact attr_good ⟨ch 'N', str "umberOfCells", by decide, by decide, by decide, by decide, by decide⟩ (fun h => (intText_chars _ _ h).1 rfl)
  obtain ⟨tag, h1, h2, h3, h4, h5⟩ := reads_xml .start (name := str "Piece") (attrs := pieceAttrs n k) (by unfold GoodName; decide) hgood
    (by intro a ha; cases ha; exact Nat.one_pos) (fun h => by cases h) (by
      have i1 : ch '\n' ∉ intText n := fun h => (intText_chars _ _ h).2 rfl
      have i2 : ch '\n' ∉ intText k := fun h => (intText_chars _ _ h).2 rfl
      simp only [tagText, pieceAttrs, XmlAttr.text, List.flatMap_cons, List.flatMap_nil, List.mem_append, List.mem_cons, not_or]
      simp only [i1, i2, not_false_eq_true, true_and]
      repeat' apply And.intro
      all_goals decide)
  have e : str "<Piece NumberOfPoints=\"" ++ intText n ++ str "\"" ++ (str " NumberOfCells=\"" ++ intText k ++ str "\">\n") =
      tagText .start 0 0 (str "Piece") (pieceAttrs n k) 0 ++ str "\n" := by
    unfold tagText pieceAttrs
    simp only [List.flatMap_cons, List.flatMap_nil, XmlAttr.text, List.append_assoc, List.append_nil, List.cons_append]
    rfl
  rw [e]
  refine reads_last h1 ?_
  refine reads_first (reads_check (by rw [decide_eq_true_eq]; exact h3)) ?_
  have e1 : tag.attr (str "NumberOfPoints") = intText n := by rw [h4]; rfl
  have e2 : tag.attr (str "NumberOfCells") = intText k := by rw [h4]; rfl
  rw [e1, e2]
  refine reads_first (reads_stoi (by omega) (by omega)) ?_
  exact reads_first (reads_stoi (by omega) (by omega)) (reads_give _)

/-! ## Cells -/

theorem vtkDegree_pos {m : VtkMesh} {vset cset : List FileBytes} (h : GoodVtk m vset cset) : 2 ≤ elementDegree m.family m.dim 0 := by
  obtain ⟨h1, h2⟩ := h.dim
  generalize m.dim = d at *
  generalize m.family = f at *
  interval_cases d <;> cases f <;> decide

theorem cells_small {m : VtkMesh} {vset cset : List FileBytes} (h : GoodVtk m vset cset) : m.ncells < 2 ^ 31 := by
  have h1 := vtkDegree_pos h
  obtain ⟨h2, h3⟩ := h.conn
  have : (m.ncells : Int) * 2 ≤ m.ncells * elementDegree m.family m.dim 0 := Int.mul_le_mul_of_nonneg_left h1 (by omega)
  omega

theorem cellType_spec {m : VtkMesh} {vset cset : List FileBytes} (h : GoodVtk m vset cset) {others : Nat × Int} (ho : SameKind m others) :
    ∃ f d, cellType (List.replicate m.ncells (vtkTypeCode m.family m.dim)) = .ok (f, d) ∧
      (if max f others.1 = 0 then Family.simplex else Family.hypercube) = m.family ∧ max d others.2 = m.dim := by
  obtain ⟨h1, h2⟩ := h.dim
  have h3 := h.family
  obtain ⟨o1, o2⟩ := ho.le
  have o3 := ho.empty
  cases hc : m.ncells with
  | zero =>
    obtain ⟨e1, e2⟩ := o3 hc
    refine ⟨0, -1, rfl, ?_, ?_⟩
    · rw [e1]
      cases m.family <;> rfl
    · rw [e2]; omega
  | succ n =>
    refine ⟨if m.family = .simplex then 0 else 1, m.dim, ?_, ?_, by omega⟩
    · rw [List.replicate_succ]
      unfold cellType
      generalize m.dim = d at *
      generalize m.family = f at *
      interval_cases d <;> cases f <;> first | rfl | (exfalso; exact absurd (h3 rfl) (by decide))
    · revert o1
      cases m.family with
      | simplex => intro o1; simp at o1; simp [o1]
      | hypercube => intro o1; simp

theorem rt_conn {compress : Bool} {z zr : Option Zlib} (hz : SameZlib compress z zr) (lw lr cs : Bool) {m : VtkMesh} {vset cset : List FileBytes}
    (h : GoodVtk m vset cset) {others : Nat × Int} (ho : SameKind m others) :
    Roundtrip (writeConn z lw compress m (elementDegree m.family m.dim 0).toNat) (readConn zr lr cs (lw != lr) compress others m.ncells) (m.family, m.dim, m.conn) := by
  have hcs := cells_small h
  obtain ⟨hc1, hc2⟩ := h.conn
  obtain ⟨b1, w1, r1⟩ := rt_known hz (Or.inl rfl : FileWidth 8) lw lr cs .i8 (name := str "types") (by decide) m.ncells 1
    (List.replicate m.ncells (vtkTypeCode m.family m.dim)) (by simpa using hcs) (by simp)
  obtain ⟨b2, w2, r2⟩ := rt_known hz (Or.inr (Or.inl rfl) : FileWidth 32) lw lr cs .i32 (name := str "connectivity") (by decide)
    (m.ncells * elementDegree m.family m.dim 0) 1 m.conn hc2 (by rw [hc1, Int.mul_one])
  obtain ⟨b3, w3, r3⟩ := rt_known hz (Or.inr (Or.inl rfl) : FileWidth 32) lw lr cs .i32 (name := str "offsets") (by decide) m.ncells 1
    ((List.range m.ncells).map fun i => BitVec.ofNat 32 ((elementDegree m.family m.dim 0).toNat + i * (elementDegree m.family m.dim 0).toNat)) (by simpa using hcs) (by simp)
  refine ⟨b1 ++ (b2 ++ b3), ?_, ?_⟩
  · unfold writeConn
    have e1 : vtkWriteArray z lw compress (str "Int8") (str "types") 1 (some (List.replicate m.ncells (vtkTypeCode m.family m.dim))) = .ok b1 := w1
    have e2 : vtkWriteArray z lw compress (str "Int32") (str "connectivity") 1 (some m.conn) = .ok b2 := w2
    have e3 : vtkWriteArray z lw compress (str "Int32") (str "offsets") 1 (some ((List.range m.ncells).map fun i =>
        BitVec.ofNat 32 ((elementDegree m.family m.dim 0).toNat + i * (elementDegree m.family m.dim 0).toNat))) = .ok b3 := w3
    rw [e1, e2, e3]
    simp [wlist, wcat, Res.bind_ok]
  · obtain ⟨f, d, c1, c2, c3⟩ := cellType_spec h ho
    refine reads_andThen r1 ?_
    rw [c1]
    dsimp only
    rw [c2, c3, if_neg (by omega), if_neg (by omega)]
    refine reads_andThen r2 (reads_last r3 ?_)
    exact reads_give _

/-! ## Tags -/

theorem wlist_append (a b : List (Res FileBytes)) : wlist (a ++ b) = wcat (wlist a) (wlist b) := by
  induction a with
  | nil =>
    show wlist b = wcat (.ok []) (wlist b)
    unfold wcat
    rw [Res.bind_ok]
    cases wlist b <;> rfl
  | cons x a ih =>
    show wcat x (wlist (a ++ b)) = wcat (wcat x (wlist a)) (wlist b)
    rw [ih]
    cases x <;> cases wlist a <;> cases wlist b <;> simp [wcat, Res.bind]

theorem findTag_some {n : FileBytes} {tags : List FileTag} {t : FileTag} (h : findTag n tags = some t) : t ∈ tags ∧ t.name = n := by
  unfold findTag at h
  refine ⟨List.mem_of_find?_eq_some h, ?_⟩
  simpa using List.find?_some h

theorem findTag_mem {tags : List FileTag} (hnd : (tags.map FileTag.name).Nodup) {t : FileTag} (h : t ∈ tags) : findTag t.name tags = some t := by
  cases hx : findTag t.name tags with
  | none =>
    unfold findTag at hx
    rw [List.find?_eq_none] at hx
    exact absurd (decide_eq_true rfl) (hx t h)
  | some t' =>
    obtain ⟨h1, h2⟩ := findTag_some hx
    rw [List.inj_on_of_nodup_map hnd h1 h h2]

/-- Names in the set that are not special are names of tags. -/
theorem known_tag {dim nents : Nat} {tags : List FileTag} {set : List FileBytes} (h : GoodVtkTags dim nents tags set) {n : FileBytes} (hn : n ∈ set)
    (hs : n ∉ specialNames) : ∃ t, findTag n tags = some t := by
  rcases h.known n hn with h1 | ⟨t, h1, h2⟩
  · exact absurd h1 hs
  · rw [← h2]
    exact ⟨t, findTag_mem h.nodup h1⟩

theorem verify_ok {dim nents : Nat} {tags : List FileTag} {set : List FileBytes} (h : GoodVtkTags dim nents tags set) : verifyTags tags set = .ok [] := by
  unfold verifyTags
  rw [if_pos]
  rw [List.all_eq_true]
  intro n hn
  by_cases hs : n ∈ specialNames
  · simp [hs]
  · obtain ⟨t, ht⟩ := known_tag h hn hs
    simp [ht]

section
variable {compress : Bool} {z zr : Option Zlib} (hz : SameZlib compress z zr) (schw sch : FileBytes → Sched) (lw lr cs : Bool) {dim nents : Nat}
  {tags : List FileTag} {set : List FileBytes} (h : GoodVtkTags dim nents tags set)
include hz h

theorem global_loop : ∃ bg : List (FileBytes × FileTag), writeGlobal schw z lw compress dim tags set = .ok (bg.flatMap Prod.fst) ∧
    (∀ x ∈ bg, HoldsTag sch zr lr cs (lw != lr) compress dim nents x.1 x.2) ∧ bg.length ≤ 1 ∧
    bg.map Prod.snd = if str "global" ∈ set then (findTag (str "global") tags).toList else [] := by
  unfold writeGlobal
  cases hf : findTag (str "global") tags with
  | none => exact ⟨[], rfl, (by simp), by simp, by simp⟩
  | some t =>
    dsimp only
    by_cases hs : str "global" ∈ set
    · rw [if_pos hs, if_pos hs]
      obtain ⟨h1, h2⟩ := findTag_some hf
      obtain ⟨_, a, ha⟩ := h.global t h1 h2
      obtain ⟨b, hb, hh⟩ := rt_tag hz schw sch lw lr cs (h.good t h1 (by rw [h2]; exact hs))
      refine ⟨[(b, t)], ?_, by simpa using hh, by simp, by simp⟩
      rw [ha]
      dsimp only
      rw [hb]
      simp
    · rw [if_neg hs, if_neg hs]
      exact ⟨[], rfl, (by simp), by simp, by simp⟩

theorem global_first (hs : str "global" ∈ set) : ∃ a, findTag (str "global") tags = some ⟨str "global", 1, .i64 (some a)⟩ ∧ a.length = nents ∧
    Roundtrip (writeGlobal schw z lw compress dim tags set) (vtkReadKnown zr lr cs (lw != lr) compress .i64 (str "global") nents 1 64) a := by
  obtain ⟨t, ht⟩ := known_tag h hs (by decide)
  obtain ⟨h1, h2⟩ := findTag_some ht
  obtain ⟨h3, a, ha⟩ := h.global t h1 h2
  have hg := goodTag_of (h.good t h1 (by rw [h2]; exact hs))
  obtain ⟨n, n1, n2, n3⟩ := hg.size
  rw [ha] at n1
  cases a with
  | none => simp [TagData.size] at n1
  | some a =>
    simp only [TagData.size, Option.map_some, Option.some.injEq] at n1
    obtain ⟨name, ncomps, data⟩ := t
    dsimp only at h2 h3 ha n2
    subst h2 h3 ha
    refine ⟨a, ht, by omega, ?_⟩
    obtain ⟨b, w1, r1⟩ := rt_known hz (Or.inr (Or.inr rfl) : FileWidth 64) lw lr cs .i64 (name := str "global") (by decide) nents 1 a (by omega) (by omega)
    refine ⟨b, ?_, r1⟩
    unfold writeGlobal
    rw [ht]
    dsimp only
    rw [if_pos hs]
    exact w1

theorem others_loop (but : List FileBytes) : ∃ bo : List (FileBytes × FileTag), writeOthers schw z lw compress dim tags set but = .ok (bo.flatMap Prod.fst) ∧
    (∀ x ∈ bo, HoldsTag sch zr lr cs (lw != lr) compress dim nents x.1 x.2) ∧ bo.map Prod.snd = tags.filter (fun t => decide (t.name ∉ but ∧ t.name ∈ set)) := by
  unfold writeOthers
  have hall : ∀ t ∈ tags.filter (fun t => decide (t.name ∉ but ∧ t.name ∈ set)), GoodVtkTag dim nents t := by
    intro t ht
    obtain ⟨h1, h2⟩ := List.mem_filter.1 ht
    rw [decide_eq_true_eq] at h2
    exact h.good t h1 h2.2
  generalize tags.filter (fun t => decide (t.name ∉ but ∧ t.name ∈ set)) = l at hall
  induction l with
  | nil => exact ⟨[], rfl, (by simp), rfl⟩
  | cons t l ih =>
    obtain ⟨bo, h1, h2, h3⟩ := ih (fun t ht => hall t (List.mem_cons_of_mem _ ht))
    obtain ⟨b, hb, hh⟩ := rt_tag hz schw sch lw lr cs (hall t (by simp))
    refine ⟨(b, t) :: bo, ?_, ?_, by simp [h3]⟩
    · rw [List.map_cons]
      show wcat _ _ = _
      rw [hb, h1]
      rfl
    · intro x hx
      rcases List.mem_cons.1 hx with rfl | hx
      · exact hh
      · exact h2 x hx
end

/-- An array of one byte or number for each entity, which is no tag of the mesh. -/
theorem holds_extra {compress : Bool} {z zr : Option Zlib} (hz : SameZlib compress z zr) (sch : FileBytes → Sched) (lw lr cs : Bool) {dim nents : Nat} (hs : nents < 2 ^ 31)
    {name : FileBytes} (hne : name ≠ [] ∧ name.length < 2 ^ 31) (hn : ch '"' ∉ name ∧ ch '\n' ∉ name) (a : List (BitVec 32)) (ha : a.length = nents) :
    ∃ b, vtkWriteArray z lw compress (str "Int32") name 1 (some a) = .ok b ∧ HoldsTag sch zr lr cs (lw != lr) compress dim nents b ⟨name, 1, .i32 (some a)⟩ := by
  refine holds_array hz (Or.inr (Or.inl rfl)) sch lw lr cs (type := str "Int32") (by decide) hn (by decide) (by omega) (by omega) (by decide) rfl
    ⟨hne.1, hne.2, (by decide : (0 : Int) ≤ 1 ∧ (1 : Int) ≤ 127), a.length, rfl, (by show (a.length : Int) = nents * 1; omega), by omega⟩ ?_
  intro b hb
  rw [show vtkTypeOf (str "Int32") = .i32 by decide]
  exact reads_last (f := fun a => FileParser.give ((1 : Int), TagData.i32 (some a))) hb (reads_give _)

theorem holds_ghost {compress : Bool} {z zr : Option Zlib} (hz : SameZlib compress z zr) (sch : FileBytes → Sched) (lw lr cs : Bool) {dim nents : Nat} (hs : nents < 2 ^ 31)
    (a : List (BitVec 8)) (ha : a.length = nents) :
    ∃ b, vtkWriteArray z lw compress (str "UInt8") (str "vtkGhostType") 1 (some a) = .ok b ∧
      HoldsTag sch zr lr cs (lw != lr) compress dim nents b ⟨str "vtkGhostType", 1, .i8 (some a)⟩ := by
  refine holds_array hz (Or.inl rfl) sch lw lr cs (type := str "UInt8") (by decide) (by decide) (by decide) (by omega) (by omega) (by decide) rfl
    ⟨(show str "vtkGhostType" ≠ [] by decide), (show (str "vtkGhostType").length < 2 ^ 31 by decide), (by decide : (0 : Int) ≤ 1 ∧ (1 : Int) ≤ 127), a.length, rfl, (by show (a.length : Int) = nents * 1; omega), by omega⟩ ?_
  intro b hb
  rw [show vtkTypeOf (str "UInt8") = .i8 by decide]
  exact reads_last (f := fun a => FileParser.give ((1 : Int), TagData.i8 (some a))) hb (reads_give _)

theorem locals_loop {compress : Bool} {z zr : Option Zlib} (hz : SameZlib compress z zr) (sch : FileBytes → Sched) (lw lr cs : Bool) (dim : Nat) {nents commSize : Nat}
    (hs : nents < 2 ^ 31) {owners : List (BitVec 32)} (ho : commSize ≠ 1 → owners.length = nents) (set : List FileBytes) :
    ∃ bl : List (FileBytes × FileTag), writeLocals z lw compress commSize nents owners set = .ok (bl.flatMap Prod.fst) ∧
      (∀ x ∈ bl, HoldsTag sch zr lr cs (lw != lr) compress dim nents x.1 x.2) ∧ bl.length ≤ 2 ∧ ∀ t ∈ bl.map Prod.snd, t.name = str "local" ∨ t.name = str "owner" := by
  have h1 : ∃ b1 : List (FileBytes × FileTag), (if str "local" ∈ set then
        vtkWriteArray z lw compress (str "Int32") (str "local") 1 (some ((List.range nents).map (BitVec.ofNat 32))) else .ok []) = .ok (b1.flatMap Prod.fst) ∧
      (∀ x ∈ b1, HoldsTag sch zr lr cs (lw != lr) compress dim nents x.1 x.2) ∧ b1.length ≤ 1 ∧ ∀ t ∈ b1.map Prod.snd, t.name = str "local" := by
    split
    · obtain ⟨b, w1, r1⟩ := holds_extra hz sch lw lr cs (dim := dim) hs (name := str "local") (by decide) (by decide) ((List.range nents).map (BitVec.ofNat 32)) (by simp)
      exact ⟨[(b, _)], by rw [w1]; simp, by simpa using r1, by simp, by simp⟩
    · exact ⟨[], rfl, (by simp), by simp, by simp⟩
  have h2 : ∃ b2 : List (FileBytes × FileTag), (if str "owner" ∈ set ∧ commSize ≠ 1 then
        vtkWriteArray z lw compress (str "Int32") (str "owner") 1 (some owners) else .ok []) = .ok (b2.flatMap Prod.fst) ∧
      (∀ x ∈ b2, HoldsTag sch zr lr cs (lw != lr) compress dim nents x.1 x.2) ∧ b2.length ≤ 1 ∧ ∀ t ∈ b2.map Prod.snd, t.name = str "owner" := by
    split
    · rename_i hc
      obtain ⟨b, w1, r1⟩ := holds_extra hz sch lw lr cs (dim := dim) hs (name := str "owner") (by decide) (by decide) owners (ho hc.2)
      exact ⟨[(b, _)], by rw [w1]; simp, by simpa using r1, by simp, by simp⟩
    · exact ⟨[], rfl, (by simp), by simp, by simp⟩
  obtain ⟨b1, w1, r1, l1, n1⟩ := h1
  obtain ⟨b2, w2, r2, l2, n2⟩ := h2
  refine ⟨b1 ++ b2, ?_, ?_, by rw [List.length_append]; omega, ?_⟩
  · unfold writeLocals
    rw [w1, w2]
    simp [wlist, wcat, Res.bind_ok]
  · intro x hx
    rcases List.mem_append.1 hx with hx | hx
    · exact r1 x hx
    · exact r2 x hx
  · intro t ht
    rw [List.map_append] at ht
    rcases List.mem_append.1 ht with ht | ht
    · exact Or.inl (n1 t ht)
    · exact Or.inr (n2 t ht)

theorem ghost_loop {compress : Bool} {z zr : Option Zlib} (hz : SameZlib compress z zr) (sch : FileBytes → Sched) (lw lr cs : Bool) (dim : Nat) {nents commSize : Nat}
    (hs : nents < 2 ^ 31) {owned : List (BitVec 8)} (ho : commSize ≠ 1 → owned.length = nents) (set : List FileBytes) :
    ∃ bl : List (FileBytes × FileTag), (if str "vtkGhostType" ∈ set ∧ commSize ≠ 1 then
        vtkWriteArray z lw compress (str "UInt8") (str "vtkGhostType") 1 (some (owned.map fun o => if o = 0#8 then 1#8 else 0#8)) else .ok []) = .ok (bl.flatMap Prod.fst) ∧
      (∀ x ∈ bl, HoldsTag sch zr lr cs (lw != lr) compress dim nents x.1 x.2) ∧ bl.length ≤ 1 ∧ ∀ t ∈ bl.map Prod.snd, t.name = str "vtkGhostType" := by
  split
  · rename_i hc
    obtain ⟨b, w1, r1⟩ := holds_ghost hz sch lw lr cs (dim := dim) hs (owned.map fun o => if o = 0#8 then 1#8 else 0#8) (by simpa using ho hc.2)
    exact ⟨[(b, _)], by rw [w1]; simp, by simpa using r1, by simp, by simp⟩
  · exact ⟨[], rfl, (by simp), by simp, by simp⟩

/-! ## Which tags are there in the end -/

theorem findTag_none {n : FileBytes} {tags : List FileTag} (h : ∀ t ∈ tags, t.name ≠ n) : findTag n tags = none := by
  unfold findTag
  rw [List.find?_eq_none]
  intro t ht
  simpa using h t ht

theorem findTag_filter {n : FileBytes} (tags : List FileTag) (but set : List FileBytes) :
    findTag n (tags.filter (fun t => decide (t.name ∉ but ∧ t.name ∈ set))) = if n ∉ but ∧ n ∈ set then findTag n tags else none := by
  unfold findTag
  rw [List.find?_filter]
  by_cases h : n ∉ but ∧ n ∈ set
  · rw [if_pos h]
    congr 1
    funext t
    by_cases e : t.name = n
    · subst e
      simp [h.1, h.2]
    · simp [e]
  · rw [if_neg h, List.find?_eq_none]
    intro t _ ht
    simp only [decide_eq_true_eq] at ht
    rw [← ht.2] at h
    exact h ht.1

/-- What is found after the loop. `extra` are the tags that the writer added. -/
theorem findTag_end {n : FileBytes} (init g extra tags : List FileTag) (but set : List FileBytes) (hnd : (tags.map FileTag.name).Nodup) (hex : ∀ t ∈ extra, t.name ≠ n)
    (hg : g.length ≤ 1) :
    findTag n (putTags init (g ++ (extra ++ tags.filter (fun t => decide (t.name ∉ but ∧ t.name ∈ set))))) =
      (if n ∉ but ∧ n ∈ set then findTag n tags else none).or ((findTag n g).or (findTag n init)) := by
  rw [findTag_put, List.reverse_append, List.reverse_append, findTag_append, findTag_append,
    findTag_none (tags := extra.reverse) (fun t ht => hex t (List.mem_reverse.1 ht)), Option.or_none,
    findTag_reverse (hnd.sublist (List.filter_sublist.map _)), findTag_filter, Option.or_assoc]
  have : g.reverse = g := by
    match g, hg with
    | [], _ => rfl
    | [_], _ => rfl
  rw [this]

end OmegaH
