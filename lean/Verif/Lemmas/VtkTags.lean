import Verif.Lemmas.Vtk
import Verif.Props.C36
import Mathlib.Data.List.TakeWhile

/-! # Reading the tags of a VTK file -/

namespace OmegaH

open Spec

theorem parseI32_dec {n : Nat} (h : n < 2 ^ 31) : parseI32 (decimal n) = some (n : Int) := by
  have hdig := decimal_digits n
  have hd : parseDigits (decimal n) = some n := by
    unfold parseDigits
    rw [List.takeWhile_eq_self_iff.2 hdig]
    dsimp only
    rw [decimal_value, if_neg]
    have : (decimal n).isEmpty = false := by
      cases hx : decimal n with
      | nil => exact absurd hx (decimal_ne_nil n)
      | cons => rfl
    simp [this]; omega
  cases hx : decimal n with
  | nil => exact absurd hx (decimal_ne_nil n)
  | cons a l =>
    rw [hx] at hd hdig
    have ha := hdig a (by simp)
    simp only [isDecimalDigit, decide_eq_true_eq] at ha
    unfold parseI32
    rw [List.dropWhile_cons, if_neg (by simp; omega)]
    split
    · rename_i h1; cases h1; exact absurd ha.1 (by decide)
    · rename_i h1; cases h1; exact absurd ha.1 (by decide)
    · rw [hd]; rfl

theorem reads_stoi {n : Int} (h0 : 0 ≤ n) (h : n < 2 ^ 31) : Reads (readStoi (intText n)) [] n := by
  unfold readStoi intText
  rw [if_neg (by omega), parseI32_dec (by omega)]
  dsimp only
  rw [Int.toNat_of_nonneg h0]
  exact reads_give _

/-! ## Resizing -/

theorem mod_div_mul {n old : Nat} (ho : 0 < old) {l : Nat} (hl : l = n * old) : l % old = 0 ∧ l / old = n := by
  subst hl
  exact ⟨Nat.mul_mod_left n old, Nat.mul_div_cancel n ho⟩

theorem resizeVectors_spec (s : Sched) {a : List (BitVec 64)} {n old new : Nat} (ho : 0 < old) (hl : a.length = n * old) (hb : n * new < 2 ^ 31) :
    ∃ b, resizeVectors s a old new = .ok b ∧ b.length = n * new ∧ ∀ i j, i < n → j < new → b[i * new + j]? = if j < old then a[i * old + j]? else some 0#64 := by
  unfold resizeVectors
  by_cases he : old = new
  · subst he
    rw [if_pos rfl]
    exact ⟨a, rfl, hl, fun i j _ hj => by rw [if_pos hj]⟩
  · obtain ⟨e1, e2⟩ := mod_div_mul ho hl
    rw [if_neg he, if_neg (by omega), e2, if_neg (by omega)]
    have hin : ∀ i j, i < n → j < old → ∃ v, a[i * old + j]? = some v := by
      intro i j hi hj
      have : i * old + j < a.length := by
        rw [hl]
        calc i * old + j < i * old + old := by omega
          _ = (i + 1) * old := by rw [Nat.add_mul, Nat.one_mul]
          _ ≤ n * old := Nat.mul_le_mul_right _ (by omega)
      exact ⟨_, List.getElem?_eq_getElem this⟩
    obtain ⟨out, h1, h2, h3⟩ := parFixed s n new (fun i => (List.range (min old new)).map (fun j => (a[i * old + j]?).getD 0#64) ++ List.replicate (new - min old new) 0#64)
      (fun i => ((List.range (min old new)).mapM (fun j => a[i * old + j]?)).map
        (fun l => blockWrites (i * new) (l ++ List.replicate (new - min old new) 0#64))) (by intro i; simp) (by
        intro i hi
        rw [mapM_map _ _ (fun j => (a[i * old + j]?).getD 0#64)]
        · rfl
        · intro j hj
          obtain ⟨v, hv⟩ := hin i j hi (by have := List.mem_range.1 hj; omega)
          rw [hv]; rfl)
    refine ⟨out, by rw [h1]; rfl, h2, ?_⟩
    intro i j hi hj
    rw [h3 i j hi hj]
    by_cases hjo : j < old
    · obtain ⟨v, hv⟩ := hin i j hi hjo
      rw [if_pos hjo, List.getElem?_append_left (by simp; omega), List.getElem?_map, List.getElem?_range (by omega)]
      simp [hv]
    · rw [if_neg hjo, List.getElem?_append_right (by simp; omega)]
      rw [List.getElem?_replicate, if_pos (by simp; omega)]

theorem blocks_ext {a b : List (BitVec 64)} {n w : Nat} (hw : 0 < w) (ha : a.length = n * w) (hb : b.length = n * w)
    (h : ∀ i j, i < n → j < w → a[i * w + j]? = b[i * w + j]?) : a = b := by
  apply List.ext_getElem?
  intro k
  by_cases hk : k < n * w
  · have := h (k / w) (k % w) ((Nat.div_lt_iff_lt_mul hw).2 hk) (Nat.mod_lt _ hw)
    rwa [Nat.div_add_mod' k w] at this
  · rw [List.getElem?_eq_none (by omega), List.getElem?_eq_none (by omega)]

theorem resizeVectors_back (s s' : Sched) {a : List (BitVec 64)} {n d : Nat} (hd : 0 < d) (hd3 : d ≤ 3) (hl : a.length = n * d) (hb : n * 3 < 2 ^ 31) :
    ∃ b, resizeVectors s a d 3 = .ok b ∧ b.length = n * 3 ∧ resizeVectors s' b 3 d = .ok a := by
  obtain ⟨b, h1, h2, h3⟩ := resizeVectors_spec s hd hl hb
  have hnd : n * d ≤ n * 3 := Nat.mul_le_mul_left _ hd3
  obtain ⟨c, g1, g2, g3⟩ := resizeVectors_spec s' (by decide : 0 < 3) h2 (by omega : n * d < 2 ^ 31)
  refine ⟨b, h1, h2, ?_⟩
  rw [g1]
  congr 1
  refine blocks_ext hd g2 hl ?_
  intro i j hi hj
  rw [g3 i j hi hj, if_pos (by omega), h3 i j hi (by omega), if_pos hj]

theorem resizeSymms_spec (s : Sched) {a : List (BitVec 64)} {n old new : Nat} (hon : (old = 2 ∧ new = 3) ∨ (old = 3 ∧ new = 2)) (hl : a.length = n * symmNcomps old)
    (hb : n * symmNcomps new < 2 ^ 31) :
    ∃ b, resizeSymms s a old new = .ok b ∧ b.length = n * symmNcomps new ∧ ∀ i j, i < n → j < symmNcomps new →
      b[i * symmNcomps new + j]? = ((symmEntries new)[j]?).bind (fun e => if e.1 < 2 ∧ e.2 < 2 then a[i * symmNcomps old + symmPos old e.1 e.2]? else some 0#64) := by
  have ho : 0 < symmNcomps old := by rcases hon with ⟨rfl, rfl⟩ | ⟨rfl, rfl⟩ <;> decide
  have hmin : min old new = 2 := by omega
  have hlen : (symmEntries new).length = symmNcomps new := by rcases hon with ⟨rfl, rfl⟩ | ⟨rfl, rfl⟩ <;> decide
  have hpos : ∀ x y, x < 2 → y < 2 → symmPos old x y < symmNcomps old := by
    intro x y hx hy
    rcases hon with ⟨rfl, rfl⟩ | ⟨rfl, rfl⟩ <;> interval_cases x <;> interval_cases y <;> decide
  obtain ⟨e1, e2⟩ := mod_div_mul ho hl
  unfold resizeSymms
  rw [if_neg (by omega), e2, if_neg (by omega), hmin]
  have hin : ∀ i j, i < n → j < symmNcomps old → ∃ v, a[i * symmNcomps old + j]? = some v := by
    intro i j hi hj
    have : i * symmNcomps old + j < a.length := by
      rw [hl]
      calc i * symmNcomps old + j < i * symmNcomps old + symmNcomps old := by omega
        _ = (i + 1) * symmNcomps old := by rw [Nat.add_mul, Nat.one_mul]
        _ ≤ n * symmNcomps old := Nat.mul_le_mul_right _ (by omega)
    exact ⟨_, List.getElem?_eq_getElem this⟩
  obtain ⟨out, h1, h2, h3⟩ := parFixed s n (symmNcomps new)
    (fun i => (symmEntries new).map (fun e => (if e.1 < 2 ∧ e.2 < 2 then a[i * symmNcomps old + symmPos old e.1 e.2]? else some 0#64).getD 0#64))
    (fun i => ((symmEntries new).mapM (fun e => if e.1 < 2 ∧ e.2 < 2 then a[i * symmNcomps old + symmPos old e.1 e.2]? else some 0#64)).map
      (fun l => blockWrites (i * symmNcomps new) l)) (by intro i; simp [hlen]) (by
      intro i hi
      rw [mapM_map _ _ (fun e => (if e.1 < 2 ∧ e.2 < 2 then a[i * symmNcomps old + symmPos old e.1 e.2]? else some 0#64).getD 0#64)]
      · rfl
      · intro e he
        split
        · rename_i h
          obtain ⟨v, hv⟩ := hin i _ hi (hpos e.1 e.2 h.1 h.2)
          rw [hv]; rfl
        · rfl)
  refine ⟨out, by rw [h1]; rfl, h2, ?_⟩
  intro i j hi hj
  rw [h3 i j hi hj, List.getElem?_map]
  cases hx : (symmEntries new)[j]? with
  | none => rfl
  | some e =>
    simp only [Option.map_some, Option.bind_some]
    split
    · rename_i h
      obtain ⟨v, hv⟩ := hin i _ hi (hpos e.1 e.2 h.1 h.2)
      rw [hv]; rfl
    · rfl

theorem resizeSymms_back (s s' : Sched) {a : List (BitVec 64)} {n : Nat} (hl : a.length = n * 3) (hb : n * 6 < 2 ^ 31) :
    ∃ b, resizeSymms s a 2 3 = .ok b ∧ b.length = n * 6 ∧ resizeSymms s' b 3 2 = .ok a := by
  obtain ⟨b, h1, h2, h3⟩ := resizeSymms_spec s (Or.inl ⟨rfl, rfl⟩) (n := n) hl hb
  obtain ⟨c, g1, g2, g3⟩ := resizeSymms_spec s' (Or.inr ⟨rfl, rfl⟩) (n := n) h2 (by show n * 3 < 2 ^ 31; omega)
  refine ⟨b, h1, h2, ?_⟩
  rw [g1]
  congr 1
  refine blocks_ext (by decide : 0 < 3) g2 hl ?_
  intro i j hi hj
  have k1 := g3 i j hi hj
  have k2 : ∀ j, j < 6 → b[i * 6 + j]? = _ := fun j hj => h3 i j hi hj
  have e1 : symmNcomps 2 = 3 := rfl
  have e2 : symmNcomps 3 = 6 := rfl
  rw [e1, e2] at k1
  rw [e1] at k2
  rw [k1]
  interval_cases j
  · simpa [symmEntries, symmPos] using k2 0 (by decide)
  · simpa [symmEntries, symmPos] using k2 1 (by decide)
  · simpa [symmEntries, symmPos] using k2 3 (by decide)

/-! ## Tags -/

/-- The name of the type of an array, as a tag is read. -/
def vtkTypeOf (text : FileBytes) : VtkType :=
  if text = str "Int8" then .i8 else if text = str "Int32" then .i32 else if text = str "Int64" then .i64 else if text = str "Float64" then .f64 else .i8

theorem reads_start_array {type name : FileBytes} (ht : ch '"' ∉ type ∧ ch '\n' ∉ type) (hn : ch '"' ∉ name ∧ ch '\n' ∉ name) {ncomps : Int} (h0 : 0 ≤ ncomps)
    (h1 : ncomps < 2 ^ 31) :
    Reads readArrayStart (str "<DataArray " ++ describeArray type name ncomps ++ str ">\n") (some (vtkTypeOf type, name, ncomps)) := by
  obtain ⟨tag, g1, g2, g3, g4, g5, g6, g7⟩ := reads_arrayStart ht hn ncomps
  refine reads_last g1 ?_
  rw [if_neg (by simp [g2, g3]), g4, g5, g6, g7]
  dsimp only
  refine reads_first (reads_stoi h0 h1) ?_
  exact reads_first (reads_check (by simp)) (reads_give _)

theorem vtkTypeOf_text (t : VtkType) : vtkTypeOf t.text = t := by cases t <;> decide

/-- The bytes hold a tag. -/
def HoldsTag (sch : FileBytes → Sched) (z : Option Zlib) (little charSigned swap isCompressed : Bool) (dim nents : Nat) (b : FileBytes) (t : FileTag) : Prop :=
  b ≠ [] ∧ ∀ tags : List FileTag, tags.length < 127 →
    Reads (vtkReadTag sch z little charSigned swap isCompressed dim nents tags) b (some (removeTag t.name tags ++ [t]))

theorem removeTag_length (name : FileBytes) (tags : List FileTag) : (removeTag name tags).length ≤ tags.length := List.length_filter_le _ _

theorem removeTag_name {name : FileBytes} {tags : List FileTag} : ∀ a ∈ removeTag name tags, a.name ≠ name := by
  intro a ha
  simpa using (List.mem_filter.1 ha).2

/-- An array with a description, read as a tag. -/
theorem holds_array {compress : Bool} {z zr : Option Zlib} (hz : SameZlib compress z zr) {w : Nat} (hw : FileWidth w) (sch : FileBytes → Sched) (lw lr cs : Bool)
    {type name : FileBytes} (ht : ch '"' ∉ type ∧ ch '\n' ∉ type) (hn : ch '"' ∉ name ∧ ch '\n' ∉ name) {dim nents : Nat} {ncomps : Int} (h0 : 0 ≤ ncomps)
    {a : List (BitVec w)} (ha : a.length < 2 ^ 31) (hs : (nents : Int) * ncomps = a.length) (h31 : ncomps < 2 ^ 31) {t : FileTag} (hname : t.name = name)
    (ht2 : GoodTag nents t)
    (hdata : ∀ b, Reads (vtkReadArray zr lr cs (nents * ncomps) (lw != lr) compress w) b a →
      Reads (vtkReadData sch zr lr cs (lw != lr) compress dim (vtkTypeOf type) name ncomps (nents * ncomps)) b (t.ncomps, t.data)) :
    ∃ b, vtkWriteArray z lw compress type name ncomps (some a) = .ok b ∧ HoldsTag sch zr lr cs (lw != lr) compress dim nents b t := by
  obtain ⟨d, hd, hr⟩ := rt_data hz hw lw lr cs a ha (nents * ncomps) hs
  refine ⟨_, by unfold vtkWriteArray; dsimp only; rw [hd]; rfl, ?_, ?_⟩
  · intro h
    have := (List.append_eq_nil_iff.1 h).1
    rw [List.append_assoc] at this
    exact absurd (List.append_eq_nil_iff.1 this).1 (by decide)
  · intro tags htags
    refine reads_andThen (reads_start_array ht hn h0 h31) ?_
    dsimp only
    rw [if_neg (by omega)]
    refine reads_andThen (hdata d hr) ?_
    dsimp only
    have ht3 : (⟨name, t.ncomps, t.data⟩ : FileTag) = t := by rw [← hname]
    rw [ht3]
    refine reads_first (reads_lift (a := removeTag name tags ++ [t])
      (addTag_new ht2 (by omega) (by rw [hname]; exact removeTag_name) (Nat.lt_of_le_of_lt (removeTag_length _ _) htags))) ?_
    rw [List.append_nil]
    refine reads_last reads_arrayEnd ?_
    rw [hname]
    exact reads_give _

theorem goodTag_of {dim nents : Nat} {t : FileTag} (h : GoodVtkTag dim nents t) : GoodTag nents t := by
  obtain ⟨n, h1, h2⟩ := h.size
  have h3 := h.small
  have h4 := h.comps
  have h5 : (nents : Int) * t.ncomps ≤ nents * max t.ncomps 6 := Int.mul_le_mul_of_nonneg_left (by omega) (by omega)
  exact ⟨h.named.1, h.named.2, h.comps, n, h1, h2, by omega⟩

/-- Every tag that is written is read. -/
theorem rt_tag {compress : Bool} {z zr : Option Zlib} (hz : SameZlib compress z zr) (schw sch : FileBytes → Sched) (lw lr cs : Bool) {dim nents : Nat} {t : FileTag}
    (h : GoodVtkTag dim nents t) :
    ∃ b, vtkWriteTag schw z lw compress dim t = .ok b ∧ HoldsTag sch zr lr cs (lw != lr) compress dim nents b t := by
  have hg := goodTag_of h
  obtain ⟨n, n1, n2, n3⟩ := hg.size
  have hc := h.comps
  have hsmall : (nents : Int) * 6 < 2 ^ 31 := Int.lt_of_le_of_lt (Int.mul_le_mul_of_nonneg_left (by omega) (by omega)) h.small
  have key : ∀ {w : Nat} (_ : FileWidth w) (type : VtkType) (a : List (BitVec w)) (_ : a.length = n)
      (_ : ∀ b, Reads (vtkReadArray zr lr cs (nents * t.ncomps) (lw != lr) compress w) b a →
        Reads (vtkReadData sch zr lr cs (lw != lr) compress dim (vtkTypeOf type.text) t.name t.ncomps (nents * t.ncomps)) b (t.ncomps, t.data)),
      ∃ b, vtkWriteArray z lw compress type.text t.name t.ncomps (some a) = .ok b ∧ HoldsTag sch zr lr cs (lw != lr) compress dim nents b t := by
    intro w hw type a ha hdata
    exact holds_array hz hw sch lw lr cs type.text_chars h.name hc.1 (by omega) (by omega) (by omega) rfl hg hdata
  unfold vtkWriteTag
  have w8 : FileWidth 8 := Or.inl rfl
  have w32 : FileWidth 32 := Or.inr (Or.inl rfl)
  have w64 : FileWidth 64 := Or.inr (Or.inr rfl)
  cases hd : t.data with
  | i8 a =>
    rw [hd] at n1
    cases a with
    | none => simp [TagData.size] at n1
    | some a =>
      simp only [TagData.size, Option.map_some, Option.some.injEq] at n1
      refine key w8 .i8 a n1 ?_
      intro b hb
      rw [hd, vtkTypeOf_text]
      unfold vtkReadData
      dsimp only
      exact reads_last hb (reads_give _)
  | i32 a =>
    rw [hd] at n1
    cases a with
    | none => simp [TagData.size] at n1
    | some a =>
      simp only [TagData.size, Option.map_some, Option.some.injEq] at n1
      refine key w32 .i32 a n1 ?_
      intro b hb
      rw [hd, vtkTypeOf_text]
      unfold vtkReadData
      dsimp only
      exact reads_last hb (reads_give _)
  | i64 a =>
    rw [hd] at n1
    cases a with
    | none => simp [TagData.size] at n1
    | some a =>
      simp only [TagData.size, Option.map_some, Option.some.injEq] at n1
      refine key w64 .i64 a n1 ?_
      intro b hb
      rw [hd, vtkTypeOf_text]
      unfold vtkReadData
      dsimp only
      exact reads_last hb (reads_give _)
  | f64 a =>
    rw [hd] at n1
    cases a with
    | none => simp [TagData.size] at n1
    | some a =>
      simp only [TagData.size, Option.map_some, Option.some.injEq] at n1
      dsimp only
      have hsix := fun e => h.six e _ hd
      by_cases hdim : dim = 2
      · rw [if_pos hdim]
        by_cases c2 : t.ncomps = 2
        · rw [if_pos c2]
          rw [c2] at n2
          obtain ⟨b, b1, b2, b3⟩ := resizeVectors_back (schw t.name) (sch t.name) (a := a) (n := nents) (d := 2) (by decide) (by decide) (by omega) (by omega)
          rw [b1, Res.bind_ok]
          refine holds_array hz w64 sch lw lr cs (VtkType.text_chars .f64) h.name (by decide) (by omega) (by omega) (by decide) rfl hg ?_
          intro d hd'
          rw [vtkTypeOf_text]
          unfold vtkReadData
          dsimp only
          refine reads_last hd' ?_
          rw [if_pos ⟨hdim, rfl⟩]
          refine reads_first (reads_lift b3) ?_
          rw [c2, hd]
          exact reads_give _
        · rw [if_neg c2]
          by_cases c3 : t.ncomps = 3
          · rw [if_pos c3]
            rw [c3] at n2
            obtain ⟨b, b1, b2, b3⟩ := resizeSymms_back (schw t.name) (sch t.name) (a := a) (n := nents) (by omega) (by omega)
            rw [b1, Res.bind_ok]
            refine holds_array hz w64 sch lw lr cs (VtkType.text_chars .f64) h.name (by decide) (by omega) (by omega) (by decide) rfl hg ?_
            intro d hd'
            rw [vtkTypeOf_text]
            unfold vtkReadData
            dsimp only
            refine reads_last hd' ?_
            rw [if_neg (by simp), if_pos ⟨hdim, rfl⟩]
            refine reads_first (reads_lift b3) ?_
            rw [c3, hd]
            exact reads_give _
          · rw [if_neg c3]
            refine key w64 .f64 a n1 ?_
            intro b hb
            rw [hd, vtkTypeOf_text]
            unfold vtkReadData
            dsimp only
            refine reads_last hb ?_
            rw [if_neg (by simp [c3]), if_neg (by simp [hsix hdim])]
            exact reads_give _
      · rw [if_neg hdim]
        refine key w64 .f64 a n1 ?_
        intro b hb
        rw [hd, vtkTypeOf_text]
        unfold vtkReadData
        dsimp only
        refine reads_last hb ?_
        rw [if_neg (by simp [hdim]), if_neg (by simp [hdim])]
        exact reads_give _

/-- What the loop makes of the tags that were there and those that are read. -/
def putTags (tags new : List FileTag) : List FileTag := new.foldl (fun acc t => removeTag t.name acc ++ [t]) tags

theorem reads_no_tag (sch : FileBytes → Sched) (z : Option Zlib) (little cs swap comp : Bool) (dim : Nat) (nents : Int) (tags : List FileTag) {name : FileBytes}
    (hname : GoodName name) (hn : ch '\n' ∉ name) :
    Reads (vtkReadTag sch z little cs swap comp dim nents tags) (str "</" ++ (name ++ str ">\n")) none := by
  obtain ⟨tag, h1, h2, h3⟩ := reads_end hname hn
  refine reads_last (a := none) (reads_last h1 ?_) (reads_give _)
  rw [if_pos (by simp [h2])]
  exact reads_first (reads_check (by simp [h2])) (reads_give _)

theorem reads_tags (sch : FileBytes → Sched) (z : Option Zlib) (little cs swap comp : Bool) {dim nents : Nat} {name : FileBytes} (hname : GoodName name)
    (hn : ch '\n' ∉ name) : ∀ (bs : List (FileBytes × FileTag)) (tags : List FileTag) (fuel : Nat),
    (∀ x ∈ bs, HoldsTag sch z little cs swap comp dim nents x.1 x.2) → tags.length + bs.length ≤ 127 → bs.length < fuel →
    Reads (vtkReadTags sch z little cs swap comp dim nents fuel tags) (bs.flatMap Prod.fst ++ (str "</" ++ (name ++ str ">\n"))) (putTags tags (bs.map Prod.snd))
  | [], tags, 0, _, _, hf => by simp at hf
  | [], tags, fuel + 1, _, _, _ => by
    unfold vtkReadTags
    refine reads_last (reads_no_tag sch z little cs swap comp dim nents tags hname hn) (reads_give _)
  | x :: bs, tags, 0, _, _, hf => by simp at hf
  | x :: bs, tags, fuel + 1, h, hl, hf => by
    unfold vtkReadTags
    rw [List.flatMap_cons, List.append_assoc]
    rw [List.length_cons] at hl hf
    refine reads_andThen ((h x (by simp)).2 tags (by omega)) ?_
    have := removeTag_length x.2.name tags
    exact reads_tags sch z little cs swap comp hname hn bs (removeTag x.2.name tags ++ [x.2]) fuel (fun y hy => h y (List.mem_cons_of_mem _ hy))
      (by rw [List.length_append, List.length_singleton]; omega) (by omega)

theorem flat_length (bs : List (FileBytes × FileTag)) (h : ∀ x ∈ bs, x.1 ≠ []) : bs.length ≤ (bs.flatMap Prod.fst).length := by
  induction bs with
  | nil => simp
  | cons x bs ih =>
    have h1 := ih (fun y hy => h y (List.mem_cons_of_mem _ hy))
    have h2 : 0 < x.1.length := List.length_pos_iff.2 (h x (by simp))
    rw [List.flatMap_cons, List.length_append, List.length_cons]
    omega

theorem reads_loop (sch : FileBytes → Sched) (z : Option Zlib) (little cs swap comp : Bool) {dim nents : Nat} {name : FileBytes} (hname : GoodName name)
    (hn : ch '\n' ∉ name) (bs : List (FileBytes × FileTag)) (tags : List FileTag)
    (h : ∀ x ∈ bs, HoldsTag sch z little cs swap comp dim nents x.1 x.2) (hl : tags.length + bs.length ≤ 127) :
    Reads (readTagLoop sch z little cs swap comp dim nents tags) (bs.flatMap Prod.fst ++ (str "</" ++ (name ++ str ">\n"))) (putTags tags (bs.map Prod.snd)) := by
  intro rest
  unfold readTagLoop
  refine reads_tags sch z little cs swap comp hname hn bs tags _ h hl ?_ rest
  have := flat_length bs (fun x hx => (h x hx).1)
  simp only [List.length_append]
  omega

/-! ## Looking tags up -/

theorem findTag_remove (n name : FileBytes) (tags : List FileTag) : findTag n (removeTag name tags) = if n = name then none else findTag n tags := by
  unfold findTag removeTag
  rw [List.find?_filter]
  by_cases h : n = name
  · subst h
    rw [if_pos rfl, List.find?_eq_none]
    intro t _
    simp
  · rw [if_neg h]
    congr 1
    funext t
    by_cases e : t.name = n
    · simp [e, h]
    · simp [e]

theorem findTag_append (n : FileBytes) (a b : List FileTag) : findTag n (a ++ b) = (findTag n a).or (findTag n b) := by
  unfold findTag
  exact List.find?_append

/-- The last tag of a name counts. -/
theorem findTag_put (n : FileBytes) (new : List FileTag) : ∀ tags : List FileTag, findTag n (putTags tags new) = (findTag n new.reverse).or (findTag n tags) := by
  induction new with
  | nil => intro tags; rfl
  | cons t new ih =>
    intro tags
    have : putTags tags (t :: new) = putTags (removeTag t.name tags ++ [t]) new := rfl
    rw [this, ih, findTag_append, findTag_remove, List.reverse_cons, findTag_append, Option.or_assoc]
    congr 1
    by_cases h : n = t.name
    · subst h
      simp [findTag]
    · have h' : ¬ t.name = n := fun e => h e.symm
      simp [findTag, h, h']

theorem findTag_reverse {n : FileBytes} {tags : List FileTag} (h : (tags.map FileTag.name).Nodup) : findTag n tags.reverse = findTag n tags := by
  unfold findTag
  cases hx : tags.find? (fun t => decide (t.name = n)) with
  | none =>
    rw [List.find?_eq_none] at hx ⊢
    intro t ht
    exact hx t (List.mem_reverse.1 ht)
  | some t =>
    have h1 := List.find?_some hx
    have h2 := List.mem_of_find?_eq_some hx
    cases hy : tags.reverse.find? (fun t => decide (t.name = n)) with
    | none =>
      rw [List.find?_eq_none] at hy
      exact absurd h1 (hy t (List.mem_reverse.2 h2))
    | some t' =>
      have g1 := List.find?_some hy
      have g2 := List.mem_reverse.1 (List.mem_of_find?_eq_some hy)
      simp only [decide_eq_true_eq] at h1 g1
      have := List.inj_on_of_nodup_map h g2 h2 (by rw [h1, g1])
      rw [this]

end OmegaH
