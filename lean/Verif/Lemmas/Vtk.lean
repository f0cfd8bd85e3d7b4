import Verif.Spec.Vtk
import Verif.Lemmas.File
import Verif.Props.C14
import Verif.Props.C33
import Verif.Props.C32Dir
import Verif.Props.C40

/-! # Reading what the VTK writer wrote -/

namespace OmegaH

open Spec

/-- The parser reads the bytes. -/
def Reads {α : Type} (p : FileParser α) (b : FileBytes) (a : α) : Prop := ∀ rest, p (b ++ rest) = .ok (a, rest)

theorem reads_give {α : Type} (a : α) : Reads (FileParser.give a) [] a := fun _ => rfl

theorem reads_andThen {α β : Type} {p : FileParser α} {f : α → FileParser β} {b c : FileBytes} {a : α} {d : β} (h : Reads p b a) (h' : Reads (f a) c d) :
    Reads (p.andThen f) (b ++ c) d := by
  intro rest
  unfold FileParser.andThen
  rw [List.append_assoc, h, Res.bind_ok]
  exact h' rest

theorem reads_last {α β : Type} {p : FileParser α} {f : α → FileParser β} {b : FileBytes} {a : α} {d : β} (h : Reads p b a) (h' : Reads (f a) [] d) :
    Reads (p.andThen f) b d := by
  have := reads_andThen h h'
  rwa [List.append_nil] at this

theorem reads_first {α β : Type} {p : FileParser α} {f : α → FileParser β} {b : FileBytes} {a : α} {d : β} (h : Reads p [] a) (h' : Reads (f a) b d) :
    Reads (p.andThen f) b d := reads_andThen h h'

theorem reads_check {c : Bool} (h : c = true) : Reads (FileParser.check c) [] () := by
  intro rest
  unfold FileParser.check
  rw [if_pos h]
  rfl

theorem reads_lift {α : Type} {r : Res α} {a : α} (h : r = .ok a) : Reads (liftRes r) [] a := by
  intro rest
  unfold liftRes
  rw [h]
  rfl

/-! ## Values -/

theorem ofMem_memB {w : Nat} (hw : FileWidth w) (l : Bool) (v : BitVec w) : ofMemBytes l w (memBytes l v) = v := by
  cases l with
  | true => exact ofMem_mem hw v
  | false =>
    rw [memBytes_big]
    have : ofMemBytes false w (memBytes true v).reverse = ofMemBytes true w (memBytes true v) := by
      simp [ofMemBytes]
    rw [this, ofMem_mem hw]

theorem memBytes_not {w : Nat} (hw : FileWidth w) (l : Bool) (v : BitVec w) : memBytes l v = memBytes (!l) (swapValue w v) := by
  cases l with
  | true => rw [Bool.not_true, memBytes_big, swap_bytes hw, List.reverse_reverse]
  | false => rw [Bool.not_false, memBytes_big, swap_bytes hw]

theorem raw_mem {w : Nat} (hw : FileWidth w) (lw lr : Bool) (v : BitVec w) : rawValue lr (lw != lr) w (memBytes lw v) = v := by
  unfold rawValue
  by_cases h : lw = lr
  · subst h
    rw [if_neg (by simp), ofMem_memB hw]
  · have e : lr = !lw := by cases lw <;> cases lr <;> simp_all
    subst e
    rw [if_pos (by cases lw <;> rfl), memBytes_not hw lw v, ofMem_memB hw, swap_invol hw]

theorem memBytes_length {w : Nat} (l : Bool) (v : BitVec w) : (memBytes l v).length = w / 8 := by
  unfold memBytes
  cases l <;> simp

theorem raw_length {w : Nat} (l : Bool) (a : List (BitVec w)) : (a.flatMap (fun v => memBytes l v)).length = w / 8 * a.length := by
  induction a with
  | nil => simp
  | cons v a ih => rw [List.flatMap_cons, List.length_append, ih, memBytes_length, List.length_cons, Nat.mul_add]; omega

theorem raw_values {w : Nat} (hw : FileWidth w) (lw lr : Bool) (a : List (BitVec w)) :
    rawValues lr (lw != lr) w a.length (a.flatMap (fun v => memBytes lw v)) = a := by
  induction a with
  | nil => rfl
  | cons v a ih =>
    rw [List.flatMap_cons, List.length_cons]
    unfold rawValues
    have h1 : (memBytes lw v ++ a.flatMap (fun v => memBytes lw v)).take (w / 8) = memBytes lw v := by
      rw [← memBytes_length lw v]; simp
    have h2 : (memBytes lw v ++ a.flatMap (fun v => memBytes lw v)).drop (w / 8) = a.flatMap (fun v => memBytes lw v) := by
      rw [← memBytes_length lw v]; simp
    rw [h1, h2, raw_mem hw, ih]

/-! ## Base64 -/

/-- The encoded text as bytes. -/
def b64 (b : FileBytes) : FileBytes := (base64 (b.map BitVec.toNat)).map (BitVec.ofNat 8)

theorem isBytes_toNat (b : FileBytes) : IsBytes (b.map BitVec.toNat) := by
  intro x hx
  obtain ⟨c, _, rfl⟩ := List.mem_map.1 hx
  exact c.isLt

theorem encodeBytes_eq (b : FileBytes) : encodeBytes b = .ok (b64 b) := by
  unfold encodeBytes b64
  rw [C14_encode_is_base64 _ (isBytes_toNat b)]
  rfl

theorem toNat_back (b : FileBytes) : (b.map BitVec.toNat).map (BitVec.ofNat 8) = b := by
  rw [List.map_map]
  conv_rhs => rw [← List.map_id b]
  congr 1
  funext c
  simp

theorem b64_toNat (b : FileBytes) : (b64 b).map BitVec.toNat = base64 (b.map BitVec.toNat) := by
  unfold b64
  rw [List.map_map]
  conv_rhs => rw [← List.map_id (base64 _)]
  apply List.map_congr_left
  intro c hc
  have := base64Char_lt (base64_chars _ c hc)
  simp [BitVec.toNat_ofNat]
  omega

theorem b64_length (b : FileBytes) : (base64 (b.map BitVec.toNat)).length = encodedSize b.length := by
  have := (C14_encoded_length _ _ (isBytes_toNat b) (C14_encode_is_base64 _ (isBytes_toNat b))).1
  rwa [List.length_map] at this

theorem reads_encoded (a b : FileBytes) :
    Reads readEncodedBytes (b64 a ++ (b64 b ++ str "\n")) (base64 (a.map BitVec.toNat) ++ base64 (b.map BitVec.toNat)) := by
  intro rest
  unfold readEncodedBytes
  have e : ((b64 a ++ (b64 b ++ str "\n")) ++ rest).map BitVec.toNat =
      (base64 (a.map BitVec.toNat) ++ base64 (b.map BitVec.toNat)) ++ 10 :: rest.map BitVec.toNat := by
    rw [show str "\n" = [10#8] by decide]
    simp [b64_toNat]
  rw [e, (C14_read_encoded _ _ 10 ?_ (by omega) (by decide)).1]
  · dsimp only
    rw [toNat_back]
  · intro c hc
    rcases List.mem_append.1 hc with h | h
    · exact base64_chars _ c h
    · exact base64_chars _ c h

theorem reads_decode (cs : Bool) (b : FileBytes) (n : Nat) (h : n = b.length) : Reads (decodeBytes cs (base64 (b.map BitVec.toNat)) n) [] b := by
  intro rest
  subst h
  unfold decodeBytes
  obtain ⟨t, h1, h2⟩ := C14_roundtrip cs (b.map BitVec.toNat) [] (isBytes_toNat b)
  rw [C14_encode_is_base64 _ (isBytes_toNat b)] at h1
  cases h1
  rw [List.append_nil, List.length_map] at h2
  rw [h2, Res.bind_ok, toNat_back]
  rfl

theorem reads_substr (a b : FileBytes) (n : Nat) (h : n = a.length) :
    Reads (substrFrom (base64 (a.map BitVec.toNat) ++ base64 (b.map BitVec.toNat)) (encodedSize n)) [] (base64 (b.map BitVec.toNat)) := by
  intro rest
  unfold substrFrom
  subst h
  rw [← b64_length a, if_pos (by simp), List.drop_left]
  rfl

theorem take_header (a b : FileBytes) (n : Nat) (h : n = a.length) :
    (base64 (a.map BitVec.toNat) ++ base64 (b.map BitVec.toNat)).take (encodedSize n) = base64 (a.map BitVec.toNat) := by
  subst h
  rw [← b64_length a, List.take_left]

/-- What is written is read. -/
def Roundtrip {α : Type} (w : Res FileBytes) (p : FileParser α) (a : α) : Prop := ∃ b, w = .ok b ∧ Reads p b a

theorem rt_data {compress : Bool} {z zr : Option Zlib} (hz : SameZlib compress z zr) {w : Nat} (hw : FileWidth w) (lw lr cs : Bool) (a : List (BitVec w))
    (ha : a.length < 2 ^ 31) (size : Int) (hs : size = a.length) :
    Roundtrip (vtkWriteData z lw compress a) (vtkReadArray zr lr cs size (lw != lr) compress w) a := by
  have w64 : FileWidth 64 := Or.inr (Or.inr rfl)
  have h8 : w / 8 ≤ 8 ∧ 0 < w / 8 := by rcases hw with rfl | rfl | rfl <;> decide
  have hprod : w / 8 * a.length < 2 ^ 35 := by
    calc w / 8 * a.length ≤ 8 * a.length := Nat.mul_le_mul_right _ h8.1
      _ < 2 ^ 35 := by omega
  have hn : (BitVec.ofNat 64 (w / 8 * a.length)).toNat = w / 8 * a.length := by
    rw [BitVec.toNat_ofNat]; exact Nat.mod_eq_of_lt (by omega)
  have heq : BitVec.ofNat 64 (w / 8 * a.length) = BitVec.ofInt 64 size * BitVec.ofNat 64 (w / 8) := by
    rw [hs, BitVec.ofInt_natCast, ← BitVec.ofNat_mul, Nat.mul_comm]
  have hsize : size.toNat = a.length := by rw [hs]; rfl
  unfold vtkWriteData vtkReadArray
  dsimp only
  cases compress with
  | false =>
    simp only [Bool.false_eq_true, if_false]
    refine ⟨_, by rw [encodeBytes_eq, encodeBytes_eq]; rfl, ?_⟩
    have := reads_encoded (memBytes lw (BitVec.ofNat 64 (w / 8 * a.length))) (a.flatMap (fun v => memBytes lw v))
    rw [List.append_nil]
    refine reads_last this ?_
    refine reads_first (a := (BitVec.ofNat 64 (w / 8 * a.length), BitVec.ofNat 64 (w / 8 * a.length),
      base64 ((a.flatMap (fun v => memBytes lw v)).map BitVec.toNat))) ?_ ?_
    · rw [take_header _ _ 8 (by rw [memBytes_length])]
      refine reads_first (reads_decode cs _ 8 (by rw [memBytes_length])) ?_
      refine reads_first (reads_substr _ _ 8 (by rw [memBytes_length])) ?_
      rw [raw_mem w64]
      exact reads_give _
    · refine reads_first (reads_check (by rw [decide_eq_true_eq]; exact heq)) ?_
      rw [if_neg (by omega)]
      refine reads_first (reads_decode cs (a.flatMap (fun v => memBytes lw v)) _ (by rw [hn, raw_length])) ?_
      rw [hsize, raw_values hw]
      exact reads_give _
  | true =>
    obtain ⟨y, hy, hg, hc⟩ := hz.good rfl
    have hzr := hz.same rfl
    subst hy
    subst hzr
    obtain ⟨c, hc⟩ := hc (a.flatMap (fun v => memBytes lw v))
    obtain ⟨g1, g2⟩ := hg _ _ hc
    have hcn : (BitVec.ofNat 64 c.length).toNat = c.length := by
      rw [BitVec.toNat_ofNat]; exact Nat.mod_eq_of_lt (by omega)
    simp only [if_true, hc]
    refine ⟨_, by rw [encodeBytes_eq, encodeBytes_eq]; rfl, ?_⟩
    generalize hN : BitVec.ofNat 64 (w / 8 * a.length) = N at *
    generalize hC : BitVec.ofNat 64 c.length = C at *
    have hlen : ([1#64, N, N, C].flatMap (fun v => memBytes lw v)).length = 32 := by rw [raw_length]; rfl
    rw [List.append_nil]
    refine reads_last (reads_encoded ([1#64, N, N, C].flatMap (fun v => memBytes lw v)) c) ?_
    refine reads_first (a := (N, C, base64 (c.map BitVec.toNat))) ?_ ?_
    · refine reads_first (reads_check rfl) ?_
      rw [take_header _ _ 32 hlen.symm]
      refine reads_first (reads_decode cs _ 32 hlen.symm) ?_
      refine reads_first (reads_substr _ _ 32 hlen.symm) ?_
      have d1 : (([1#64, N, N, C].flatMap (fun v => memBytes lw v)).drop 16).take 8 = memBytes lw N := by
        have l1 : (memBytes lw (1#64)).length = 8 := memBytes_length lw _
        have l2 : (memBytes lw N).length = 8 := memBytes_length lw _
        simp only [List.flatMap_cons, List.flatMap_nil, List.append_nil]
        rw [← List.append_assoc, List.drop_append_of_le_length (by simp [l1, l2]), List.drop_eq_nil_of_le (by simp [l1, l2]), List.nil_append,
          List.take_append_of_le_length (by simp [l2]), List.take_of_length_le (by simp [l2])]
      have d2 : (([1#64, N, N, C].flatMap (fun v => memBytes lw v)).drop 24).take 8 = memBytes lw C := by
        have l1 : (memBytes lw (1#64)).length = 8 := memBytes_length lw _
        have l2 : (memBytes lw N).length = 8 := memBytes_length lw _
        have l3 : (memBytes lw C).length = 8 := memBytes_length lw _
        simp only [List.flatMap_cons, List.flatMap_nil, List.append_nil]
        rw [← List.append_assoc, ← List.append_assoc, List.drop_append_of_le_length (by simp [l1, l2]), List.drop_eq_nil_of_le (by simp [l1, l2]), List.nil_append,
          List.take_of_length_le (by simp [l3])]
      rw [d1, d2, raw_mem w64, raw_mem w64]
      exact reads_give _
    · refine reads_first (reads_check (by rw [decide_eq_true_eq]; exact heq)) ?_
      rw [if_neg (by omega)]
      refine reads_first (reads_decode cs c _ hcn) ?_
      have : (some y).bind (fun z => z.uncompress c N.toNat) = some (a.flatMap (fun v => memBytes lw v)) := by
        rw [Option.bind_some, hn, ← raw_length lw a]; exact g1
      rw [this]
      refine reads_first (reads_check (by rw [decide_eq_true_eq, hn, raw_length])) ?_
      rw [hsize, raw_values hw]
      exact reads_give _

/-! ## Tags of XML -/

theorem getLine_line {l : FileBytes} (h : ch '\n' ∉ l) (rest : FileBytes) : getLine (l ++ str "\n" ++ rest) = (l, rest) := by
  unfold getLine
  rw [show str "\n" = [ch '\n'] by decide, List.append_assoc, List.singleton_append]
  induction l with
  | nil => simp
  | cons c l ih =>
    simp only [List.mem_cons, not_or] at h
    have hc : c ≠ ch '\n' := fun e => h.1 e.symm
    have := ih h.2
    simp only [Prod.mk.injEq] at this
    simp only [List.cons_append, List.takeWhile_cons, List.dropWhile_cons]
    rw [if_pos (by simpa using hc), if_pos (by simpa using hc), this.1, this.2]

/-- The tag that is read of a text. -/
theorem reads_xml (type : XmlType) {name : FileBytes} (hname : GoodName name) {attrs : List XmlAttr} (hg : ∀ a ∈ attrs, a.Good) (hsep : Separated attrs)
    (hself : type = .selfClosing → attrs ≠ []) (hn : ch '\n' ∉ tagText type 0 0 name attrs 0) :
    ∃ tag : XmlTag, Reads readXml (tagText type 0 0 name attrs 0 ++ str "\n") tag ∧ tag.type = type ∧ tag.name = name ∧
      (∀ x, tag.attr x = (attrValue attrs x).getD []) ∧
      ∀ x, (tag.attribs.find? (fun a => decide (a.1 = x))).isSome = (attrValue attrs x).isSome := by
  obtain ⟨tag, h1, h2, h3, h4⟩ := C33_scan type 0 0 hname hg hsep 0 (fun h => Or.inl (hself h)) []
  rw [List.append_nil] at h1
  refine ⟨tag, ?_, h2, h3, ?_, ?_⟩
  · intro rest
    unfold readXml
    rw [getLine_line hn, h1]
  · intro x
    unfold XmlTag.attr
    rw [h4]
    cases attrValue attrs x <;> rfl
  · intro x
    rw [← h4, Option.isSome_map]

/-- The attributes of an array. -/
def arrayAttrs (type name : FileBytes) (ncomps : Int) : List XmlAttr :=
  [⟨1, str "type", ch '"', type⟩, ⟨1, str "Name", ch '"', name⟩, ⟨1, str "NumberOfComponents", ch '"', intText ncomps⟩, ⟨1, str "format", ch '"', str "binary"⟩]

theorem arrayStart_text (type name : FileBytes) (ncomps : Int) :
    str "<DataArray " ++ describeArray type name ncomps ++ str ">\n" = tagText .start 0 0 (str "DataArray") (arrayAttrs type name ncomps) 0 ++ str "\n" := by
  unfold describeArray tagText arrayAttrs
  simp only [List.flatMap_cons, List.flatMap_nil, XmlAttr.text, List.append_assoc, List.append_nil, List.cons_append]
  rfl

theorem intText_chars (n : Int) : ∀ c ∈ intText n, c ≠ ch '"' ∧ c ≠ ch '\n' := by
  have hd : ∀ k, ∀ c ∈ decimal k, c ≠ ch '"' ∧ c ≠ ch '\n' := by
    intro k c hc
    have := decimal_digits k c hc
    constructor
    · rintro rfl; revert this; decide
    · rintro rfl; revert this; decide
  intro c hc
  unfold intText at hc
  split at hc
  · rcases List.mem_cons.1 hc with rfl | h
    · decide
    · exact hd _ c h
  · exact hd _ c hc

theorem attr_good {name value : FileBytes} (hn : ∃ c rest, name = c :: rest ∧ c ≠ ch ' ' ∧ c ≠ ch '/' ∧ c ≠ ch '>' ∧ ch '=' ∉ rest) (hv : ch '"' ∉ value) :
    XmlAttr.Good ⟨1, name, ch '"', value⟩ := ⟨hn, Or.inl rfl, hv⟩

theorem arrayAttrs_good {type name : FileBytes} (ht : ch '"' ∉ type) (hn : ch '"' ∉ name) (ncomps : Int) : ∀ a ∈ arrayAttrs type name ncomps, a.Good := by
  intro a ha
  unfold arrayAttrs at ha
  rw [List.mem_cons, List.mem_cons, List.mem_cons, List.mem_singleton] at ha
  rcases ha with rfl | rfl | rfl | rfl
  · exact attr_good ⟨ch 't', str "ype", by decide, by decide, by decide, by decide, by decide⟩ ht
  · exact attr_good ⟨ch 'N', str "ame", by decide, by decide, by decide, by decide, by decide⟩ hn
  · exact attr_good ⟨ch 'N', str "umberOfComponents", by decide, by decide, by decide, by decide, by decide⟩ (fun h => (intText_chars ncomps _ h).1 rfl)
  · exact attr_good ⟨ch 'f', str "ormat", by decide, by decide, by decide, by decide, by decide⟩ (by decide)

theorem arrayText_line {type name : FileBytes} (ht : ch '\n' ∉ type) (hn : ch '\n' ∉ name) (ncomps : Int) :
    ch '\n' ∉ tagText .start 0 0 (str "DataArray") (arrayAttrs type name ncomps) 0 := by
  have h3 : ch '\n' ∉ intText ncomps := fun h => (intText_chars ncomps _ h).2 rfl
  simp only [tagText, arrayAttrs, XmlAttr.text, List.flatMap_cons, List.flatMap_nil, List.mem_append, List.mem_cons, not_or]
  simp only [ht, hn, h3, not_false_eq_true, true_and]
  repeat' apply And.intro
  all_goals decide

/-- The start tag of an array. -/
theorem reads_arrayStart {type name : FileBytes} (ht : ch '"' ∉ type ∧ ch '\n' ∉ type) (hn : ch '"' ∉ name ∧ ch '\n' ∉ name) (ncomps : Int) :
    ∃ tag : XmlTag, Reads readXml (str "<DataArray " ++ describeArray type name ncomps ++ str ">\n") tag ∧ tag.type = .start ∧ tag.name = str "DataArray" ∧
      tag.attr (str "type") = type ∧ tag.attr (str "Name") = name ∧ tag.attr (str "NumberOfComponents") = intText ncomps ∧ tag.attr (str "format") = str "binary" := by
  obtain ⟨tag, h1, h2, h3, h4, _⟩ := reads_xml .start (name := str "DataArray") (attrs := arrayAttrs type name ncomps)
    (by unfold GoodName; decide) (arrayAttrs_good ht.1 hn.1 ncomps) (by intro a ha; cases ha; exact Nat.one_pos) (fun h => by cases h) (arrayText_line ht.2 hn.2 ncomps)
  rw [← arrayStart_text] at h1
  refine ⟨tag, h1, h2, h3, ?_, ?_, ?_, ?_⟩ <;> rw [h4] <;> rfl

theorem reads_end {name : FileBytes} (hname : GoodName name) (hn : ch '\n' ∉ name) :
    ∃ tag : XmlTag, Reads readXml (str "</" ++ (name ++ str ">\n")) tag ∧ tag.type = .end_ ∧ tag.name = name := by
  obtain ⟨tag, h1, h2, h3, _⟩ := reads_xml .end_ (attrs := []) hname (fun a h => by cases h) (fun a h => by cases h) (fun h => by cases h) (by
    simp only [tagText, List.flatMap_nil, List.mem_append, List.mem_cons, not_or]
    simp only [hn, not_false_eq_true, true_and]
    decide)
  refine ⟨tag, ?_, h2, h3⟩
  have e : str "</" ++ (name ++ str ">\n") = tagText .end_ 0 0 name [] 0 ++ str "\n" := by
    simp only [tagText, List.flatMap_nil, List.append_assoc, List.cons_append]
    rfl
  rw [e]
  exact h1

theorem reads_start {name : FileBytes} (hname : GoodName name) (hn : ch '\n' ∉ name) :
    ∃ tag : XmlTag, Reads readXml (str "<" ++ (name ++ str ">\n")) tag ∧ tag.type = .start ∧ tag.name = name := by
  obtain ⟨tag, h1, h2, h3, _⟩ := reads_xml .start (attrs := []) hname (fun a h => by cases h) (fun a h => by cases h) (fun h => by cases h) (by
    simp only [tagText, List.flatMap_nil, List.mem_append, List.mem_cons, not_or]
    simp only [hn, not_false_eq_true, true_and]
    decide)
  refine ⟨tag, ?_, h2, h3⟩
  have e : str "<" ++ (name ++ str ">\n") = tagText .start 0 0 name [] 0 ++ str "\n" := by
    simp only [tagText, List.flatMap_nil, List.append_assoc, List.cons_append]
    rfl
  rw [e]
  exact h1

theorem reads_named_start {name : FileBytes} (hname : GoodName name) (hn : ch '\n' ∉ name) : Reads (readNamed name) (str "<" ++ (name ++ str ">\n")) () := by
  obtain ⟨tag, h1, _, h3⟩ := reads_start hname hn
  exact reads_last h1 (reads_check (by rw [decide_eq_true_eq]; exact h3))

theorem reads_named_end {name : FileBytes} (hname : GoodName name) (hn : ch '\n' ∉ name) : Reads (readNamed name) (str "</" ++ (name ++ str ">\n")) () := by
  obtain ⟨tag, h1, _, h3⟩ := reads_end hname hn
  exact reads_last h1 (reads_check (by rw [decide_eq_true_eq]; exact h3))

theorem reads_arrayEnd : Reads readArrayEnd (str "</DataArray>\n") () := by
  obtain ⟨tag, h1, h2, h3⟩ := reads_end (name := str "DataArray") (by unfold GoodName; decide) (by decide)
  exact reads_last h1 (reads_check (by rw [decide_eq_true_eq]; exact ⟨h3, h2⟩))

theorem VtkType.text_chars (t : VtkType) : ch '"' ∉ t.text ∧ ch '\n' ∉ t.text := by cases t <;> decide

/-- Arrays of which the name is known. -/
theorem rt_known {compress : Bool} {z zr : Option Zlib} (hz : SameZlib compress z zr) {w : Nat} (hw : FileWidth w) (lw lr cs : Bool) (type : VtkType) {name : FileBytes}
    (hn : ch '"' ∉ name ∧ ch '\n' ∉ name) (nents ncomps : Int) (a : List (BitVec w)) (ha : a.length < 2 ^ 31) (hs : nents * ncomps = a.length) :
    Roundtrip (vtkWriteArray z lw compress type.text name ncomps (some a)) (vtkReadKnown zr lr cs (lw != lr) compress type name nents ncomps w) a := by
  obtain ⟨tag, h1, h2, h3, h4, h5, h6, _⟩ := reads_arrayStart type.text_chars hn ncomps
  obtain ⟨d, hd, hr⟩ := rt_data hz hw lw lr cs a ha (nents * ncomps) hs
  refine ⟨_, by unfold vtkWriteArray; dsimp only; rw [hd]; rfl, ?_⟩
  refine reads_andThen h1 ?_
  refine reads_first (reads_check (by rw [decide_eq_true_eq]; exact ⟨h3, h2, h5, h4, h6⟩)) ?_
  rw [if_neg (by omega)]
  refine reads_andThen hr ?_
  rw [List.append_nil]
  exact reads_last reads_arrayEnd (reads_give _)

end OmegaH
