import Verif.Spec.File
import Mathlib.Tactic.IntervalCases
import Mathlib.Tactic.Ring

/-! # Reading back what was written -/

namespace OmegaH

open Spec

theorem extract_nat {w : Nat} (v : BitVec w) (i : Nat) : v.extractLsb' (8 * i) 8 = BitVec.ofNat 8 (v.toNat / 256 ^ i) := by
  apply BitVec.eq_of_toNat_eq
  rw [BitVec.extractLsb'_toNat, BitVec.toNat_ofNat, Nat.shiftRight_eq_div_pow, Nat.pow_mul]

theorem memBytes_le {w : Nat} (v : BitVec w) : memBytes true v = leBytes v := by
  unfold memBytes leBytes
  simp only [if_true, extract_nat]

theorem bswap32_bytes (v : BitVec 32) (i : Nat) (hi : i < 4) : (bswap32 v).extractLsb' (8 * i) 8 = v.extractLsb' (8 * (3 - i)) 8 := by
  unfold bswap32
  interval_cases i <;> (apply BitVec.eq_of_getLsbD_eq; intro j hj; interval_cases j <;> simp)

theorem bswap64_bytes (v : BitVec 64) (i : Nat) (hi : i < 8) : (bswap64 v).extractLsb' (8 * i) 8 = v.extractLsb' (8 * (7 - i)) 8 := by
  unfold bswap64
  interval_cases i <;> (apply BitVec.eq_of_getLsbD_eq; intro j hj; interval_cases j <;> simp)

theorem bswap32_invol (v : BitVec 32) : bswap32 (bswap32 v) = v := by
  unfold bswap32
  apply BitVec.eq_of_getLsbD_eq
  intro j hj
  interval_cases j <;> simp

theorem bswap64_invol (v : BitVec 64) : bswap64 (bswap64 v) = v := by
  unfold bswap64
  apply BitVec.eq_of_getLsbD_eq
  intro j hj
  interval_cases j <;> simp

/-- The widths of values in files. -/
def FileWidth (w : Nat) : Prop := w = 8 ∨ w = 32 ∨ w = 64

theorem swap_bytes {w : Nat} (hw : FileWidth w) (v : BitVec w) : memBytes true (swapValue w v) = (memBytes true v).reverse := by
  rcases hw with rfl | rfl | rfl
  · rfl
  · have h := bswap32_bytes v
    simp only [memBytes, if_true, swapValue]
    change [_, _, _, _] = List.reverse [_, _, _, _]
    simp only [List.reverse_cons, List.reverse_nil, List.nil_append, List.cons_append]
    rw [h 0 (by omega), h 1 (by omega), h 2 (by omega), h 3 (by omega)]
  · have h := bswap64_bytes v
    simp only [memBytes, if_true, swapValue]
    change [_, _, _, _, _, _, _, _] = List.reverse [_, _, _, _, _, _, _, _]
    simp only [List.reverse_cons, List.reverse_nil, List.nil_append, List.cons_append]
    rw [h 0 (by omega), h 1 (by omega), h 2 (by omega), h 3 (by omega), h 4 (by omega), h 5 (by omega), h 6 (by omega), h 7 (by omega)]

theorem swap_invol {w : Nat} (hw : FileWidth w) (v : BitVec w) : swapValue w (swapValue w v) = v := by
  rcases hw with rfl | rfl | rfl
  · rfl
  · exact bswap32_invol v
  · exact bswap64_invol v

theorem memBytes_big {w : Nat} (v : BitVec w) : memBytes false v = (memBytes true v).reverse := rfl

theorem ofMem_mem {w : Nat} (hw : FileWidth w) (v : BitVec w) : ofMemBytes true w (memBytes true v) = v := by
  rcases hw with rfl | rfl | rfl
  · simp only [ofMemBytes, memBytes, if_true]
    change List.foldr _ _ [_] = _
    simp only [List.foldr]
    apply BitVec.eq_of_getLsbD_eq
    intro j hj
    interval_cases j <;> simp
  · simp only [ofMemBytes, memBytes, if_true]
    change List.foldr _ _ [_, _, _, _] = _
    simp only [List.foldr]
    apply BitVec.eq_of_getLsbD_eq
    intro j hj
    interval_cases j <;> simp
  · simp only [ofMemBytes, memBytes, if_true]
    change List.foldr _ _ [_, _, _, _, _, _, _, _] = _
    simp only [List.foldr]
    apply BitVec.eq_of_getLsbD_eq
    intro j hj
    interval_cases j <;> simp

/-- On every CPU the bytes written are those of the number, the least significant one first. -/
theorem writeValue_le {w : Nat} (hw : FileWidth w) (little : Bool) (v : BitVec w) : writeValue little v = leBytes v := by
  unfold writeValue
  cases little with
  | true => exact memBytes_le v
  | false =>
    simp only [Bool.false_eq_true, if_false]
    rw [memBytes_big, swap_bytes hw, List.reverse_reverse, memBytes_le]

/-- The value read from bytes in memory. -/
def valueOf (little : Bool) (w : Nat) (l : FileBytes) : BitVec w := if little then ofMemBytes little w l else swapValue w (ofMemBytes little w l)

theorem valueOf_le {w : Nat} (hw : FileWidth w) (little : Bool) (v : BitVec w) : valueOf little w (leBytes v) = v := by
  unfold valueOf
  cases little with
  | true => rw [if_pos rfl, ← memBytes_le, ofMem_mem hw]
  | false =>
    simp only [Bool.false_eq_true, if_false]
    have h : ofMemBytes false w (leBytes v) = ofMemBytes true w (leBytes v).reverse := rfl
    rw [h, ← memBytes_le, ← swap_bytes hw, ofMem_mem hw, swap_invol hw]

theorem leBytes_length {w : Nat} (v : BitVec w) : (leBytes v).length = w / 8 := by simp [leBytes]

theorem prefix_of_append {α : Type} {x b c : List α} (h : x <+: b ++ c) : x <+: b ∨ ∃ e, x = b ++ e ∧ e <+: c := by
  obtain ⟨t, ht⟩ := h
  rcases List.append_eq_append_iff.1 ht with ⟨u, h1, _⟩ | ⟨u, h1, h2⟩
  · exact Or.inl ⟨u, h1.symm⟩
  · exact Or.inr ⟨u, h1, t, h2.symm⟩

/-- `p` reads the bytes `b` as `a`, whatever follows, and is undefined on every proper prefix of them. -/
structure Codec {α : Type} (p : FileParser α) (b : FileBytes) (a : α) : Prop where
  reads : ∀ rest, p (b ++ rest) = .ok (a, rest)
  cut : ∀ b', b' <+: b → b' ≠ b → p b' = .ub

theorem codec_give {α : Type} (a : α) : Codec (FileParser.give a) [] a :=
  ⟨fun _ => rfl, fun _ h h' => absurd (List.prefix_nil.1 h) h'⟩

theorem codec_andThen {α β : Type} {p : FileParser α} {f : α → FileParser β} {b c : FileBytes} {a : α} {d : β} (h : Codec p b a) (h' : Codec (f a) c d) :
    Codec (p.andThen f) (b ++ c) d := by
  refine ⟨fun rest => ?_, fun b' hb hne => ?_⟩
  · unfold FileParser.andThen
    rw [List.append_assoc, h.reads, Res.bind_ok]
    exact h'.reads rest
  · unfold FileParser.andThen
    rcases prefix_of_append hb with h1 | ⟨e, rfl, he⟩
    · by_cases hbb : b' = b
      · subst hbb
        by_cases hc : c = []
        · subst hc; simp at hne
        · have := h.reads []
          rw [List.append_nil] at this
          rw [this, Res.bind_ok]
          exact h'.cut [] (List.nil_prefix) (fun h0 => hc h0.symm)
      · rw [h.cut b' h1 hbb]; rfl
    · rw [h.reads, Res.bind_ok]
      exact h'.cut e he (fun h0 => hne (by rw [h0]))

theorem codec_last {α β : Type} {p : FileParser α} {f : α → FileParser β} {b : FileBytes} {a : α} {d : β} (h : Codec p b a) (h' : Codec (f a) [] d) :
    Codec (p.andThen f) b d := by
  have := codec_andThen h h'
  rwa [List.append_nil] at this

theorem codec_check {β : Type} {f : Unit → FileParser β} {c : Bool} {b : FileBytes} {d : β} (hc : c = true) (h : Codec (f ()) b d) :
    Codec ((FileParser.check c).andThen f) b d := by
  subst hc
  have h0 : Codec (FileParser.check true) [] () := ⟨fun _ => rfl, fun _ h h' => absurd (List.prefix_nil.1 h) h'⟩
  exact codec_andThen h0 h

theorem codec_bytes (b : FileBytes) : Codec (readBytes b.length) b b := by
  refine ⟨fun rest => ?_, fun b' hb hne => ?_⟩
  · unfold readBytes
    rw [if_pos (by simp)]
    simp
  · unfold readBytes
    rw [if_neg]
    intro hle
    exact hne (hb.eq_of_length_le hle)

theorem codec_value {w : Nat} (hw : FileWidth w) (little : Bool) (v : BitVec w) : Codec (readValue little w) (leBytes v) v := by
  have h : Codec (readBytes (w / 8)) (leBytes v) (leBytes v) := by
    have := codec_bytes (leBytes v)
    rwa [leBytes_length] at this
  have h2 : Codec (FileParser.give (valueOf little w (leBytes v))) [] v := by
    rw [valueOf_le hw]; exact codec_give v
  have := codec_andThen (f := fun l => FileParser.give (valueOf little w l)) h h2
  rw [List.append_nil] at this
  exact this

theorem small_int {n : Nat} (h : n < 2 ^ 31) : (BitVec.ofNat 32 n).toInt = n ∧ (BitVec.ofNat 32 n).toNat = n := by
  have h2 : (BitVec.ofNat 32 n).toNat = n := by rw [BitVec.toNat_ofNat]; omega
  refine ⟨?_, h2⟩
  rw [BitVec.toInt_eq_toNat_cond, h2]
  rw [if_pos (by omega)]

theorem small_int64 {n : Nat} (h : n < 2 ^ 63) : (BitVec.ofNat 64 n).toInt = n ∧ (BitVec.ofNat 64 n).toNat = n := by
  have h2 : (BitVec.ofNat 64 n).toNat = n := by rw [BitVec.toNat_ofNat]; omega
  refine ⟨?_, h2⟩
  rw [BitVec.toInt_eq_toNat_cond, h2]
  rw [if_pos (by omega)]

theorem ofBytes_flatMap {w : Nat} (hw : FileWidth w) (little : Bool) (a : List (BitVec w)) : ofBytes little w a.length (a.flatMap leBytes) = a := by
  induction a with
  | nil => rfl
  | cons v a ih =>
    have h1 : (leBytes v ++ a.flatMap leBytes).take (w / 8) = leBytes v := by
      rw [← leBytes_length v]; simp
    have h2 : (leBytes v ++ a.flatMap leBytes).drop (w / 8) = a.flatMap leBytes := by
      rw [← leBytes_length v]; simp
    rw [List.flatMap_cons, List.length_cons]
    unfold ofBytes
    rw [h1, h2, ih]
    have := valueOf_le hw little v
    unfold valueOf at this
    rw [this]

theorem flatMap_length {w : Nat} (a : List (BitVec w)) : (a.flatMap leBytes).length = a.length * (w / 8) := by
  induction a with
  | nil => simp
  | cons v a ih => rw [List.flatMap_cons, List.length_append, ih, leBytes_length, List.length_cons]; ring

/-- The value of `is_compressed` in a file written with `z`. -/
def compressedBy (z : Option Zlib) : Bool := z.isSome

theorem codec_array {z : Option Zlib} (hz : ∀ y, z = some y → GoodZlib y) {w : Nat} (hw : FileWidth w) (lw lr : Bool) {a : List (BitVec w)} (ha : a.length < 2 ^ 31)
    {b : FileBytes} (h : writeArray z lw (some a) = .ok b) : Codec (readArray z lr (compressedBy z) w) b a := by
  obtain ⟨s1, s2⟩ := small_int ha
  have hb : a.flatMap (fun v => writeValue lw v) = a.flatMap leBytes := by
    congr 1; funext v; exact writeValue_le hw lw v
  unfold writeArray at h
  dsimp only at h
  rw [hb, writeValue_le (Or.inr (Or.inl rfl))] at h
  unfold readArray
  cases z with
  | none =>
    dsimp only at h
    cases h
    refine codec_andThen (codec_value (Or.inr (Or.inl rfl)) lr _) ?_
    refine codec_check (by simp [s1]) ?_
    refine codec_check rfl ?_
    have h1 := codec_bytes (a.flatMap leBytes)
    rw [flatMap_length] at h1
    rw [s2]
    rw [← List.append_nil (a.flatMap leBytes)]
    refine codec_andThen h1 ?_
    rw [ofBytes_flatMap hw]
    exact codec_give a
  | some y =>
    dsimp only at h
    cases hc : y.compress (a.flatMap leBytes) with
    | none => rw [hc] at h; cases h
    | some c =>
      rw [hc] at h
      cases h
      obtain ⟨g1, g2⟩ := hz y rfl _ _ hc
      obtain ⟨t1, t2⟩ := small_int64 g2
      refine codec_andThen (codec_value (Or.inr (Or.inl rfl)) lr _) ?_
      refine codec_check (by simp [s1]) ?_
      dsimp only
      rw [if_pos (show compressedBy (some y) = true from rfl)]
      rw [writeValue_le (Or.inr (Or.inr rfl))]
      refine codec_andThen (codec_value (Or.inr (Or.inr rfl)) lr _) ?_
      refine codec_check (by simp [t1]) ?_
      rw [s2, t2]
      refine codec_last (codec_bytes c) ?_
      rw [flatMap_length] at g1
      rw [g1]
      dsimp only
      refine codec_check (by rw [flatMap_length]; simp) ?_
      rw [ofBytes_flatMap hw]
      exact codec_give a

theorem codec_string (lw lr : Bool) {s b : FileBytes} (hs : s.length < 2 ^ 31) (h : writeString lw s = .ok b) : Codec (readString lr) b s := by
  obtain ⟨s1, s2⟩ := small_int hs
  unfold writeString at h
  dsimp only at h
  rw [s1, s2, if_neg (by omega), List.take_length, writeValue_le (Or.inr (Or.inl rfl))] at h
  cases h
  unfold readString
  refine codec_andThen (codec_value (Or.inr (Or.inl rfl)) lr _) ?_
  refine codec_check (by simp [s1]) ?_
  rw [s2]
  exact codec_bytes s

theorem wcat_ok {a b : Res FileBytes} {c : FileBytes} (h : wcat a b = .ok c) : ∃ x y, a = .ok x ∧ b = .ok y ∧ c = x ++ y := by
  unfold wcat at h
  obtain ⟨x, hx, h⟩ := Res.bind_eq_ok.1 h
  obtain ⟨y, hy, h⟩ := Res.bind_eq_ok.1 h
  cases h
  exact ⟨x, y, hx, hy, rfl⟩

/-- A list of parsers, each of which reads what one of the writers wrote. -/
theorem codec_all {α : Type} : ∀ (ps : List (FileParser α)) (ws : List (Res FileBytes)) (as : List α) {b : FileBytes}, wlist ws = .ok b → ps.length = ws.length →
    as.length = ws.length → (∀ (i : Nat) (p : FileParser α) (c : FileBytes) (a : α), ps[i]? = some p → ws[i]? = some (.ok c) → as[i]? = some a → Codec p c a) →
    Codec (readAll ps) b as := by
  intro ps
  induction ps with
  | nil =>
    intro ws as b hw h1 h2 _
    cases ws with
    | cons => simp at h1
    | nil =>
      cases as with
      | cons => simp at h2
      | nil => cases hw; exact codec_give []
  | cons p ps ih =>
    intro ws as b hw h1 h2 h3
    cases ws with
    | nil => simp at h1
    | cons w ws =>
      cases as with
      | nil => simp at h2
      | cons a as =>
        obtain ⟨x, y, hx, hy, rfl⟩ := wcat_ok hw
        unfold readAll
        refine codec_andThen (h3 0 p x a rfl (by rw [← hx]; rfl) rfl) ?_
        rw [← List.append_nil y]
        exact codec_andThen (ih ws as hy (by simpa using h1) (by simpa using h2) (fun i q c e hq hc he => h3 (i + 1) q c e hq hc he)) (codec_give _)

/-- The same parser for every entry. -/
theorem codec_times {α : Type} {p : FileParser α} (f : α → FileBytes) : ∀ (as : List α), (∀ a ∈ as, Codec p (f a) a) → Codec (readTimes p as.length) (as.flatMap f) as := by
  intro as
  induction as with
  | nil => intro _; exact codec_give []
  | cons a as ih =>
    intro h
    rw [List.flatMap_cons, List.length_cons]
    unfold readTimes
    refine codec_andThen (h a (by simp)) ?_
    rw [← List.append_nil (as.flatMap f)]
    exact codec_andThen (ih (fun b hb => h b (List.mem_cons_of_mem _ hb))) (codec_give _)

theorem codec_timesW {α : Type} {p : FileParser α} (f : α → Res FileBytes) : ∀ (as : List α) {b : FileBytes}, wlist (as.map f) = .ok b →
    (∀ a ∈ as, ∀ c, f a = .ok c → Codec p c a) → Codec (readTimes p as.length) b as := by
  intro as
  induction as with
  | nil => intro b hb _; cases hb; exact codec_give []
  | cons a as ih =>
    intro b hb h
    obtain ⟨x, y, hx, hy, rfl⟩ := wcat_ok hb
    rw [List.length_cons]
    unfold readTimes
    refine codec_andThen (h a (by simp) x hx) ?_
    rw [← List.append_nil y]
    exact codec_andThen (ih hy (fun b hb => h b (List.mem_cons_of_mem _ hb))) (codec_give _)

theorem codec_fail_free {α : Type} {p : FileParser α} {b b' : FileBytes} {a : α} (h : Codec p b a) (e : b' = b) : Codec p b' a := e ▸ h

theorem codec_axis (lr : Bool) (a : BitVec 64 × BitVec 64 × BitVec 64) : Codec (readAxis lr) (leBytes a.1 ++ leBytes a.2.1 ++ leBytes a.2.2) a := by
  have w : FileWidth 64 := Or.inr (Or.inr rfl)
  rw [List.append_assoc]
  exact codec_andThen (codec_value w lr _) (codec_andThen (codec_value w lr _) (codec_last (codec_value w lr _) (codec_give _)))

theorem codec_hints (lw lr : Bool) (hints : Option (List (BitVec 64 × BitVec 64 × BitVec 64))) (h : ∀ axes, hints = some axes → axes.length < 2 ^ 31) :
    Codec (readHints lr) (writeHints lw hints) hints := by
  have w8 : FileWidth 8 := Or.inl rfl
  have w32 : FileWidth 32 := Or.inr (Or.inl rfl)
  have w64 : FileWidth 64 := Or.inr (Or.inr rfl)
  unfold readHints writeHints
  cases hints with
  | none =>
    dsimp only
    rw [writeValue_le w8]
    refine codec_last (codec_value w8 lr _) ?_
    rw [if_pos rfl]
    exact codec_give none
  | some axes =>
    dsimp only
    obtain ⟨s1, _⟩ := small_int (h axes rfl)
    simp only [writeValue_le w8, writeValue_le w32, writeValue_le w64]
    rw [List.append_assoc]
    refine codec_andThen (codec_value w8 lr _) ?_
    rw [if_neg (by decide)]
    refine codec_andThen (codec_value w32 lr _) ?_
    rw [s1, Int.toNat_natCast]
    exact codec_last (codec_times (fun a : BitVec 64 × BitVec 64 × BitVec 64 => leBytes a.1 ++ leBytes a.2.1 ++ leBytes a.2.2) axes (fun a _ => codec_axis lr a))
      (codec_give _)

theorem ofCode_code (p : FileParting) : FileParting.ofCode p.code = some p := by cases p <;> decide

theorem codec_family (lr : Bool) (f : Family) : Codec (readFamily lr) (leBytes (familyCode f)) f := by
  unfold readFamily
  refine codec_last (codec_value (Or.inl rfl) lr _) ?_
  cases f
  · exact codec_give _
  · exact codec_give _

theorem codec_meta (lw lr : Bool) {m : FileMesh} (hm : Storable m) {b : FileBytes} (h : writeMeta lw m = .ok b) :
    ∃ p, m.parting = some p ∧ Codec (readMeta lr 9 m.commSize m.commRank) b ⟨m.family, m.downs.length, p, m.nghost, m.hints⟩ := by
  have w8 : FileWidth 8 := Or.inl rfl
  have w32 : FileWidth 32 := Or.inr (Or.inl rfl)
  unfold writeMeta at h
  cases hp : m.parting with
  | none => rw [hp] at h; cases h
  | some p =>
    refine ⟨p, rfl, ?_⟩
    rw [hp] at h
    dsimp only at h
    cases h
    simp only [List.append_assoc]
    unfold readMeta
    rw [if_pos (by decide), writeValue_le w8, writeValue_le w8, writeValue_le w32, writeValue_le w32, writeValue_le w8, writeValue_le w32]
    refine codec_andThen (codec_family lr _) ?_
    refine codec_andThen (codec_value w8 lr _) ?_
    obtain ⟨d1, d2⟩ := hm.dim
    have hd : (BitVec.ofNat 8 m.downs.length).toInt = m.downs.length ∧ (BitVec.ofNat 8 m.downs.length).toNat = m.downs.length := by
      have : m.downs.length = 1 ∨ m.downs.length = 2 ∨ m.downs.length = 3 := by omega
      rcases this with e | e | e <;> rw [e] <;> decide
    refine codec_check (by rw [hd.1]; simp; omega) ?_
    obtain ⟨c1, c2⟩ := hm.comm
    refine codec_andThen (codec_value w32 lr _) ?_
    refine codec_check (by rw [(small_int c1).1]; simp) ?_
    refine codec_andThen (codec_value w32 lr _) ?_
    refine codec_check (by rw [(small_int (show m.commRank < 2 ^ 31 by omega)).1]; simp) ?_
    refine codec_andThen (codec_value w8 lr _) ?_
    rw [ofCode_code]
    dsimp only
    rw [if_pos (by decide)]
    refine codec_andThen (codec_value w32 lr _) ?_
    refine codec_last (codec_hints lw lr m.hints hm.hints) ?_
    rw [if_neg (by decide), hd.2]
    exact codec_last (codec_give 0#8) (codec_give _)

theorem addTag_new {nents : Int} {tags : List FileTag} {t : FileTag} (ht : GoodTag nents t) (hn : 0 ≤ nents) (hnew : ∀ a ∈ tags, a.name ≠ t.name)
    (hl : tags.length < 127) : addTag nents tags t = .ok (tags ++ [t]) := by
  have hhad : tags.any (fun a => decide (a.name = t.name)) = false := by
    rw [List.any_eq_false]
    intro a ha
    simp [hnew a ha]
  obtain ⟨n, n1, n2, n3⟩ := ht.size
  have hname : t.name.isEmpty = false := by
    cases hx : t.name with
    | nil => exact absurd hx ht.named
    | cons => rfl
  obtain ⟨c1, c2⟩ := ht.comps
  unfold addTag
  dsimp only
  rw [hhad, hname]
  simp only [Bool.not_false, Bool.true_and, Bool.or_false, Bool.false_eq_true, if_false]
  rw [if_neg (by simp; omega), n1]
  dsimp only
  rw [if_neg (by omega), if_neg (by omega)]

theorem codec_tagData {z : Option Zlib} (hz : ∀ y, z = some y → GoodZlib y) (lw lr : Bool) {nents : Int} {t : FileTag} (ht : GoodTag nents t) {b : FileBytes}
    (h : writeTag z lw t = .ok b) : ∃ c d ty, writeString lw t.name = .ok c ∧ b = c ++ (leBytes (BitVec.ofInt 8 t.ncomps) ++ (leBytes ty ++ d)) ∧
      Codec (readTagData z lr (compressedBy z) ty) d t.data := by
  have w8 : FileWidth 8 := Or.inl rfl
  have w32 : FileWidth 32 := Or.inr (Or.inl rfl)
  have w64 : FileWidth 64 := Or.inr (Or.inr rfl)
  obtain ⟨n, n1, n2, n3⟩ := ht.size
  unfold writeTag at h
  dsimp only at h
  have step : ∀ {w : Nat} (ty : BitVec 8) (a : Option (List (BitVec w))), FileWidth w → a.map List.length = some n →
      wcat (wcat (writeString lw t.name) (.ok (writeValue lw (BitVec.ofInt 8 t.ncomps) ++ writeValue lw ty))) (writeArray z lw a) = .ok b →
      ∃ c d l, a = some l ∧ writeString lw t.name = .ok c ∧ b = c ++ (leBytes (BitVec.ofInt 8 t.ncomps) ++ (leBytes ty ++ d)) ∧
        Codec (readArray z lr (compressedBy z) w) d l := by
    intro w ty a hw ha hb
    obtain ⟨x, y, hx, hy, rfl⟩ := wcat_ok hb
    obtain ⟨x1, x2, hx1, hx2, rfl⟩ := wcat_ok hx
    cases hx2
    cases a with
    | none => cases ha
    | some l =>
      simp only [Option.map_some, Option.some.injEq] at ha
      refine ⟨x1, y, l, rfl, hx1, ?_, codec_array hz hw lw lr (by omega) hy⟩
      rw [writeValue_le w8, writeValue_le w8]
      simp only [List.append_assoc]
  unfold readTagData
  cases hdat : t.data with
  | i8 a =>
    rw [hdat] at h n1
    obtain ⟨c, d, l, rfl, h1, h2, h3⟩ := step 0#8 a w8 n1 h
    exact ⟨c, d, 0#8, h1, h2, by rw [if_pos rfl]; exact codec_last h3 (codec_give _)⟩
  | i32 a =>
    rw [hdat] at h n1
    obtain ⟨c, d, l, rfl, h1, h2, h3⟩ := step 2#8 a w32 n1 h
    exact ⟨c, d, 2#8, h1, h2, by rw [if_neg (by decide), if_pos rfl]; exact codec_last h3 (codec_give _)⟩
  | i64 a =>
    rw [hdat] at h n1
    obtain ⟨c, d, l, rfl, h1, h2, h3⟩ := step 3#8 a w64 n1 h
    exact ⟨c, d, 3#8, h1, h2, by rw [if_neg (by decide), if_neg (by decide), if_pos rfl]; exact codec_last h3 (codec_give _)⟩
  | f64 a =>
    rw [hdat] at h n1
    obtain ⟨c, d, l, rfl, h1, h2, h3⟩ := step 5#8 a w64 n1 h
    exact ⟨c, d, 5#8, h1, h2, by rw [if_neg (by decide), if_neg (by decide), if_neg (by decide), if_pos rfl]; exact codec_last h3 (codec_give _)⟩

theorem ofInt8 {n : Int} (h : 0 ≤ n ∧ n ≤ 127) : (BitVec.ofInt 8 n).toInt = n := by
  rw [BitVec.toInt_ofInt]
  exact Int.bmod_eq_of_le (by omega) (by omega)

theorem codec_tag {z : Option Zlib} (hz : ∀ y, z = some y → GoodZlib y) (lw lr : Bool) {nents : Int} {tags : List FileTag} {t : FileTag} (ht : GoodTag nents t)
    (hn : 0 ≤ nents) (hnew : ∀ a ∈ tags, a.name ≠ t.name) (hl : tags.length < 127) {b : FileBytes} (h : writeTag z lw t = .ok b) :
    Codec (readTag z lr (compressedBy z) 9 nents tags) b (tags ++ [t]) := by
  obtain ⟨c, d, ty, h1, rfl, h3⟩ := codec_tagData hz lw lr ht h
  unfold readTag
  refine codec_andThen (codec_string lw lr ht.name h1) ?_
  refine codec_andThen (codec_value (Or.inl rfl) lr _) ?_
  refine codec_andThen (codec_value (Or.inl rfl) lr _) ?_
  rw [if_neg (by decide)]
  refine codec_andThen (b := []) (codec_give []) ?_
  refine codec_last h3 ?_
  have e : (⟨t.name, (BitVec.ofInt 8 t.ncomps).toInt, t.data⟩ : FileTag) = t := by rw [ofInt8 ht.comps]
  rw [e, addTag_new ht hn hnew hl]
  exact codec_give _

theorem codec_tags {z : Option Zlib} (hz : ∀ y, z = some y → GoodZlib y) (lw lr : Bool) {nents : Int} (hn : 0 ≤ nents) : ∀ (ts tags : List FileTag) {b : FileBytes},
    (∀ t ∈ ts, GoodTag nents t) → ((tags ++ ts).map FileTag.name).Nodup → tags.length + ts.length ≤ 127 → wlist (ts.map (writeTag z lw)) = .ok b →
    Codec (readTags z lr (compressedBy z) 9 nents ts.length tags) b (tags ++ ts) := by
  intro ts
  induction ts with
  | nil => intro tags b _ _ _ hb; cases hb; rw [List.append_nil]; exact codec_give tags
  | cons t ts ih =>
    intro tags b hg hnd hl hb
    obtain ⟨x, y, hx, hy, rfl⟩ := wcat_ok hb
    rw [List.length_cons]
    unfold readTags
    rw [List.length_cons] at hl
    refine codec_andThen (codec_tag hz lw lr (hg t (by simp)) hn ?_ (by omega) hx) ?_
    · intro a ha he
      rw [List.map_append, List.nodup_append] at hnd
      exact hnd.2.2 a.name (List.mem_map_of_mem ha) t.name (by simp) he
    · have e : tags ++ t :: ts = (tags ++ [t]) ++ ts := by simp
      rw [e]
      exact ih (tags ++ [t]) (fun u hu => hg u (List.mem_cons_of_mem _ hu)) (by rw [← e]; exact hnd) (by simp; omega) hy

theorem codec_level {z : Option Zlib} (hz : ∀ y, z = some y → GoodZlib y) (lw lr : Bool) {commSize : Nat} {nents : Int} (hn : 0 ≤ nents) (hn' : nents < 2 ^ 31)
    {l : FileLevel} (hl : GoodLevel commSize nents l) {b : FileBytes} (h : writeLevel z lw commSize l = .ok b) :
    Codec (readLevel z lr (compressedBy z) 9 commSize nents) b ⟨l.tags, if commSize > 1 then l.owners else none, none⟩ := by
  have w32 : FileWidth 32 := Or.inr (Or.inl rfl)
  obtain ⟨x, y, hx, hy, rfl⟩ := wcat_ok h
  obtain ⟨u, v, hu, hv, rfl⟩ := wcat_ok hy
  cases hx
  unfold readLevel
  rw [writeValue_le w32]
  refine codec_andThen (codec_value w32 lr _) ?_
  have hc := hl.count
  rw [(small_int (show l.tags.length < 2 ^ 31 by omega)).1, Int.toNat_natCast]
  refine codec_andThen (codec_tags hz lw lr hn l.tags [] hl.tags (by simpa using hl.names) (by simpa using hc) hu) ?_
  by_cases h1 : commSize > 1
  · rw [if_pos h1] at hv ⊢
    rw [if_pos h1]
    obtain ⟨o, o1, o2, o3⟩ := hl.owners h1
    rw [o1] at hv ⊢
    obtain ⟨c, d, hc, hd, rfl⟩ := wcat_ok hv
    refine codec_andThen (codec_array hz w32 lw lr (by omega) hc) ?_
    refine codec_last (codec_array hz w32 lw lr (by omega) hd) ?_
    refine codec_check (by simp; omega) ?_
    exact codec_give _
  · rw [if_neg h1] at hv ⊢
    rw [if_neg h1]
    cases hv
    exact codec_give _

theorem codec_down {z : Option Zlib} (hz : ∀ y, z = some y → GoodZlib y) (lw lr : Bool) {family : Family} {d : Nat} {a : List (BitVec 32)} {c : Option (List (BitVec 8))}
    (h1 : a.length < 2 ^ 31) (h2 : (a.length : Int) % elementDegree family (d + 1 : Nat) d = 0) (h3 : d = 0 → c = none)
    (h4 : 0 < d → ∃ codes, c = some codes ∧ codes.length < 2 ^ 31) {b : FileBytes} (h : writeDown z lw (d + 1) (a, c) = .ok b) :
    Codec (readDown z lr (compressedBy z) family (d + 1)) b (a, c) := by
  obtain ⟨x, y, hx, hy, rfl⟩ := wcat_ok h
  unfold readDown
  refine codec_andThen (codec_array hz (Or.inr (Or.inl rfl)) lw lr h1 hx) ?_
  have hend : Codec ((FileParser.check (decide ((a.length : Int) % elementDegree family (d + 1 : Nat) (d + 1 - 1 : Nat) = 0))).andThen fun _ =>
      FileParser.give (a, c)) [] (a, c) := codec_check (by simpa using h2) (codec_give _)
  by_cases hd : d + 1 > 1
  · rw [if_pos hd] at hy ⊢
    obtain ⟨codes, rfl, hc⟩ := h4 (by omega)
    exact codec_last (codec_last (codec_array hz (Or.inl rfl) lw lr hc hy) (codec_give _)) hend
  · rw [if_neg hd] at hy ⊢
    cases hy
    rw [h3 (by omega)] at hend ⊢
    exact codec_last (codec_give none) hend

end OmegaH
