import Verif.Model.Base64
import Verif.Spec.Base64

/-! # C14 — base64 round trip, format, and rejection of foreign characters -/

namespace OmegaH
open Spec

/-- Bytes. -/
def IsBytes (l : List Nat) : Prop := ∀ x ∈ l, x < 256

/-- Characters of encoded text: the alphabet and the padding character. -/
def base64Char (c : Nat) : Prop := c ∈ base64Alphabet ∨ c = '='.toNat

instance (c : Nat) : Decidable (base64Char c) := by unfold base64Char; infer_instance

theorem valueToChar_eq : valueToChar = base64Alphabet := by decide +kernel

/-- Structural form of the encoder. -/
def encR : List Nat → Option (List Nat)
  | a :: b :: c :: rest => (encode3 a b c).bind fun u => (encR rest).map (u ++ ·)
  | [a, b] => encode2 a b
  | [a] => encode1 a
  | [] => some []

theorem encodeUnit_shift (a b c : Nat) (rest : List Nat) (i : Nat) :
    encodeUnit (a :: b :: c :: rest) (i + 1) = encodeUnit rest i := by
  have h : ∀ j, (a :: b :: c :: rest)[(i + 1) * 3 + j]? = rest[i * 3 + j]? := by
    intro j
    rw [show (i + 1) * 3 + j = (i * 3 + j) + 3 by omega]; rfl
  unfold encodeUnit
  rw [h 1, h 2, show (i + 1) * 3 = (i + 1) * 3 + 0 by rfl, h 0]; rfl

theorem encodeTail_shift (a b c : Nat) (rest : List Nat) (q r : Nat) :
    encodeTail (a :: b :: c :: rest) (q + 1) r = encodeTail rest q r := by
  have h : ∀ j, (a :: b :: c :: rest)[(q + 1) * 3 + j]? = rest[q * 3 + j]? := by
    intro j
    rw [show (q + 1) * 3 + j = (q * 3 + j) + 3 by omega]; rfl
  unfold encodeTail
  rw [h 1, show (q + 1) * 3 = (q + 1) * 3 + 0 by rfl, h 0]; rfl

theorem mapM_shift {α : Type} (f g : Nat → Option α) (h : ∀ i, f (i + 1) = g i) (n : Nat) :
    (List.range (n + 1)).mapM f = (f 0).bind fun x => ((List.range n).mapM g).map (x :: ·) := by
  have e : ∀ l : List Nat, (l.map Nat.succ).mapM f = l.mapM g := by
    intro l
    induction l with
    | nil => rfl
    | cons x l ih => rw [List.map_cons, List.mapM_cons, List.mapM_cons, ih, h]
  rw [List.range_succ_eq_map, List.mapM_cons, e]
  cases f 0 <;> simp
  cases (List.range n).mapM g <;> rfl

theorem base64Encode_eq : ∀ data : List Nat, base64Encode data = encR data
  | a :: b :: c :: rest => by
    rw [encR, ← base64Encode_eq rest]
    unfold base64Encode
    have hl : (a :: b :: c :: rest).length = rest.length + 3 := rfl
    rw [hl, show (rest.length + 3) / 3 = rest.length / 3 + 1 by omega,
      show (rest.length + 3) % 3 = rest.length % 3 by omega, encodeTail_shift,
      mapM_shift _ _ (encodeUnit_shift a b c rest)]
    have h0 : encodeUnit (a :: b :: c :: rest) 0 = encode3 a b c := rfl
    rw [h0]
    cases encode3 a b c with
    | none => rfl
    | some u =>
      cases (List.range (rest.length / 3)).mapM (encodeUnit rest) with
      | none => rfl
      | some us => cases encodeTail rest (rest.length / 3) (rest.length % 3) <;> simp
  | [a, b] => by simp [base64Encode, encodeTail, encR]
  | [a] => by simp [base64Encode, encodeTail, encR]
  | [] => rfl

/-! ## The encoder meets the specification -/

theorem byteBits_eq (b : Nat) : byteBits b = [b.testBit 7, b.testBit 6, b.testBit 5, b.testBit 4,
    b.testBit 3, b.testBit 2, b.testBit 1, b.testBit 0] := rfl

theorem valueToChar_get {v : Nat} (h : v < 64) :
    valueToChar[v]? = some (base64Alphabet.getD v 0) := by
  have : ∀ v < 64, valueToChar[v]? = some (base64Alphabet.getD v 0) := by decide +kernel
  exact this v h

theorem sext0 : ∀ a < 256, a >>> 2 = bitsValue [a.testBit 7, a.testBit 6, a.testBit 5, a.testBit 4,
    a.testBit 3, a.testBit 2] := by decide +kernel

theorem sext3 : ∀ c < 256, c &&& 0x3F = bitsValue [c.testBit 5, c.testBit 4, c.testBit 3,
    c.testBit 2, c.testBit 1, c.testBit 0] := by decide +kernel

theorem sext1' : ∀ a < 256, (a <<< 4) &&& 0x30 =
    bitsValue [a.testBit 1, a.testBit 0, false, false, false, false] := by decide +kernel

theorem sext2' : ∀ b < 256, (b <<< 2) &&& 0x3C =
    bitsValue [b.testBit 3, b.testBit 2, b.testBit 1, b.testBit 0, false, false] := by decide +kernel

theorem shr4_bits : ∀ b < 256, b >>> 4 =
    bitsValue [b.testBit 7, b.testBit 6, b.testBit 5, b.testBit 4] := by decide +kernel

theorem shr6_bits : ∀ c < 256, c >>> 6 = bitsValue [c.testBit 7, c.testBit 6] := by decide +kernel

theorem sext1 (a : Nat) (ha : a < 256) (b : Nat) (hb : b < 256) : ((a <<< 4) &&& 0x30) ||| (b >>> 4) =
    bitsValue [a.testBit 1, a.testBit 0, b.testBit 7, b.testBit 6, b.testBit 5, b.testBit 4] := by
  rw [sext1' a ha, shr4_bits b hb]
  have : ∀ a0 a1 b0 b1 b2 b3 : Bool, bitsValue [a0, a1, false, false, false, false] |||
      bitsValue [b0, b1, b2, b3] = bitsValue [a0, a1, b0, b1, b2, b3] := by decide
  exact this ..

theorem sext2 (b : Nat) (hb : b < 256) (c : Nat) (hc : c < 256) : ((b <<< 2) &&& 0x3C) ||| (c >>> 6) =
    bitsValue [b.testBit 3, b.testBit 2, b.testBit 1, b.testBit 0, c.testBit 7, c.testBit 6] := by
  rw [sext2' b hb, shr6_bits c hc]
  have : ∀ a0 a1 b0 b1 b2 b3 : Bool, bitsValue [a0, a1, b0, b1, false, false] |||
      bitsValue [b2, b3] = bitsValue [a0, a1, b0, b1, b2, b3] := by decide
  exact this ..

theorem bitsValue_lt (b0 b1 b2 b3 b4 b5 : Bool) : bitsValue [b0, b1, b2, b3, b4, b5] < 64 := by
  revert b0 b1 b2 b3 b4 b5; decide

theorem spec_step (a b c : Nat) (rest : List Nat) (ha : a < 256) (hb : b < 256) (hc : c < 256) :
    ∃ u, encode3 a b c = some u ∧ u.length = 4 ∧ base64 (a :: b :: c :: rest) = u ++ base64 rest := by
  have e : encode3 a b c = some [
      base64Alphabet.getD (bitsValue [a.testBit 7, a.testBit 6, a.testBit 5, a.testBit 4,
        a.testBit 3, a.testBit 2]) 0,
      base64Alphabet.getD (bitsValue [a.testBit 1, a.testBit 0, b.testBit 7, b.testBit 6,
        b.testBit 5, b.testBit 4]) 0,
      base64Alphabet.getD (bitsValue [b.testBit 3, b.testBit 2, b.testBit 1, b.testBit 0,
        c.testBit 7, c.testBit 6]) 0,
      base64Alphabet.getD (bitsValue [c.testBit 5, c.testBit 4, c.testBit 3,
        c.testBit 2, c.testBit 1, c.testBit 0]) 0] := by
    unfold encode3
    rw [sext0 a ha, sext1 a ha b hb, sext2 b hb c hc, sext3 c hc]
    simp only [List.mapM_cons, List.mapM_nil, valueToChar_get (bitsValue_lt ..)]
    rfl
  refine ⟨_, e, rfl, ?_⟩
  unfold base64
  simp only [List.flatMap_cons, byteBits_eq, List.cons_append, List.nil_append, sextets,
    List.map_cons, List.length_cons]
  rw [show ∀ n, (n + 1 + 1 + 1 + 1) % 4 = n % 4 by omega]

theorem spec_two (a b : Nat) (ha : a < 256) (hb : b < 256) :
    encode2 a b = some (base64 [a, b]) := by
  unfold encode2
  rw [sext0 a ha, sext1 a ha b hb, sext2' b hb]
  simp only [List.mapM_cons, List.mapM_nil, valueToChar_get (bitsValue_lt ..)]
  rfl

theorem spec_one (a : Nat) (ha : a < 256) : encode1 a = some (base64 [a]) := by
  unfold encode1
  rw [sext0 a ha, sext1' a ha]
  simp only [List.mapM_cons, List.mapM_nil, valueToChar_get (bitsValue_lt ..)]
  rfl

theorem encR_spec : ∀ data : List Nat, IsBytes data → encR data = some (base64 data)
  | a :: b :: c :: rest, h => by
    obtain ⟨u, e, _, hs⟩ := spec_step a b c rest (h a (by simp)) (h b (by simp)) (h c (by simp))
    rw [encR, e, encR_spec rest (fun x hx => h x (by simp [hx])), hs]; rfl
  | [a, b], h => spec_two a b (h a (by simp)) (h b (by simp))
  | [a], h => spec_one a (h a (by simp))
  | [], _ => rfl

/-- Encoding any bytes gives the standard base64 text (and never reads out of bounds). -/
theorem C14_encode_is_base64 (data : List Nat) (h : IsBytes data) :
    base64Encode data = some (base64 data) := by rw [base64Encode_eq, encR_spec data h]

theorem encodedSize_add3 (n : Nat) : encodedSize (n + 3) = encodedSize n + 4 := by
  unfold encodedSize
  rw [show (n + 3) % 3 = n % 3 by omega, show (n + 3) / 3 = n / 3 + 1 by omega]
  split <;> omega

theorem encR_length : ∀ (data t : List Nat), encR data = some t → IsBytes data →
    t.length = encodedSize data.length
  | a :: b :: c :: rest, t, e, h => by
    obtain ⟨u, eu, lu, _⟩ := spec_step a b c rest (h a (by simp)) (h b (by simp)) (h c (by simp))
    have hr := encR_spec rest (fun x hx => h x (by simp [hx]))
    have := encR_length rest _ hr (fun x hx => h x (by simp [hx]))
    rw [encR, eu, hr] at e
    simp only [Option.bind_some, Option.map_some, Option.some.injEq] at e
    rw [← e, List.length_append, lu, this]
    show _ = encodedSize (rest.length + 3)
    rw [encodedSize_add3]; omega
  | [a, b], t, e, h => by
    rw [encR, spec_two a b (h a (by simp)) (h b (by simp))] at e
    cases e; simp [base64, byteBits_eq, sextets, encodedSize]
  | [a], t, e, h => by
    rw [encR, spec_one a (h a (by simp))] at e
    cases e; simp [base64, byteBits_eq, sextets, encodedSize]
  | [], t, e, _ => by cases e; rfl

/-- The encoded length is four characters for every three bytes or part thereof, as announced by
`encoded_size`. -/
theorem C14_encoded_length (data t : List Nat) (h : IsBytes data) (ht : base64Encode data = some t) :
    t.length = encodedSize data.length ∧ t.length = 4 * ((data.length + 2) / 3) := by
  rw [base64Encode_eq] at ht
  refine ⟨encR_length data t ht h, ?_⟩
  rw [encR_length data t ht h]; unfold encodedSize; split <;> omega

/-! ## Decoding -/

/-- Position `k` of the text holds a character of the format. -/
def GoodAt (text : List Nat) (k : Nat) : Prop := ∃ c, text[k]? = some c ∧ base64Char c

theorem GoodAt.lt {text : List Nat} {k : Nat} (h : GoodAt text k) : k < text.length := by
  obtain ⟨c, hc, _⟩ := h
  exact (List.getElem?_eq_some_iff.1 hc).1

/-- Where `char` is signed, the decoder is only defined on 7-bit characters. -/
def SafeText (charSigned : Bool) (text : List Nat) : Prop :=
  ∀ c ∈ text, if charSigned then c < 128 else c < 256

theorem decodeChar_good : ∀ s : Bool, ∀ c < 256, base64Char c → ∃ v < 64, decodeChar s c = .ok v := by
  decide +kernel

theorem decodeChar_bad : ∀ s : Bool, ∀ c < 256, (if s then c < 128 else c < 256) → ¬ base64Char c →
    decodeChar s c = .fail := by decide +kernel

theorem base64Char_lt {c : Nat} (h : base64Char c) : c < 128 := by
  have : ∀ c ∈ base64Alphabet, c < 128 := by decide +kernel
  rcases h with h | h
  · exact this c h
  · rw [h]; decide

theorem step_good (s : Bool) (text : List Nat) (k : Nat) (h : GoodAt text k) :
    ∃ v < 64, (stringAt text k).bind (decodeChar s) = .ok v := by
  have hlt := h.lt
  obtain ⟨c, hc, hg⟩ := h
  obtain ⟨v, hv, e⟩ := decodeChar_good s c (by have := base64Char_lt hg; omega) hg
  refine ⟨v, hv, ?_⟩
  rw [stringAt, if_pos hlt, hc]; exact e

theorem step_bad (s : Bool) (text : List Nat) (k : Nat) (hs : SafeText s text) (hk : k ≤ text.length)
    (h : ¬ GoodAt text k) : (stringAt text k).bind (decodeChar s) = .fail := by
  by_cases hlt : k < text.length
  · have hc : text[k]? = some text[k] := List.getElem?_eq_getElem hlt
    have hsafe := hs text[k] (List.getElem_mem hlt)
    rw [stringAt, if_pos hlt, hc]
    refine decodeChar_bad s _ ?_ hsafe (fun hg => h ⟨_, hc, hg⟩)
    cases s <;> simp at hsafe <;> omega
  · rw [stringAt, if_neg hlt, if_pos (by omega)]
    cases s <;> decide +kernel

theorem decodeVals_total (s : Bool) (text : List Nat) (k : Nat) :
    ((∀ j < 4, GoodAt text (k + j)) →
      ∃ v0 v1 v2 v3, decodeVals s text k = .ok (v0, v1, v2, v3)) ∧
    (SafeText s text → k ≤ text.length → ¬ (∀ j < 4, GoodAt text (k + j)) →
      decodeVals s text k = .fail) := by
  unfold decodeVals
  refine ⟨fun h => ?_, fun hs hk h => ?_⟩
  · obtain ⟨v0, _, e0⟩ := step_good s text k (h 0 (by omega))
    obtain ⟨v1, _, e1⟩ := step_good s text (k + 1) (h 1 (by omega))
    obtain ⟨v2, _, e2⟩ := step_good s text (k + 2) (h 2 (by omega))
    obtain ⟨v3, _, e3⟩ := step_good s text (k + 3) (h 3 (by omega))
    exact ⟨v0, v1, v2, v3, by rw [e0, e1, e2, e3]; rfl⟩
  · by_cases h0 : GoodAt text k
    rotate_left
    · rw [step_bad s text k hs hk h0]; rfl
    obtain ⟨v0, _, e0⟩ := step_good s text k h0
    rw [e0, Res.bind_ok]
    by_cases h1 : GoodAt text (k + 1)
    rotate_left
    · rw [step_bad s text _ hs h0.lt h1]; rfl
    obtain ⟨v1, _, e1⟩ := step_good s text _ h1
    rw [e1, Res.bind_ok]
    by_cases h2 : GoodAt text (k + 2)
    rotate_left
    · rw [step_bad s text _ hs h1.lt h2]; rfl
    obtain ⟨v2, _, e2⟩ := step_good s text _ h2
    rw [e2, Res.bind_ok]
    by_cases h3 : GoodAt text (k + 3)
    rotate_left
    · rw [step_bad s text _ hs h2.lt h3]; rfl
    exfalso; apply h
    intro j hj
    match j, hj with
    | 0, _ => exact h0
    | 1, _ => exact h1
    | 2, _ => exact h2
    | 3, _ => exact h3

theorem decode4_ok (s : Bool) (text : List Nat) (k n : Nat) (hn : 1 ≤ n ∧ n ≤ 3)
    (h : ∀ j < 4, GoodAt text (k + j)) : ∃ o, decode4 s text k n = .ok o ∧ o.length = n := by
  obtain ⟨v0, v1, v2, v3, e⟩ := (decodeVals_total s text k).1 h
  unfold decode4
  rw [e, Res.bind_ok]
  refine ⟨_, rfl, ?_⟩
  split
  · simp; omega
  · split
    · simp; omega
    · simp; omega

theorem decode4_fail (s : Bool) (text : List Nat) (k n : Nat) (hs : SafeText s text)
    (hk : k ≤ text.length) (h : ¬ ∀ j < 4, GoodAt text (k + j)) : decode4 s text k n = .fail := by
  unfold decode4
  rw [(decodeVals_total s text k).2 hs hk h]; rfl

theorem decodeLoop_ok (s : Bool) (text : List Nat) : ∀ (n i : Nat),
    (∀ j < 4 * n, GoodAt text (i * 4 + j)) →
    ∃ o, decodeLoop s text i n = .ok o ∧ o.length = 3 * n
  | 0, i, _ => ⟨[], rfl, rfl⟩
  | n + 1, i, h => by
    obtain ⟨o, e, l⟩ := decode4_ok s text (i * 4) 3 (by omega) (fun j hj => h j (by omega))
    obtain ⟨os, es, ls⟩ := decodeLoop_ok s text n (i + 1) (fun j hj => by
      have := h (j + 4) (by omega)
      rwa [show i * 4 + (j + 4) = (i + 1) * 4 + j by omega] at this)
    exact ⟨o ++ os, by rw [decodeLoop, e, Res.bind_ok, es, Res.bind_ok], by
      rw [List.length_append]; omega⟩

theorem decodeLoop_fail (s : Bool) (text : List Nat) (hs : SafeText s text) : ∀ (n i : Nat),
    i * 4 ≤ text.length → (¬ ∀ j < 4 * n, GoodAt text (i * 4 + j)) →
    decodeLoop s text i n = .fail
  | 0, i, _, h => absurd (fun j hj => absurd hj (by omega)) h
  | n + 1, i, hi, h => by
    rw [decodeLoop]
    by_cases h0 : ∀ j < 4, GoodAt text (i * 4 + j)
    · obtain ⟨o, e, _⟩ := decode4_ok s text (i * 4) 3 (by omega) h0
      rw [e, Res.bind_ok, decodeLoop_fail s text hs n (i + 1) ?_ ?_]; · rfl
      · have := (h0 3 (by omega)).lt; omega
      · intro h1; apply h
        intro j hj
        by_cases hj4 : j < 4
        · exact h0 j hj4
        · have := h1 (j - 4) (by omega)
          rwa [show (i + 1) * 4 + (j - 4) = i * 4 + j by omega] at this
    · rw [decode4_fail s text _ _ hs hi h0]; rfl

/-- Decoding succeeds exactly when the characters it needs are all there and all belong to the
format, and then produces exactly `size` bytes. A missing or foreign character among those needed is
reported as a failure. This is what holds of the third clause: characters beyond those needed are not
looked at, and where `char` is signed the text must be 7-bit (see the refutations below). -/
theorem C14_decode_partial (charSigned : Bool) (text : List Nat) (size : Nat) :
    ((∀ k < encodedSize size, GoodAt text k) →
      ∃ o, base64Decode charSigned text size = .ok o ∧ o.length = size) ∧
    (SafeText charSigned text → (¬ ∀ k < encodedSize size, GoodAt text k) →
      base64Decode charSigned text size = .fail) := by
  have hsz : encodedSize size = 4 * (size / 3) + (if size % 3 ≠ 0 then 4 else 0) := by
    unfold encodedSize; split <;> omega
  unfold base64Decode
  rw [hsz]
  have hm : size % 3 < 3 := Nat.mod_lt _ (by omega)
  have hdm := Nat.div_add_mod size 3
  generalize size % 3 = r at *
  generalize size / 3 = q at *
  refine ⟨fun h => ?_, fun hs h => ?_⟩
  · obtain ⟨o, e, l⟩ := decodeLoop_ok charSigned text q 0 (fun j hj => h _ (by omega))
    rw [e, Res.bind_ok]
    by_cases hr : r ≠ 0
    · rw [if_pos hr] at h ⊢
      obtain ⟨o', e', l'⟩ := decode4_ok charSigned text (q * 4) r (by omega)
        (fun j hj => h _ (by omega))
      exact ⟨o ++ o', by rw [e', Res.bind_ok], by rw [List.length_append]; omega⟩
    · rw [if_neg hr]; exact ⟨o, rfl, by omega⟩
  · by_cases h0 : ∀ j < 4 * q, GoodAt text (0 * 4 + j)
    · obtain ⟨o, e, _⟩ := decodeLoop_ok charSigned text q 0 h0
      rw [e, Res.bind_ok]
      by_cases hr : r ≠ 0
      · rw [if_pos hr] at h ⊢
        rw [decode4_fail charSigned text _ _ hs ?_ ?_]; · rfl
        · by_cases hq : q = 0
          · omega
          · have := (h0 (4 * q - 1) (by omega)).lt; omega
        · intro h1; apply h
          intro k hk
          by_cases hk' : k < 4 * q
          · have := h0 k hk'; rwa [show 0 * 4 + k = k by omega] at this
          · have := h1 (k - 4 * q) (by omega)
            rwa [show q * 4 + (k - 4 * q) = k by omega] at this
      · exfalso; apply h
        intro k hk
        rw [if_neg hr] at hk
        have := h0 k (by omega); rwa [show 0 * 4 + k = k by omega] at this
    · rw [decodeLoop_fail charSigned text hs q 0 (by omega) h0]; rfl

/-! ## Round trip -/

theorem out0 : ∀ a < 256, ∀ h < 16, ((((a >>> 2) <<< 2) &&& 0xFC) |||
    (((((a <<< 4) &&& 0x30) ||| h) >>> 4) &&& 0x03)) = a := by decide +kernel

theorem out1 : ∀ x ∈ [0, 16, 32, 48], ∀ b < 256, ∀ h < 4,
    (((x ||| (b >>> 4)) <<< 4) &&& 0xF0) ||| (((((b <<< 2) &&& 0x3C) ||| h) >>> 2) &&& 0x0F) = b := by
  decide +kernel

theorem out2 : ∀ y < 64, y % 4 = 0 → ∀ c < 256,
    (((y ||| (c >>> 6)) <<< 6) &&& 0xC0) ||| ((c &&& 0x3F) &&& 0x3F) = c := by decide +kernel

theorem hi_mem : ∀ a < 256, (a <<< 4) &&& 0x30 ∈ [0, 16, 32, 48] := by decide +kernel
theorem mid_lt : ∀ b < 256, (b <<< 2) &&& 0x3C < 64 ∧ ((b <<< 2) &&& 0x3C) % 4 = 0 := by
  decide +kernel
theorem shr4_lt : ∀ b < 256, b >>> 4 < 16 := by decide +kernel
theorem shr6_lt : ∀ b < 256, b >>> 6 < 4 := by decide +kernel

theorem charToValue_get (s : Bool) (v c : Nat) (hc : valueToChar[v]? = some c) :
    decodeChar s c = .ok v := by
  have hv : v < 64 := by
    have := (List.getElem?_eq_some_iff.1 hc).1
    exact this
  have : ∀ s : Bool, ∀ v < 64, ∀ c ∈ valueToChar[v]?, decodeChar s c = .ok v := by decide +kernel
  exact this s v hv c hc

theorem mapM4 {v0 v1 v2 v3 : Nat} {t : List Nat}
    (h : [v0, v1, v2, v3].mapM (fun v => valueToChar[v]?) = some t) :
    ∃ c0 c1 c2 c3, t = [c0, c1, c2, c3] ∧ valueToChar[v0]? = some c0 ∧ valueToChar[v1]? = some c1 ∧
      valueToChar[v2]? = some c2 ∧ valueToChar[v3]? = some c3 := by
  simp only [List.mapM_cons, List.mapM_nil, Option.bind_eq_bind, Option.bind_eq_some_iff] at h
  obtain ⟨c0, e0, _, ⟨c1, e1, _, ⟨c2, e2, _, ⟨c3, e3, _, e, h4⟩, h3⟩, h2⟩, h1⟩ := h
  cases e; cases h4; cases h3; cases h2; cases h1
  exact ⟨c0, c1, c2, c3, rfl, e0, e1, e2, e3⟩

theorem decodeVals_of (s : Bool) (c0 c1 c2 c3 v0 v1 v2 v3 : Nat) (rest : List Nat)
    (h0 : decodeChar s c0 = .ok v0) (h1 : decodeChar s c1 = .ok v1)
    (h2 : decodeChar s c2 = .ok v2) (h3 : decodeChar s c3 = .ok v3) :
    decodeVals s (c0 :: c1 :: c2 :: c3 :: rest) 0 = .ok (v0, v1, v2, v3) := by
  unfold decodeVals stringAt
  simp [Res.ofOption, h0, h1, h2, h3]

theorem stringAt_shift (c0 c1 c2 c3 : Nat) (rest : List Nat) (k : Nat) :
    stringAt (c0 :: c1 :: c2 :: c3 :: rest) (k + 4) = stringAt rest k := by
  simp [stringAt]

theorem decode4_shift (s : Bool) (c0 c1 c2 c3 : Nat) (rest : List Nat) (k n : Nat) :
    decode4 s (c0 :: c1 :: c2 :: c3 :: rest) (k + 4) n = decode4 s rest k n := by
  unfold decode4 decodeVals
  rw [show k + 4 + 1 = k + 1 + 4 by omega, show k + 4 + 2 = k + 2 + 4 by omega,
    show k + 4 + 3 = k + 3 + 4 by omega]
  simp only [stringAt_shift]

theorem decodeLoop_shift (s : Bool) (c0 c1 c2 c3 : Nat) (rest : List Nat) : ∀ n i : Nat,
    decodeLoop s (c0 :: c1 :: c2 :: c3 :: rest) (i + 1) n = decodeLoop s rest i n
  | 0, _ => rfl
  | n + 1, i => by
    rw [decodeLoop, decodeLoop, decodeLoop_shift s c0 c1 c2 c3 rest n (i + 1),
      show (i + 1) * 4 = i * 4 + 4 by omega, decode4_shift]

theorem decode_cons (s : Bool) (c0 c1 c2 c3 : Nat) (rest : List Nat) (size : Nat) :
    base64Decode s (c0 :: c1 :: c2 :: c3 :: rest) (size + 3) =
      (decode4 s (c0 :: c1 :: c2 :: c3 :: rest) 0 3).bind fun o =>
        (base64Decode s rest size).bind fun os => .ok (o ++ os) := by
  unfold base64Decode
  rw [show (size + 3) / 3 = size / 3 + 1 by omega, show (size + 3) % 3 = size % 3 by omega,
    decodeLoop, decodeLoop_shift, Nat.zero_mul, show (size / 3 + 1) * 4 = size / 3 * 4 + 4 by omega,
    decode4_shift]
  cases decode4 s (c0 :: c1 :: c2 :: c3 :: rest) 0 3 with
  | ok o =>
    cases decodeLoop s rest 0 (size / 3) with
    | ok os =>
      simp only [Res.bind_ok]
      split
      · cases decode4 s rest (size / 3 * 4) (size % 3) <;> simp
      · rfl
    | fail => rfl
    | ub => rfl
  | fail => rfl
  | ub => rfl

theorem decode_enc3 (s : Bool) (a b c : Nat) (u rest : List Nat) (ha : a < 256) (hb : b < 256)
    (hc : c < 256) (h : encode3 a b c = some u) (size : Nat) :
    base64Decode s (u ++ rest) (size + 3) =
      (base64Decode s rest size).bind fun os => .ok (a :: b :: c :: os) := by
  obtain ⟨c0, c1, c2, c3, rfl, e0, e1, e2, e3⟩ := mapM4 h
  have hv := decodeVals_of s c0 c1 c2 c3 _ _ _ _ rest (charToValue_get s _ _ e0)
    (charToValue_get s _ _ e1) (charToValue_get s _ _ e2) (charToValue_get s _ _ e3)
  show base64Decode s (c0 :: c1 :: c2 :: c3 :: rest) (size + 3) = _
  rw [decode_cons, decode4, hv, Res.bind_ok]
  have hm := mid_lt b hb
  simp only [out0 a ha _ (shr4_lt b hb), out1 _ (hi_mem a ha) b hb _ (shr6_lt c hc),
    out2 _ hm.1 hm.2 c hc]
  rfl

theorem decode_tail (s : Bool) (c0 c1 c2 c3 v0 v1 v2 v3 : Nat) (rest : List Nat) (n : Nat)
    (hn : n = 1 ∨ n = 2)
    (h0 : decodeChar s c0 = .ok v0) (h1 : decodeChar s c1 = .ok v1)
    (h2 : decodeChar s c2 = .ok v2) (h3 : decodeChar s c3 = .ok v3) :
    base64Decode s (c0 :: c1 :: c2 :: c3 :: rest) n =
      .ok (if n < 2 then [((v0 <<< 2) &&& 0xFC) ||| ((v1 >>> 4) &&& 0x03)] else
        [((v0 <<< 2) &&& 0xFC) ||| ((v1 >>> 4) &&& 0x03),
         ((v1 <<< 4) &&& 0xF0) ||| ((v2 >>> 2) &&& 0x0F)]) := by
  have hv := decodeVals_of s c0 c1 c2 c3 _ _ _ _ rest h0 h1 h2 h3
  unfold base64Decode
  rcases hn with rfl | rfl
  · simp only [show 1 / 3 = 0 by rfl, decodeLoop, Res.bind_ok, Nat.zero_mul]
    rw [if_pos (by decide), decode4, hv]; rfl
  · simp only [show 2 / 3 = 0 by rfl, decodeLoop, Res.bind_ok, Nat.zero_mul]
    rw [if_pos (by decide), decode4, hv]; rfl

theorem decode_pad (s : Bool) : decodeChar s 61 = .ok 0 := by cases s <;> decide +kernel

theorem roundtrip_append (s : Bool) (rest : List Nat) : ∀ (data t : List Nat), IsBytes data →
    encR data = some t → base64Decode s (t ++ rest) data.length = .ok data
  | a :: b :: c :: more, t, h, e => by
    have hr : IsBytes more := fun x hx => h x (by simp [hx])
    rw [encR] at e
    obtain ⟨u, hu, e⟩ := Option.bind_eq_some_iff.1 e
    obtain ⟨t', ht', e⟩ := Option.map_eq_some_iff.1 e
    subst e
    show base64Decode s _ (more.length + 3) = _
    rw [List.append_assoc, decode_enc3 s a b c u _ (h a (by simp)) (h b (by simp)) (h c (by simp)) hu,
      roundtrip_append s rest more t' hr ht', Res.bind_ok]
  | [a, b], t, h, e => by
    have ha := h a (by simp)
    have hb := h b (by simp)
    rw [encR, encode2] at e
    obtain ⟨u, hu, e⟩ := Option.map_eq_some_iff.1 e
    subst e
    simp only [List.mapM_cons, List.mapM_nil, Option.bind_eq_bind, Option.bind_eq_some_iff] at hu
    obtain ⟨c0, e0, _, ⟨c1, e1, _, ⟨c2, e2, _, e, h3⟩, h2⟩, h1⟩ := hu
    cases e; cases h3; cases h2; cases h1
    show base64Decode s (c0 :: c1 :: c2 :: 61 :: rest) 2 = _
    rw [decode_tail s c0 c1 c2 61 _ _ _ 0 rest 2 (.inr rfl) (charToValue_get s _ _ e0)
      (charToValue_get s _ _ e1) (charToValue_get s _ _ e2) (decode_pad s)]
    have hz := out1 _ (hi_mem a ha) b hb 0 (by omega)
    rw [Nat.or_zero] at hz
    rw [if_neg (by omega), out0 a ha _ (shr4_lt b hb), hz]
  | [a], t, h, e => by
    have ha := h a (by simp)
    rw [encR, encode1] at e
    obtain ⟨u, hu, e⟩ := Option.map_eq_some_iff.1 e
    subst e
    simp only [List.mapM_cons, List.mapM_nil, Option.bind_eq_bind, Option.bind_eq_some_iff] at hu
    obtain ⟨c0, e0, _, ⟨c1, e1, _, e, h2⟩, h1⟩ := hu
    cases e; cases h2; cases h1
    show base64Decode s (c0 :: c1 :: 61 :: 61 :: rest) 1 = _
    rw [decode_tail s c0 c1 61 61 _ _ 0 0 rest 1 (.inl rfl) (charToValue_get s _ _ e0)
      (charToValue_get s _ _ e1) (decode_pad s) (decode_pad s)]
    have hz := out0 a ha 0 (by omega)
    rw [Nat.or_zero] at hz
    rw [if_pos (by omega), hz]
  | [], t, _, e => rfl

/-- Decoding the encoding of any bytes gives them back, whatever follows the encoded text and
whether or not `char` is signed. -/
theorem C14_roundtrip (charSigned : Bool) (data rest : List Nat) (h : IsBytes data) :
    ∃ t, base64Encode data = some t ∧
      base64Decode charSigned (t ++ rest) data.length = .ok data :=
  ⟨base64 data, C14_encode_is_base64 data h,
    roundtrip_append charSigned rest data _ h (encR_spec data h)⟩

/-! ## Reading encoded text from a stream -/

theorem readEncoded_good (c : Nat) (rest : List Nat) (h : base64Char c) :
    readEncoded (c :: rest) = (c :: (readEncoded rest).1, (readEncoded rest).2) := by
  have : ∀ c < 128, base64Char c → ∃ v ∈ charToValue[c]?, v ≤ 63 := by decide +kernel
  have hlt := base64Char_lt h
  obtain ⟨v, hv, hle⟩ := this c hlt h
  rw [readEncoded, if_neg (by omega), show charToValue[c]? = some v from hv]
  simp only
  rw [if_neg (by omega)]

theorem readEncoded_bad (c : Nat) (rest : List Nat) (hc : c < 256) (h : ¬ base64Char c) :
    readEncoded (c :: rest) = ([], rest) := by
  rw [readEncoded]
  by_cases h7 : c > 127
  · rw [if_pos h7]
  · rw [if_neg h7]
    have : ∀ c < 128, ¬ base64Char c → ∃ v ∈ charToValue[c]?, v > 63 := by decide +kernel
    obtain ⟨v, hv, hgt⟩ := this c (by omega) h
    rw [show charToValue[c]? = some v from hv]
    simp only
    rw [if_pos hgt]

/-- `read_encoded` takes the longest run of format characters, consumes one further character and
leaves the rest of the stream. -/
theorem C14_read_encoded (text rest : List Nat) (stop : Nat) (ht : ∀ c ∈ text, base64Char c)
    (hs : stop < 256) (hstop : ¬ base64Char stop) :
    readEncoded (text ++ stop :: rest) = (text, rest) ∧ readEncoded text = (text, []) := by
  induction text with
  | nil => exact ⟨readEncoded_bad stop rest hs hstop, rfl⟩
  | cons c text ih =>
    obtain ⟨h1, h2⟩ := ih (fun x hx => ht x (by simp [hx]))
    rw [List.cons_append, readEncoded_good c _ (ht c (by simp)), h1,
      readEncoded_good c _ (ht c (by simp)), h2]
    exact ⟨rfl, rfl⟩

theorem base64_chars (data : List Nat) : ∀ c ∈ base64 data, base64Char c := by
  intro c hc
  rw [base64, List.mem_append] at hc
  rcases hc with hc | hc
  · obtain ⟨g, hg, rfl⟩ := List.mem_map.1 hc
    left
    have hlt : bitsValue g < 64 := by
      have : ∀ (l : List Bool), ∀ g ∈ sextets l, g.length = 6 := by
        intro l
        induction l using sextets.induct with
        | case1 => simp [sextets]
        | case2 b0 b1 b2 b3 b4 b5 rest ih =>
          intro g hg
          rw [sextets, List.mem_cons] at hg
          rcases hg with rfl | hg
          · rfl
          · exact ih g hg
        | case3 l h1 h2 =>
          intro g hg
          rw [sextets.eq_3 l h1 h2] at hg
          rw [List.mem_singleton] at hg
          subst hg
          have : l.length < 6 := by
            match l, h2 with
            | [], _ | [_], _ | [_, _], _ | [_, _, _], _ | [_, _, _, _], _ | [_, _, _, _, _], _ => simp
            | b0 :: b1 :: b2 :: b3 :: b4 :: b5 :: r, h => exact absurd rfl (h _ _ _ _ _ _ _)
          simp; omega
      have hl := this _ g hg
      match g, hl with
      | [b0, b1, b2, b3, b4, b5], _ => exact bitsValue_lt ..
    have : ∀ v < 64, base64Alphabet.getD v 0 ∈ base64Alphabet := by decide +kernel
    exact this _ hlt
  · right; exact (List.mem_replicate.1 hc).2

/-- Encoded text uses only the alphabet and the padding character. -/
theorem C14_alphabet (data t : List Nat) (h : IsBytes data) (ht : base64Encode data = some t) :
    ∀ c ∈ t, base64Char c := by
  rw [C14_encode_is_base64 data h] at ht
  cases ht
  exact base64_chars data

/-! ## What fails -/

/-- Where `char` is signed, a character from 128 on makes the decoder read out of bounds. -/
theorem C14_signed_char_refuted : base64Decode true [200, 65, 65, 65] 3 = .ub := by decide +kernel

/-- Foreign characters after the needed text go unnoticed. -/
theorem C14_trailing_refuted : base64Decode true [65, 65, 65, 65, 33] 3 = .ok [0, 0, 0] ∧
    ¬ base64Char 33 := by decide +kernel

/-- Padding characters are accepted anywhere, as zero bits. -/
theorem C14_padding_inside_refuted : base64Decode true [61, 61, 61, 61] 3 = .ok [0, 0, 0] := by
  decide +kernel

/-! Non-vacuity -/
example : IsBytes [77, 97, 255, 0, 128] ∧
    base64Encode [77, 97, 255, 0, 128] = some ("TWH/AIA=".toList.map Char.toNat) ∧
    base64Decode true ("TWH/AIA=!".toList.map Char.toNat) 5 = .ok [77, 97, 255, 0, 128] := by
  refine ⟨?_, ?_, ?_⟩
  · intro x hx; revert x; decide
  · decide +kernel
  · decide +kernel
example : base64Decode false [200, 65, 65, 65] 3 = .fail ∧ base64Decode true [65, 65] 3 = .fail := by
  decide +kernel
example : readEncoded [84, 87, 61, 60, 65] = ([84, 87, 61], [65]) := by decide +kernel

end OmegaH
