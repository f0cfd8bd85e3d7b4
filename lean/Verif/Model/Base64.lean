import Verif.Model.Res

/-! # Base64: src/Omega_h_base64.cpp

Bytes and characters are natural numbers below 256. -/

namespace OmegaH

/-- `value_to_char`: src/Omega_h_base64.cpp:11-15. -/
def valueToChar : List Nat :=
  (List.range 26).map (· + 65) ++ (List.range 26).map (· + 97) ++ (List.range 10).map (· + 48) ++ [43, 47]

/-- `char_to_value`: src/Omega_h_base64.cpp:17-39. Note that '=' (61) is given the value 0. -/
def charToValue : List Nat :=
  List.replicate 43 255 ++ [62] ++ List.replicate 3 255 ++ [63] ++ (List.range 10).map (· + 52) ++
  List.replicate 3 255 ++ [0] ++ List.replicate 3 255 ++ List.range 26 ++ List.replicate 6 255 ++
  (List.range 26).map (· + 26) ++ List.replicate 5 255 ++ List.replicate 128 255

/-- `encode_3` on the bytes `a b c`: src/Omega_h_base64.cpp:41-46. -/
def encode3 (a b c : Nat) : Option (List Nat) :=
  [a >>> 2, ((a <<< 4) &&& 0x30) ||| (b >>> 4), ((b <<< 2) &&& 0x3C) ||| (c >>> 6), c &&& 0x3F].mapM
    (fun v => valueToChar[v]?)

/-- `encode_2`: src/Omega_h_base64.cpp:48-53. -/
def encode2 (a b : Nat) : Option (List Nat) :=
  ([a >>> 2, ((a <<< 4) &&& 0x30) ||| (b >>> 4), (b <<< 2) &&& 0x3C].mapM
    (fun v => valueToChar[v]?)).map (· ++ [61])

/-- `encode_1`: src/Omega_h_base64.cpp:55-60. -/
def encode1 (a : Nat) : Option (List Nat) :=
  ([a >>> 2, (a <<< 4) &&& 0x30].mapM (fun v => valueToChar[v]?)).map (· ++ [61, 61])

/-- `encoded_size`: src/Omega_h_base64.cpp:94-100. -/
def encodedSize (size : Nat) : Nat :=
  (if size % 3 ≠ 0 then size / 3 + 1 else size / 3) * 4

/-- Unit `i` of the loop in `encode`: three bytes starting at `i * 3`. -/
def encodeUnit (data : List Nat) (i : Nat) : Option (List Nat) :=
  (data[i * 3]?).bind fun a => (data[i * 3 + 1]?).bind fun b => (data[i * 3 + 2]?).bind fun c =>
    encode3 a b c

/-- The `switch (rem)` in `encode`: src/Omega_h_base64.cpp:110-120. -/
def encodeTail (data : List Nat) (quot rem : Nat) : Option (List Nat) :=
  if rem = 1 then (data[quot * 3]?).bind encode1
  else if rem = 2 then (data[quot * 3]?).bind fun a => (data[quot * 3 + 1]?).bind fun b => encode2 a b
  else some []

/-- `encode`: src/Omega_h_base64.cpp:102-122. The units are written one after the other into the
result, which is modelled by concatenation. -/
def base64Encode (data : List Nat) : Option (List Nat) :=
  ((List.range (data.length / 3)).mapM (encodeUnit data)).bind fun units =>
    (encodeTail data (data.length / 3) (data.length % 3)).map fun tail => units.flatten ++ tail

/-- Reading character `k` of a `std::string`: the position just past the end holds the terminating
zero, anything further is undefined. -/
def stringAt (text : List Nat) (k : Nat) : Res Nat :=
  if k < text.length then Res.ofOption text[k]? else if k = text.length then .ok 0 else .ub

/-- One step of the loop in `decode_4` (src/Omega_h_base64.cpp:73-76): `char_to_value[U(in[i])]` and
the check. Where `char` is signed, characters from 128 on become huge when cast to `unsigned` and the
access is out of bounds. -/
def decodeChar (charSigned : Bool) (c : Nat) : Res Nat :=
  (if charSigned && decide (128 ≤ c) then (.ub : Res Nat) else Res.ofOption charToValue[c]?).bind
    fun v => if v < 64 then .ok v else .fail

/-- The four values read by `decode_4` from position `k` on. -/
def decodeVals (charSigned : Bool) (text : List Nat) (k : Nat) : Res (Nat × Nat × Nat × Nat) :=
  ((stringAt text k).bind (decodeChar charSigned)).bind fun v0 =>
  ((stringAt text (k + 1)).bind (decodeChar charSigned)).bind fun v1 =>
  ((stringAt text (k + 2)).bind (decodeChar charSigned)).bind fun v2 =>
  ((stringAt text (k + 3)).bind (decodeChar charSigned)).bind fun v3 => .ok (v0, v1, v2, v3)

/-- `decode_4`: src/Omega_h_base64.cpp:72-90. The result is the list of the `nout` bytes written. -/
def decode4 (charSigned : Bool) (text : List Nat) (k nout : Nat) : Res (List Nat) :=
  (decodeVals charSigned text k).bind fun (v0, v1, v2, v3) =>
    let o0 := ((v0 <<< 2) &&& 0xFC) ||| ((v1 >>> 4) &&& 0x03)
    let o1 := ((v1 <<< 4) &&& 0xF0) ||| ((v2 >>> 2) &&& 0x0F)
    let o2 := ((v2 <<< 6) &&& 0xC0) ||| (v3 &&& 0x3F)
    .ok (if nout < 2 then [o0] else if nout < 3 then [o0, o1] else [o0, o1, o2])

/-- The loop of `decode` over units `i`, `i+1`, …, `i+n-1`. -/
def decodeLoop (charSigned : Bool) (text : List Nat) : Nat → Nat → Res (List Nat)
  | _, 0 => .ok []
  | i, n + 1 => (decode4 charSigned text (i * 4) 3).bind fun o =>
      (decodeLoop charSigned text (i + 1) n).bind fun os => .ok (o ++ os)

/-- `decode`: src/Omega_h_base64.cpp:124-130. The result is the content of the output buffer. -/
def base64Decode (charSigned : Bool) (text : List Nat) (size : Nat) : Res (List Nat) :=
  (decodeLoop charSigned text 0 (size / 3)).bind fun o =>
    if size % 3 ≠ 0 then
      (decode4 charSigned text (size / 3 * 4) (size % 3)).bind fun o' => .ok (o ++ o')
    else .ok o

/-- `read_encoded`: src/Omega_h_base64.cpp:132-142. The stream is the list of its remaining bytes;
the result is the text read and what is left in the stream (the stopping character is consumed). -/
def readEncoded : List Nat → List Nat × List Nat
  | [] => ([], [])
  | c :: rest =>
    if c > 127 then ([], rest)
    else match charToValue[c]? with
      | none => ([], rest)  -- unreachable: c ≤ 127
      | some v => if v > 63 then ([], rest) else
          let (a, b) := readEncoded rest; (c :: a, b)

end OmegaH
