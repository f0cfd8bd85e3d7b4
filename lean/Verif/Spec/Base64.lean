/-! # Specification: base64 (RFC 4648) as regrouping of bits -/

namespace OmegaH.Spec

/-- The 64 characters, as character codes. -/
def base64Alphabet : List Nat :=
  "ABCDEFGHIJKLMNOPQRSTUVWXYZabcdefghijklmnopqrstuvwxyz0123456789+/".toList.map Char.toNat

/-- The eight bits of a byte, most significant first. -/
def byteBits (b : Nat) : List Bool := (List.range 8).map (fun i => b.testBit (7 - i))

/-- The number written by a list of bits, most significant first. -/
def bitsValue (l : List Bool) : Nat := l.foldl (fun n b => 2 * n + b.toNat) 0

/-- Groups of six bits; the last one is filled up with zero bits. -/
def sextets : List Bool → List (List Bool)
  | [] => []
  | b0 :: b1 :: b2 :: b3 :: b4 :: b5 :: rest => [b0, b1, b2, b3, b4, b5] :: sextets rest
  | l => [l ++ List.replicate (6 - l.length) false]

/-- The encoding: one character for each group of six bits, then `=` up to a multiple of four. -/
def base64 (bytes : List Nat) : List Nat :=
  let chars := (sextets (bytes.flatMap byteBits)).map
    (fun g => base64Alphabet.getD (bitsValue g) 0)  -- never the default: a group is below 64
  chars ++ List.replicate ((4 - chars.length % 4) % 4) '='.toNat

end OmegaH.Spec
