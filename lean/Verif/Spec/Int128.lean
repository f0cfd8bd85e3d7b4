import Verif.Model.Int128

/-! # Specification for 128-bit integers and the reproducible sum

The meaning of the two data types of the model; no function of the model is used. -/

namespace OmegaH.Spec

/-- The integer represented by a pair of words. -/
def value (x : I128) : Int := x.high * 2 ^ 64 + x.low

/-- The words are within their types. -/
def Valid (x : I128) : Prop := -2 ^ 63 ≤ x.high ∧ x.high < 2 ^ 63 ∧ x.low < 2 ^ 64

/-- The double `v` divided by `2^u`, truncated towards zero: the number of whole units in `v`. Both
are first written as multiples of the smaller power of two. -/
def units (v : Dbl) (u : Int) : Int :=
  (v.m * 2 ^ (v.e - min v.e u).toNat).tdiv (2 ^ (u - min v.e u).toNat)

/-- `v` as a multiple of `2^b`, for `b` at most the exponent of `v`. -/
def multiple (v : Dbl) (b : Int) : Int := v.m * 2 ^ (v.e - b).toNat

/-- `|v| < 2^E`. -/
def Below (v : Dbl) (E : Int) : Prop :=
  v.m = 0 ∨ (v.e ≤ E ∧ (v.m.natAbs : Int) < 2 ^ (E - v.e).toNat)

/-- `E` is the exponent of the largest nonzero value: all values are below `2^E` and some nonzero
value is not below `2^(E-1)`. -/
def IsMaxExponent (a : List Dbl) (E : Int) : Prop :=
  (∀ v ∈ a, Below v E) ∧ ∃ v ∈ a, ¬ Below v (E - 1)

/-- A finite double: 53 significant bits, exponents from the IEEE 754 range. -/
def Finite (v : Dbl) : Prop := v.m.natAbs < 2 ^ 53 ∧ -1074 ≤ v.e ∧ v.e ≤ 971

end OmegaH.Spec
