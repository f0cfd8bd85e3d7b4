import Verif.Model.ArrayOps

/-! # 128-bit integers and the reproducible sum
src/Omega_h_int128.hpp, src/Omega_h_int128.cpp, src/Omega_h_array_ops.cpp:496-565

Signed 64-bit overflow is undefined behaviour (`none`). Finite doubles are modelled exactly as
dyadic numbers `m * 2^e`; infinities and NaN are not modelled. -/

namespace OmegaH

/-- `struct Int128`: src/Omega_h_int128.hpp:12-27. Invariant: `high` fits 64 signed bits, `low` 64
unsigned bits (`I128.Valid` in the specification). -/
structure I128 where
  high : Int
  low : Nat
deriving DecidableEq, Repr

/-- A signed 64-bit result: undefined on overflow. -/
def i64? (x : Int) : Option Int := if -2 ^ 63 ≤ x ∧ x < 2 ^ 63 then some x else none

/-- `Int128(int64_t)`: src/Omega_h_int128.hpp:38-39. The conversion to `uint64_t` is modulo 2^64. -/
def I128.ofInt64 (v : Int) : I128 := ⟨if v < 0 then -1 else 0, (v % 2 ^ 64).toNat⟩

/-- `operator+`: src/Omega_h_int128.hpp:52-59. -/
def I128.add (a b : I128) : Option I128 :=
  (i64? (a.high + b.high)).bind (fun h =>
    let low := (a.low + b.low) % 2 ^ 64
    (i64? (h + if low < a.low then 1 else 0)).map (fun h' => ⟨h', low⟩))

/-- `operator-` (binary): src/Omega_h_int128.hpp:61-68. -/
def I128.sub (a b : I128) : Option I128 :=
  (i64? (a.high - b.high)).bind (fun h =>
    let low := (a.low + (2 ^ 64 - b.low)) % 2 ^ 64
    (i64? (h - if low > a.low then 1 else 0)).map (fun h' => ⟨h', low⟩))

/-- `operator-` (unary): src/Omega_h_int128.hpp:70. -/
def I128.neg (a : I128) : Option I128 := I128.sub (I128.ofInt64 0) a

/-- `operator>>`: src/Omega_h_int128.hpp:72-77. Shifting a 64-bit word by 64 or more, as happens for
`expo = 0` in `<< (64 - expo)`, is undefined. Right shift of a negative number is arithmetic on all
supported compilers. -/
def I128.shr (x : I128) (expo : Nat) : Option I128 :=
  if 1 ≤ expo ∧ expo < 64 then
    let hi := (x.high % 2 ^ 64).toNat
    some ⟨x.high / 2 ^ expo, (x.low / 2 ^ expo) ||| (hi * 2 ^ (64 - expo) % 2 ^ 64)⟩
  else none

/-- `operator==`: src/Omega_h_int128.hpp:79-81. -/
def I128.beq (a b : I128) : Bool := decide (a.high = b.high) && decide (a.low = b.low)

/-- `operator<`: src/Omega_h_int128.hpp:83-86. -/
def I128.lt (a b : I128) : Bool :=
  if a.high ≠ b.high then decide (a.high < b.high) else decide (a.low < b.low)

/-- A finite double `m * 2^e`. -/
structure Dbl where
  m : Int
  e : Int
deriving DecidableEq, Repr

/-- Conversion of a `uint64_t` to `double`: round to the nearest 53-bit number, ties to even. -/
def roundTo53 (n : Nat) : Nat :=
  if n < 2 ^ 53 then n
  else
    let k := n.log2 - 52
    let q := n / 2 ^ k
    let r := n % 2 ^ k
    if 2 ^ k < 2 * r ∨ (2 * r = 2 ^ k ∧ q % 2 = 1) then (q + 1) * 2 ^ k else q * 2 ^ k

/-- The loop of `to_double`: src/Omega_h_int128.cpp:8-11; returns the final word and the exponent of
the final unit. 64 units of fuel always suffice (see C13). -/
def toDoubleLoop : Nat → I128 → Int → Option (Nat × Int)
  | 0, _, _ => none
  | fuel + 1, x, u =>
    if x.high = 0 then some (x.low, u)
    else (x.shr 1).bind (fun x' => toDoubleLoop fuel x' (u + 1))

/-- `Int128::to_double(unit)` for `unit = 2^u`: src/Omega_h_int128.cpp:5-16. The multiplications by
powers of two are exact (no overflow to infinity is modelled). -/
def I128.toDouble (x : I128) (u : Int) : Option Dbl := do
  let tmp ← if x.lt (I128.ofInt64 0) then x.neg else some x
  let (w, u') ← toDoubleLoop 65 tmp u
  pure ⟨if x.lt (I128.ofInt64 0) then -(roundTo53 w : Int) else roundTo53 w, u'⟩

/-- `Int128::from_double(value, unit)`, `unit = 2^u`: src/Omega_h_int128.hpp:41-44. Dividing by a
power of two only changes the exponent; the conversion to `int64_t` truncates towards zero and is
undefined when the result does not fit. A unit below the smallest double is zero, and the division
gives an infinity whose conversion is undefined. -/
def fromDouble (v : Dbl) (u : Int) : Option I128 :=
  if u < -1074 then none
  else
    let t : Int := if u ≤ v.e then v.m * 2 ^ (v.e - u).toNat else v.m.tdiv (2 ^ (u - v.e).toNat)
    (i64? t).map I128.ofInt64

/-- The exponent computed by `std::frexp`: the number is in `[2^(expo-1), 2^expo)`. -/
def frexpExpo (v : Dbl) : Int := (v.m.natAbs.log2 : Int) + 1 + v.e

/-- `ArithTraits<int>::min()`: src/Omega_h_scalar.hpp:57-60. -/
def intMin : Int := -2 ^ 31

/-- `max_exponent`: src/Omega_h_array_ops.cpp:496-512. -/
def maxExponent (t : Team) (a : List Dbl) : Option Int :=
  if a.length = 0 then some intMin
  else transformReduce t (fun x y => if x < y then y else x) intMin intMin
    (fun i => (a[i]?).map (fun v => if v.m = 0 then intMin else frexpExpo v)) a.length

/-- `Int128Plus` on possibly undefined operands: src/Omega_h_array_ops.cpp:514-516. -/
def addLift (a b : Option I128) : Option I128 := a.bind (fun x => b.bind (fun y => x.add y))

/-- `int128_sum`: src/Omega_h_array_ops.cpp:518-530. The generic OpenMP reduction starts the private
copies at `init`. -/
def int128Sum (t : Team) (a : List Dbl) (u : Int) : Option I128 :=
  if a.length = 0 then some (I128.ofInt64 0)
  else (transformReduce t addLift (some (I128.ofInt64 0)) (some (I128.ofInt64 0))
    (fun i => (a[i]?).map (fun v => fromDouble v u)) a.length).join

/-- `MANTISSA_BITS`: src/Omega_h_defines.hpp:86. -/
def mantissaBits : Int := 52

/-- `repro_sum(Reals)`: src/Omega_h_array_ops.cpp:532-545. -/
def reproSum (t : Team) (a : List Dbl) : Option Dbl :=
  if a.length = 0 then some ⟨0, 0⟩
  else (maxExponent t a).bind (fun expo =>
    if expo = intMin then some ⟨0, 0⟩
    else (int128Sum t a (expo - mantissaBits)).bind (fun x => x.toDouble (expo - mantissaBits)))

/-- `repro_sum(comm, Reals)`: src/Omega_h_array_ops.cpp:547-559 with `Comm::allreduce` and
`Comm::add_int128` (src/Omega_h_comm.cpp:202-210, 224-241). One array and one team per rank; the
result is the one every rank obtains. -/
def reproSumComm (rt rt' : RankTree) (parts : List (Team × List Dbl)) : Option Dbl := do
  let expos ← parts.mapM (fun p => maxExponent p.1 p.2)
  let expo ← allreduce rt (fun x y => if x < y then y else x) expos
  if expo = intMin then pure ⟨0, 0⟩
  else
    let sums ← parts.mapM (fun p => int128Sum p.1 p.2 (expo - mantissaBits))
    let sum ← (← allreduce rt' addLift (sums.map some))
    sum.toDouble (expo - mantissaBits)

end OmegaH
