/-!
# Hilbert curve ordering (src/Omega_h_hilbert.hpp, src/Omega_h_hilbert.cpp)

`coord_t` is `std::uint64_t`: words are natural numbers, every left shift that could leave 64 bits is
reduced modulo `2^64`. An array access outside the `n` coordinates, or a shift by a negative amount or
by 64 or more (undefined behaviour), gives `none`.
-/
namespace OmegaH

/-- The values of `Q` in `for (Q = q; Q != N; Q <<= 1)`; `none` when `fuel` runs out.
src/Omega_h_hilbert.hpp:52. -/
def qsUp (N : Nat) : Nat → Nat → Option (List Nat)
  | 0, _ => none
  | fuel + 1, q => if q = N then some [] else (qsUp N fuel (q * 2 % 2 ^ 64)).map (q :: ·)

/-- The values of `Q` in `for (Q = q; Q > 1; Q >>= 1)`. src/Omega_h_hilbert.hpp:72,87. -/
def qsDown : Nat → Nat → Option (List Nat)
  | 0, _ => none
  | fuel + 1, q => if 1 < q then (qsDown fuel (q / 2)).map (q :: ·) else some []

/-- `coord_t(v) << k`: a shift by a negative amount or by the word size is undefined. -/
def shl64 (v : Nat) (k : Int) : Option Nat :=
  if 0 ≤ k ∧ k < 64 then some (v * 2 ^ k.toNat % 2 ^ 64) else none

/-- The body shared by both "undo excess work" loops. src/Omega_h_hilbert.hpp:55-61, 75-81. -/
def hilbertStep (X : List Nat) (qi : Nat × Nat) : Option (List Nat) :=
  let Q := qi.1
  let i := qi.2
  let P := Q - 1
  X[0]?.bind fun x0 => X[i]?.bind fun xi =>
    if xi &&& Q ≠ 0 then some (X.set 0 (x0 ^^^ P))
    else
      let t := (x0 ^^^ xi) &&& P
      let X' := X.set 0 (x0 ^^^ t)
      X'[i]?.bind fun y => some (X'.set i (y ^^^ t))

/-- `X[i] ^= X[i - 1]`. src/Omega_h_hilbert.hpp:49, 85. -/
def xorPrev (X : List Nat) (i : Nat) : Option (List Nat) :=
  if i = 0 then none
  else X[i]?.bind fun x => X[i - 1]?.bind fun y => some (X.set i (x ^^^ y))

/-- `TransposetoAxes`. src/Omega_h_hilbert.hpp:39-64. `X` has `n` entries. -/
def transposeToAxes (X : List Nat) (b : Int) : Option (List Nat) := do
  let n := X.length
  let N ← shl64 2 (b - 1)
  let xl ← if 0 < n then X[n - 1]? else none
  let t := xl / 2
  let X ← (List.range' 1 (n - 1)).reverse.foldlM xorPrev X
  let x0 ← X[0]?
  let X := X.set 0 (x0 ^^^ t)
  let qs ← qsUp N 65 2
  (qs.flatMap (fun q => (List.range n).reverse.map (fun i => (q, i)))).foldlM hilbertStep X

/-- The Gray correction `t`. src/Omega_h_hilbert.hpp:86-89. -/
def grayT (z : Nat) (qs : List Nat) : Nat :=
  qs.foldl (fun t q => if z &&& q ≠ 0 then t ^^^ (q - 1) else t) 0

/-- `AxestoTranspose`. src/Omega_h_hilbert.hpp:66-91. -/
def axesToTranspose (X : List Nat) (b : Int) : Option (List Nat) := do
  let n := X.length
  let M ← shl64 1 (b - 1)
  let qs ← qsDown 65 M
  let X ← (qs.flatMap (fun q => (List.range n).map (fun i => (q, i)))).foldlM hilbertStep X
  let X ← (List.range' 1 (n - 1)).foldlM xorPrev X
  let z ← if 0 < n then X[n - 1]? else none
  let t := grayT z qs
  pure (X.map (fun x => x ^^^ t))

/-- One iteration of `untranspose`. src/Omega_h_hilbert.hpp:104-106. -/
def untransposeStep (X : List Nat) (b n : Nat) (out : List Nat) (i : Nat) : Option (List Nat) :=
  X[i % n]?.bind fun x => out[i / b]?.bind fun o =>
    some (out.set (i / b) (o ||| (((x >>> (b - 1 - i / n)) &&& 1) * 2 ^ (b - 1 - i % b))))

/-- `untranspose`. src/Omega_h_hilbert.hpp:101-107. -/
def untranspose (X : List Nat) (b : Nat) : Option (List Nat) :=
  (List.range (b * X.length)).foldlM (untransposeStep X b X.length) (List.replicate X.length 0)

/-- The integer part of `from_spatial`: src/Omega_h_hilbert.hpp:133-150. The input is the coordinates
after scaling and conversion to `coord_t`; the floating-point scaling is not modelled. -/
def hilbertFromGrid (X : List Nat) (nbits : Nat) : Option (List Nat) := do
  let top ← shl64 1 nbits
  let X := X.map (fun x => if x ≥ top then top - 1 else x)
  let X ← axesToTranspose X nbits
  untranspose X nbits

end OmegaH
