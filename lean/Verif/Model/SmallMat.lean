import Mathlib.Algebra.BigOperators.Fin
import Mathlib.Algebra.Field.Basic
import Mathlib.Data.Fin.VecNotation
import Mathlib.Order.Defs.LinearOrder

/-! # Small vectors and matrices

`Vector<n>` and `Matrix<m, n>` of src/Omega_h_vector.hpp and src/Omega_h_matrix.hpp, the affine
maps of src/Omega_h_affine.hpp and the boxes of src/Omega_h_bbox.hpp.

Simplification: real numbers are the elements of a field `K` (a linearly ordered one where signs
matter), so arithmetic is exact; division by zero gives infinities or not-a-number in the code
and is outside what the theorems speak about. Cosine and sine enter as two given numbers. -/

namespace OmegaH

/-- `Vector<n>`, src/Omega_h_vector.hpp:40-54 -/
abbrev Vec (K : Type) (n : Nat) := Fin n → K

/-- `Matrix<m, n>`: `n` columns of `m` numbers; `a j i` is `a[j][i]`, which the code also writes
`a(i, j)`. src/Omega_h_matrix.hpp:40-63 -/
abbrev Mat (K : Type) (m n : Nat) := Fin n → Vec K m

section
variable {K : Type} [Field K] {m n k p : Nat}

/-- `operator+`, src/Omega_h_vector.hpp:66-71 -/
def vadd (a b : Vec K n) : Vec K n := fun i => a i + b i

/-- `operator-`, src/Omega_h_vector.hpp:80-85 -/
def vsub (a b : Vec K n) : Vec K n := fun i => a i - b i

/-- unary `operator-`, src/Omega_h_vector.hpp:94-99 -/
def vneg (a : Vec K n) : Vec K n := fun i => -a i

/-- `operator*` with a number, src/Omega_h_vector.hpp:101-106 -/
def vscale (a : Vec K n) (b : K) : Vec K n := fun i => a i * b

/-- `operator/` by a number, src/Omega_h_vector.hpp:119-124 -/
def vdiv (a : Vec K n) (b : K) : Vec K n := fun i => a i / b

/-- `operator*` of two vectors, by `inner_product` of src/Omega_h_few.hpp:137-143: starts with
the product of the first components and adds the others. src/Omega_h_vector.hpp:132-135 -/
def vdot (a b : Vec K (k + 1)) : K :=
  Fin.foldl k (fun out i => out + a i.succ * b i.succ) (a 0 * b 0)

/-- Matrix times vector: starts with the first column and adds the others one by one. (A matrix
without columns would be read out of range; there is none, hence the `k + 1`.)
src/Omega_h_matrix.hpp:88-94 -/
def mulVec (a : Mat K m (k + 1)) (b : Vec K (k + 1)) : Vec K m :=
  Fin.foldl k (fun c j => vadd c (vscale (a j.succ) (b j.succ))) (vscale (a 0) (b 0))

/-- Matrix times matrix, column by column. src/Omega_h_matrix.hpp:96-101 -/
def matMul (a : Mat K m (k + 1)) (b : Mat K (k + 1) n) : Mat K m n := fun j => mulVec a (b j)

/-- `transpose`, src/Omega_h_matrix.hpp:103-109 -/
def transp (a : Mat K m n) : Mat K n m := fun i j => a j i

/-- `identity_matrix`, src/Omega_h_matrix.hpp:111-122 -/
def identMat : Mat K m n := fun j i => if i.val = j.val then 1 else 0

/-- `matrix_2x2`: the numbers are given row by row. src/Omega_h_matrix.hpp:137-142 -/
def mat2 (a b c d : K) : Mat K 2 2 := ![![a, c], ![b, d]]

/-- `matrix_3x3`, src/Omega_h_matrix.hpp:148-155 -/
def mat3 (a b c d e f g h i : K) : Mat K 3 3 := ![![a, d, g], ![b, e, h], ![c, f, i]]

/-- Matrix times number, src/Omega_h_matrix.hpp:162-167 -/
def mscale (a : Mat K m n) (b : K) : Mat K m n := fun j => vscale (a j) b

/-- Matrix by number, src/Omega_h_matrix.hpp:180-185 -/
def mdiv (a : Mat K m n) (b : K) : Mat K m n := fun j => vdiv (a j) b

/-- `operator+`, src/Omega_h_matrix.hpp:193-198 -/
def madd (a b : Mat K m n) : Mat K m n := fun j => vadd (a j) (b j)

/-- `operator-`, src/Omega_h_matrix.hpp:206-211 -/
def msub (a b : Mat K m n) : Mat K m n := fun j => vsub (a j) (b j)

/-- `outer_product`, src/Omega_h_matrix.hpp:242-248 -/
def outerMat (a : Vec K m) (b : Vec K n) : Mat K m n := fun j i => a i * b j

/-- `trace`, src/Omega_h_matrix.hpp:250-255 -/
def traceMat (a : Mat K (k + 1) (k + 1)) : K :=
  Fin.foldl k (fun t i => t + a i.succ i.succ) (a 0 0)

/-- `determinant` of a 1x1 matrix, src/Omega_h_matrix.hpp:271 -/
def det1 (m : Mat K 1 1) : K := m 0 0

/-- `determinant` of a 2x2 matrix, src/Omega_h_matrix.hpp:273-279 -/
def det2 (m : Mat K 2 2) : K :=
  let a := m 0 0
  let b := m 1 0
  let c := m 0 1
  let d := m 1 1
  a * d - b * c

/-- `determinant` of a 3x3 matrix, src/Omega_h_matrix.hpp:281-293 -/
def det3 (m : Mat K 3 3) : K :=
  let a := m 0 0
  let b := m 1 0
  let c := m 2 0
  let d := m 0 1
  let e := m 1 1
  let f := m 2 1
  let g := m 0 2
  let h := m 1 2
  let i := m 2 2
  (a * e * i) + (b * f * g) + (c * d * h) - (c * e * g) - (b * d * i) - (a * f * h)

/-- `cross` in the plane, src/Omega_h_vector.hpp:219-221 -/
def cross2 (a b : Vec K 2) : K := a 0 * b 1 - a 1 * b 0

/-- `cross` in space, src/Omega_h_vector.hpp:223-227 -/
def cross3 (a b : Vec K 3) : Vec K 3 :=
  ![a 1 * b 2 - a 2 * b 1, a 2 * b 0 - a 0 * b 2, a 0 * b 1 - a 1 * b 0]

/-- `perp`, src/Omega_h_vector.hpp:229-231 -/
def perp2 (v : Vec K 2) : Vec K 2 := ![-v 1, v 0]

/-- `cross` of one vector: the matrix of "cross product with it".
src/Omega_h_matrix.hpp:323-325 -/
def crossMat (a : Vec K 3) : Mat K 3 3 :=
  mat3 0 (-a 2) (a 1) (a 2) 0 (-a 0) (-a 1) (a 0) 0

/-- `uncross`, src/Omega_h_matrix.hpp:327-330 -/
def uncrossMat (c : Mat K 3 3) : Vec K 3 :=
  vscale ![c 1 2 - c 2 1, c 2 0 - c 0 2, c 0 1 - c 1 0] (1 / 2)

/-- `invert` of a 1x1 matrix, src/Omega_h_matrix.hpp:332-334 -/
def invert1 (m : Mat K 1 1) : Mat K 1 1 := ![![1 / m 0 0]]

/-- `invert` of a 2x2 matrix, src/Omega_h_matrix.hpp:336-342 -/
def invert2 (m : Mat K 2 2) : Mat K 2 2 :=
  let a := m 0 0
  let b := m 1 0
  let c := m 0 1
  let d := m 1 1
  mdiv (mat2 d (-b) (-c) a) (det2 m)

/-- `invert` of a 3x3 matrix, src/Omega_h_matrix.hpp:344-350 -/
def invert3 (a : Mat K 3 3) : Mat K 3 3 :=
  let b : Mat K 3 3 := ![cross3 (a 1) (a 2), cross3 (a 2) (a 0), cross3 (a 0) (a 1)]
  mdiv (transp b) (det3 a)

/-- `pseudo_invert` of a matrix with more rows than columns; `inv` is the `invert` of its number
of columns. src/Omega_h_matrix.hpp:358-363 -/
def pinvTall (inv : Mat K (k + 1) (k + 1) → Mat K (k + 1) (k + 1)) (a : Mat K (p + 1) (k + 1)) :
    Mat K (k + 1) (p + 1) :=
  let at' := transp a
  matMul (inv (matMul at' a)) at'

/-- `pseudo_invert` of a matrix with more columns than rows.
src/Omega_h_matrix.hpp:365-370 -/
def pinvWide (inv : Mat K (p + 1) (p + 1) → Mat K (p + 1) (p + 1)) (a : Mat K (p + 1) (k + 1)) :
    Mat K (k + 1) (p + 1) :=
  let at' := transp a
  matMul at' (inv (matMul a at'))

/-- `diagonal` of a vector, src/Omega_h_matrix.hpp:372-379 -/
def diagMat (v : Vec K n) : Mat K n n := fun i j => if i = j then v i else 0

/-- `symm2vector` of a 2x2 matrix, src/Omega_h_matrix.hpp:391-397 -/
def symm2vec2 (s : Mat K 2 2) : Vec K 3 := ![s 0 0, s 1 1, s 1 0]

/-- `vector2symm` for 2x2, src/Omega_h_matrix.hpp:399-406 -/
def vec2symm2 (v : Vec K 3) : Mat K 2 2 := ![![v 0, v 2], ![v 2, v 1]]

/-- `symm2vector` of a 3x3 matrix, src/Omega_h_matrix.hpp:408-417 -/
def symm2vec3 (s : Mat K 3 3) : Vec K 6 := ![s 0 0, s 1 1, s 2 2, s 1 0, s 2 1, s 2 0]

/-- `vector2symm` for 3x3, src/Omega_h_matrix.hpp:419-431 -/
def vec2symm3 (v : Vec K 6) : Mat K 3 3 :=
  ![![v 0, v 3, v 5], ![v 3, v 1, v 4], ![v 5, v 4, v 2]]

/-- `vector2symm_inria` for 2x2, src/Omega_h_matrix.hpp:439-446 -/
def vec2inria2 (v : Vec K 3) : Mat K 2 2 := ![![v 0, v 1], ![v 1, v 2]]

/-- `vector2symm_inria` for 3x3, src/Omega_h_matrix.hpp:448-460 -/
def vec2inria3 (v : Vec K 6) : Mat K 3 3 :=
  ![![v 0, v 1, v 3], ![v 1, v 2, v 4], ![v 3, v 4, v 5]]

/-- `symm2vector_inria` of a 2x2 matrix, src/Omega_h_matrix.hpp:466-472 -/
def inria2vec2 (s : Mat K 2 2) : Vec K 3 := ![s 0 0, s 0 1, s 1 1]

/-- `symm2vector_inria` of a 3x3 matrix, src/Omega_h_matrix.hpp:474-483 -/
def inria2vec3 (s : Mat K 3 3) : Vec K 6 := ![s 0 0, s 0 1, s 1 1, s 0 2, s 1 2, s 2 2]

/-- `rotate` about an axis, with the cosine and sine of the angle given.
src/Omega_h_matrix.hpp:531-535 -/
def rotate3 (cos sin : K) (axis : Vec K 3) : Mat K 3 3 :=
  madd (madd (mscale identMat cos) (mscale (crossMat axis) sin))
    (mscale (outerMat axis axis) (1 - cos))

/-- `rotate` in the plane, src/Omega_h_matrix.hpp:537-540 -/
def rotate2 (cos sin : K) : Mat K 2 2 := mat2 cos (-sin) sin cos

/-- The two numbers `rotation_angle` hands to `atan2`: sine and cosine of the angle.
src/Omega_h_matrix.hpp:542-546 -/
def angleSinCos2 (r : Mat K 2 2) : K × K :=
  ((1 / 2) * (r 0 1 - r 1 0), (1 / 2) * traceMat r)

/-- The number `rotation_angle` in space hands to `acos`. src/Omega_h_matrix.hpp:548-551 -/
def angleCos3 (r : Mat K 3 3) : K := (1 / 2) * (traceMat r - 1)

/-- `form_ortho_basis` in the plane, src/Omega_h_matrix.hpp:557-562 -/
def orthoBasis2 (v : Vec K 2) : Mat K 2 2 := ![v, perp2 v]

/-- `deviator`, src/Omega_h_matrix.hpp:578-581 -/
def deviatorMat (a : Mat K (k + 1) (k + 1)) : Mat K (k + 1) (k + 1) :=
  msub a (mscale identMat ((1 / ((k + 1 : Nat) : K)) * traceMat a))

/-- `resize` of a square matrix: the common corner is kept, the rest is zero.
src/Omega_h_matrix.hpp:583-592 -/
def resizeMat (newDim : Nat) (a : Mat K n n) : Mat K newDim newDim := fun j i =>
  if h : i.val < n ∧ j.val < n then a ⟨j.val, h.2⟩ ⟨i.val, h.1⟩ else 0

/-- `Affine<dim>`, src/Omega_h_affine.hpp:8-12 -/
structure Affine (K : Type) (n : Nat) where
  r : Mat K n n
  t : Vec K n

/-- An affine map applied to a vector, src/Omega_h_affine.hpp:14-17 -/
def Affine.app (a : Affine K (k + 1)) (v : Vec K (k + 1)) : Vec K (k + 1) :=
  vadd (mulVec a.r v) a.t

/-- `invert` of an affine map; `inv` is the `invert` of its number of dimensions.
src/Omega_h_affine.hpp:19-25 -/
def Affine.invert (inv : Mat K (k + 1) (k + 1) → Mat K (k + 1) (k + 1)) (a : Affine K (k + 1)) :
    Affine K (k + 1) :=
  let r := inv a.r
  ⟨r, vneg (mulVec r a.t)⟩
end

section
variable {K : Type} [Field K] [LinearOrder K] {n k : Nat}

/-- `std::copysign(1.0, x)`: minus one if the sign bit of `x` is set. A zero may have its sign
bit set or not: `negZero` says which, and is arbitrary. src/Omega_h_matrix.hpp:570 -/
def copysignOne (negZero : Bool) (x : K) : K :=
  if x < 0 ∨ (x = 0 ∧ negZero = true) then -1 else 1

/-- `form_ortho_basis` in space, src/Omega_h_matrix.hpp:567-576 -/
def orthoBasis3 (negZero : Bool) (v : Vec K 3) : Mat K 3 3 :=
  let sign := copysignOne negZero (v 2)
  let a := -1 / (sign + v 2)
  let b := v 0 * v 1 * a
  ![v,
    ![1 + sign * v 0 * v 0 * a, sign * b, -sign * v 0],
    ![b, sign + v 1 * v 1 * a, -v 1]]

/-- The bits of `positivize`: bit `i` is set if component `i` is not negative.
src/Omega_h_vector.hpp:212-213 -/
def signBits (v : Vec K n) : Nat :=
  Fin.foldl n (fun bits i => bits ||| ((if 0 ≤ v i then 1 else 0) <<< i.val)) 0

/-- `positivize`. `(~bits) & mask`, with `mask` having all the bits of the vector and `bits` no
others, is `mask - bits`; the type has 32 bits and vectors at most nine components, so nothing is
cut off. src/Omega_h_vector.hpp:210-217 -/
def positivize (v : Vec K n) : Vec K n :=
  let bits := signBits v
  let negBits := (2 ^ n - 1) - bits
  if bits < negBits then vscale v (-1) else v

/-- `BBox<dim>`, src/Omega_h_bbox.hpp:33-45 -/
structure BBox (K : Type) (n : Nat) where
  min : Vec K n
  max : Vec K n

/-- `unite`, with `min2` and `max2` of src/Omega_h_scalar.hpp:107-114.
src/Omega_h_bbox.hpp:49-57 -/
def unite (a b : BBox K n) : BBox K n :=
  ⟨fun i => if b.min i < a.min i then b.min i else a.min i,
   fun i => if a.max i < b.max i then b.max i else a.max i⟩

/-- `find_bounding_box`: every point is a box of its own, and the boxes are united onto one that
has the largest number `big` as lower and `small` as upper limits. Simplification: one after the
other; `unite` being a least upper bound, the order does not matter.
src/Omega_h_bbox.cpp:26-35 -/
def findBBox (big small : K) (pts : List (Vec K n)) : BBox K n :=
  pts.foldl (fun b x => unite b ⟨x, x⟩) ⟨fun _ => big, fun _ => small⟩

/-- `make_equilateral`, src/Omega_h_bbox.hpp:65-69. `reduce` starts with the first component. -/
def makeEquilateral (b : BBox K (k + 1)) : BBox K (k + 1) :=
  let d := vsub b.max b.min
  let maxl := Fin.foldl k (fun acc i => if acc < d i.succ then d i.succ else acc) (d 0)
  ⟨b.min, fun i => b.min i + maxl⟩

/-- `get_affine_from_bbox_into_unit`, src/Omega_h_bbox.hpp:71-79 -/
def bboxIntoUnit (b : BBox K (k + 1)) : Affine K (k + 1) :=
  let r := diagMat fun i => 1 / (b.max i - b.min i)
  ⟨r, vneg (mulVec r b.min)⟩
end
end OmegaH
