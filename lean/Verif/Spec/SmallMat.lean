import Verif.Model.SmallMat

/-! # What small matrices are to do -/

namespace OmegaH.Spec
open OmegaH

variable {K : Type} [Field K] {n : Nat}

/-- The entries are one where row and column are the same and zero elsewhere. -/
def IsIdentity (a : Mat K n n) : Prop := ∀ i j, a i j = if i = j then 1 else 0

/-- Each of two matrices undoes the other: both products are the identity. The entry in row `i`
and column `j` of a product is the sum over `k` of row `i` of the first times column `j` of the
second. -/
def Undo (a b : Mat K n n) : Prop :=
  (∀ i j, ∑ k, a k i * b j k = if i = j then 1 else 0) ∧
  ∀ i j, ∑ k, b k i * a j k = if i = j then 1 else 0

/-- A matrix is its own mirror image. -/
def Symmetric (a : Mat K n n) : Prop := ∀ i j, a i j = a j i

/-- The columns have length one and are at right angles to one another. -/
def Orthonormal (a : Mat K n n) : Prop := ∀ i j, ∑ k, a i k * a j k = if i = j then 1 else 0

variable [LinearOrder K]

/-- A point lies in a box. -/
def InBox (x : Vec K n) (b : BBox K n) : Prop := ∀ i, b.min i ≤ x i ∧ x i ≤ b.max i

end OmegaH.Spec
