/-!
# Triangulations of a polygon with vertices `0 … n-1` in order
-/
namespace OmegaH.Spec

/-- The directed edges of a triangle. -/
def triEdges : List Nat → List (Nat × Nat)
  | [a, b, c] => [(a, b), (b, c), (c, a)]
  | _ => []

/-- How many triangles run along `a → b`. -/
def uses (T : List (List Nat)) (a b : Nat) : Nat := (T.flatMap triEdges).count (a, b)

/-- `n-2` triangles which run once forward and never backward along each side of the polygon, and
along any other pair either not at all, or once in each direction. -/
def IsTriangulation (n : Nat) (T : List (List Nat)) : Prop :=
  T.length = n - 2 ∧ (∀ t ∈ T, t.length = 3 ∧ t.Nodup ∧ ∀ v ∈ t, v < n) ∧
  ∀ a, a < n → ∀ b, b < n →
    if b = (a + 1) % n then uses T a b = 1 ∧ uses T b a = 0
    else if a = (b + 1) % n then True
    else uses T a b = uses T b a ∧ uses T a b ≤ 1

/-- A diagonal `(a, b)`, `a < b`: two vertices that are not neighbours. -/
def IsDiagonal (n : Nat) (e : Nat × Nat) : Prop :=
  e.1 + 1 < e.2 ∧ e.2 < n ∧ ¬ (e.1 = 0 ∧ e.2 + 1 = n)

/-- Two diagonals that cross inside the polygon. -/
def Cross (d e : Nat × Nat) : Prop :=
  (d.1 < e.1 ∧ e.1 < d.2 ∧ d.2 < e.2) ∨ (e.1 < d.1 ∧ d.1 < e.2 ∧ e.2 < d.2)

instance (n : Nat) (T : List (List Nat)) : Decidable (IsTriangulation n T) := by
  unfold IsTriangulation; infer_instance
instance (n : Nat) (e : Nat × Nat) : Decidable (IsDiagonal n e) := by unfold IsDiagonal; infer_instance
instance (d e : Nat × Nat) : Decidable (Cross d e) := by unfold Cross; infer_instance

end OmegaH.Spec
