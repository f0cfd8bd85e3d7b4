/-!
# Specification vocabulary for the Hilbert ordering
-/
namespace OmegaH.Spec

/-- A cell of the grid with `2^b` cells along each of `n` axes. -/
def Cell (n b : Nat) (X : List Nat) : Prop := X.length = n ∧ ∀ x ∈ X, x < 2 ^ b

/-- The number with the given base-`2^b` digits, most significant first. -/
def keyValue (b : Nat) (ds : List Nat) : Nat := ds.foldl (fun acc d => acc * 2 ^ b + d) 0

/-- Strict lexicographic order, first entry most significant. -/
def lexLt : List Nat → List Nat → Prop
  | [], [] => False
  | [], _ :: _ => True
  | _ :: _, [] => False
  | x :: xs, y :: ys => x < y ∨ (x = y ∧ lexLt xs ys)

/-- Two cells that share a side: they differ by one in exactly one coordinate. -/
def Adjacent (X Y : List Nat) : Prop :=
  ∃ i x y, X[i]? = some x ∧ Y[i]? = some y ∧ (x + 1 = y ∨ y + 1 = x) ∧ Y = X.set i y

end OmegaH.Spec
