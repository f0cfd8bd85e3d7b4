/-! # Specification: symmetries of a polygon given by the list of its vertices -/

namespace OmegaH.Spec

/-- One step of rotation, `0 1 2 → 2 0 1`: the last vertex comes first. -/
def rotateOnce {α : Type} (l : List α) : List α :=
  match l.getLast? with
  | some x => x :: l.dropLast
  | none => []

/-- Rotation by `r` steps. -/
def rotate {α : Type} : Nat → List α → List α
  | 0, l => l
  | r + 1, l => rotateOnce (rotate r l)

/-- Reversal of orientation keeping the first vertex, `0 1 2 3 → 0 3 2 1`. -/
def flip {α : Type} : List α → List α
  | [] => []
  | x :: l => x :: l.reverse

/-- First rotate, then flip. -/
def align {α : Type} (flipped : Bool) (rotation : Nat) (l : List α) : List α :=
  if flipped then flip (rotate rotation l) else rotate rotation l

/-- Row `i` of an array with rows of length `w`. -/
def row {α : Type} (data : List α) (w i : Nat) : List α := (data.drop (i * w)).take w

end OmegaH.Spec
