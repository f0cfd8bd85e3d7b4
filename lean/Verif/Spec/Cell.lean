/-! # Specification: faces of a simplex and of a cube, as sets of vertices -/

namespace OmegaH.Spec

/-- All sublists (subsets) of a list. -/
def subsets {α : Type} : List α → List (List α)
  | [] => [[]]
  | x :: l => subsets l ++ (subsets l).map (x :: ·)

/-- Two lists have the same members. -/
def SameSet (a b : List Int) : Prop := (∀ x ∈ a, x ∈ b) ∧ ∀ x ∈ b, x ∈ a

instance (a b : List Int) : Decidable (SameSet a b) := by unfold SameSet; infer_instance

/-- The faces of dimension `b` of a `d`-simplex: the sets of `b+1` of its `d+1` vertices. -/
def simplexFaces (d b : Nat) : List (List Int) :=
  (subsets ((List.range (d + 1)).map Int.ofNat)).filter (fun s => s.length == b + 1)

/-- Position of vertex `v` of the cube: going around the bottom, then around the top. -/
def cubeVertex : List (List Nat) :=
  [[0, 0, 0], [1, 0, 0], [1, 1, 0], [0, 1, 0], [0, 0, 1], [1, 0, 1], [1, 1, 1], [0, 1, 1]]

/-- All patterns fixing some of `d` coordinates to 0 or 1 and leaving the others free. -/
def patterns : Nat → List (List (Option Nat))
  | 0 => [[]]
  | d + 1 => (patterns d).flatMap (fun p => [none :: p, some 0 :: p, some 1 :: p])

/-- The vertices of the `d`-cube on the given pattern (coordinates beyond the pattern are 0). -/
def onPattern (d : Nat) (p : List (Option Nat)) : List Int :=
  ((List.range (2 ^ d)).filter (fun v =>
    ((cubeVertex.getD v []).zip p).all (fun (c, q) => q == none || q == some c))).map Int.ofNat

/-- The faces of dimension `b` of the `d`-cube. -/
def cubeFaces (d b : Nat) : List (List Int) :=
  ((patterns d).filter (fun p => p.countP (· == none) == b)).map (onPattern d)

/-- Coordinates of vertex `v` of the reference tetrahedron (origin and the three unit points) or of
the unit cube. -/
def refVertex (simplex : Bool) (v : Int) : List Int :=
  if simplex then
    (if v = 0 then [0, 0, 0] else if v = 1 then [1, 0, 0] else if v = 2 then [0, 1, 0] else [0, 0, 1])
  else (cubeVertex.getD v.toNat []).map Int.ofNat

/-- `((b - a) × (c - a)) · (v - a)`: negative when `v` is behind the oriented triangle `a b c`. -/
def tripleProduct : List Int → List Int → List Int → List Int → Int
  | [ax, ay, az], [bx, by', bz], [cx, cy, cz], [vx, vy, vz] =>
    ((by' - ay) * (cz - az) - (bz - az) * (cy - ay)) * (vx - ax) +
    ((bz - az) * (cx - ax) - (bx - ax) * (cz - az)) * (vy - ay) +
    ((bx - ax) * (cy - ay) - (by' - ay) * (cx - ax)) * (vz - az)
  | _, _, _, _ => 0

end OmegaH.Spec
