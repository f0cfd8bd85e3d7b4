import Verif.Spec.Chain
import Verif.Spec.Cell
/-!
# Splitting cells into simplices

A quadrilateral is given by its vertices counterclockwise; a hexahedron by the vertices of its bottom,
counterclockwise seen from above, and then those of its top above them.
-/
namespace OmegaH.Spec

/-- The oriented boundary of the collection `A` is the collection `B`. -/
def BoundaryIs (A B : List (List Nat)) : Prop :=
  ∀ φ, Alternating φ → (A.map (boundary φ)).sum = (B.map φ).sum

/-- The quadrilateral `a b c d` cut in two along the diagonal through its smallest vertex. -/
def cutQuad : List Nat → List (List Nat)
  | [a, b, c, d] => if min a c < min b d then [[a, b, c], [a, c, d]] else [[b, c, d], [b, d, a]]
  | _ => []

/-- The sides of a hexahedron, counterclockwise seen from outside. -/
def hexSides : List (List Nat) :=
  [[0, 3, 2, 1], [0, 1, 5, 4], [1, 2, 6, 5], [2, 3, 7, 6], [3, 0, 4, 7], [4, 5, 6, 7]]

/-- The vertices at the given corners. -/
def atCorners (v : List Nat) (f : List Nat) : List Nat := f.filterMap (fun i => v[i]?)

/-- Six times the volume of a tetrahedron, positive if the fourth vertex is in front of the first three. -/
def tetVolume (pos : Nat → List Int) : List Nat → Int
  | [a, b, c, d] => tripleProduct (pos a) (pos b) (pos c) (pos d)
  | _ => 0

/-- Twice the area of a triangle in the plane, positive if counterclockwise. -/
def triArea (pos : Nat → Int × Int) : List Nat → Int
  | [a, b, c] => ((pos b).1 - (pos a).1) * ((pos c).2 - (pos a).2) - ((pos b).2 - (pos a).2) * ((pos c).1 - (pos a).1)
  | _ => 0

/-- The triangles `T` are a subdivision of the quadrilateral `v`, cut at the smallest vertex: they are properly
oriented and fill it when it is a unit square, and their oriented rim are its sides. -/
def SplitsQuad (v : List Nat) (T : List (List Nat)) : Prop :=
  (∀ pos : Nat → Int × Int, v.map pos = [(0, 0), (1, 0), (1, 1), (0, 1)] →
    (∀ t ∈ T, 0 < triArea pos t) ∧ (T.map (triArea pos)).sum = 2) ∧
  SameChain T (cutQuad v) ∧ BoundaryIs T ((cycleEdges v).map (fun e => [e.1, e.2]))

/-- The tetrahedra `T` are a subdivision of the hexahedron `v`, with its sides cut at their smallest vertices:
they are properly oriented and fill it when it is a unit cube, and their oriented surface consists of the sides,
cut in two. -/
def SplitsHex (v : List Nat) (T : List (List Nat)) : Prop :=
  (∀ pos : Nat → List Int, v.map pos = cubeVertex.map (List.map Int.ofNat) →
    (∀ t ∈ T, 0 < tetVolume pos t) ∧ (T.map (tetVolume pos)).sum = 6) ∧
  BoundaryIs T (hexSides.flatMap (fun f => cutQuad (atCorners v f)))

/-- The three sides away from a corner, from the far corner on; first the one that `tets_from_hexes` calls the
right side. -/
def farSides : List (List (List Nat)) :=
  [[[6, 5, 1, 2], [6, 2, 3, 7], [6, 7, 4, 5]],
   [[7, 6, 2, 3], [7, 3, 0, 4], [7, 4, 5, 6]],
   [[4, 7, 3, 0], [4, 0, 1, 5], [4, 5, 6, 7]],
   [[5, 4, 0, 1], [5, 1, 2, 6], [5, 6, 7, 4]],
   [[2, 3, 7, 6], [2, 6, 5, 1], [2, 1, 0, 3]],
   [[3, 0, 4, 7], [3, 7, 6, 2], [3, 2, 1, 0]],
   [[0, 1, 5, 4], [0, 4, 7, 3], [0, 3, 2, 1]],
   [[1, 2, 6, 5], [1, 5, 4, 0], [1, 0, 3, 2]]]

/-- The diagonal of the side `f` from its first vertex has the smallest vertex of the side. -/
def CutFromFirst (v : List Nat) (f : List Nat) : Prop :=
  match atCorners v f with
  | [a, b, c, d] => min a c < min b d
  | _ => False

/-- The second and the third side away from the corner `m` are both cut from the far corner, or both the other
way. -/
def Upright (v : List Nat) (m : Nat) : Prop :=
  ∃ r s t, farSides[m]? = some [r, s, t] ∧ (CutFromFirst v s ↔ CutFromFirst v t)

/-- The corner `m` has the smallest vertex. -/
def SmallestAt (v : List Nat) (m : Nat) : Prop := ∃ x, v[m]? = some x ∧ ∀ y ∈ v, x ≤ y

/-- The triangles `T` are a subdivision of the quadrilateral `v` around its middle, the vertex `c`: they are properly
oriented and fill it when it is a square of side two, and their oriented rim are its sides. -/
def SplitsQuadAround (v : List Nat) (c : Nat) (T : List (List Nat)) : Prop :=
  (∀ pos : Nat → Int × Int, v.map pos = [(0, 0), (2, 0), (2, 2), (0, 2)] → pos c = (1, 1) →
    (∀ t ∈ T, 0 < triArea pos t) ∧ (T.map (triArea pos)).sum = 8) ∧
  BoundaryIs T ((cycleEdges v).map (fun e => [e.1, e.2]))

/-- The corners of a cube of side two. -/
def cubePoints2 : List (List Int) :=
  [[0, 0, 0], [2, 0, 0], [2, 2, 0], [0, 2, 0], [0, 0, 2], [2, 0, 2], [2, 2, 2], [0, 2, 2]]

/-- The middles of its sides, in the order of `hexSides`. -/
def sideMiddles : List (List Int) := [[1, 1, 0], [1, 0, 1], [2, 1, 1], [1, 2, 1], [0, 1, 1], [1, 1, 2]]

/-- The tetrahedra `T` are a subdivision of the hexahedron `v` around its middle, the vertex `c`, and the middles
`qs` of its sides: they are properly oriented and fill it when it is a cube of side two, and their oriented surface
are the sides, split around their middles. -/
def SplitsHexAround (v qs : List Nat) (c : Nat) (T : List (List Nat)) : Prop :=
  (∀ pos : Nat → List Int, v.map pos = cubePoints2 → qs.map pos = sideMiddles → pos c = [1, 1, 1] →
    (∀ t ∈ T, 0 < tetVolume pos t) ∧ (T.map (tetVolume pos)).sum = 48) ∧
  BoundaryIs T ((hexSides.zip qs).flatMap (fun f => (cycleEdges (atCorners v f.1)).map (fun e => [f.2, e.1, e.2])))

end OmegaH.Spec
