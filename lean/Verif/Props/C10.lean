import Verif.Model.Element
import Verif.Spec.Cell

/-! # C10 — template tables of simplices and hypercubes are mutually consistent

The quantifiers range over finite tables; each statement is checked over the whole table. -/

namespace OmegaH
open Spec

/-- Number of entities, as a natural number (-1 becomes 0). -/
def deg (f : Family) (d b : Nat) : Nat := (elementDegree f d b).toNat

/-- The vertices of boundary entity `w` of dimension `b` of a `d`-dimensional cell, in order. -/
def downVerts (f : Family) (d b w : Nat) : List Int :=
  (List.range (deg f b 0)).map (fun (v : Nat) => elementDownTemplate f d b w v)

/-- The faces of a cell of the given family, as sets of vertices. -/
def cellFaces (f : Family) (d b : Nat) : List (List Int) :=
  match f with
  | .simplex => simplexFaces d b
  | .hypercube => cubeFaces d b

def families : List Family := [.simplex, .hypercube]

/-- The downward templates name every face of the cell exactly once: entity lists have no repeated
vertex, each is the vertex set of a face, distinct entities are distinct faces and every face occurs. -/
theorem C10_down_templates_enumerate_faces : ∀ f ∈ families, ∀ d ∈ [1, 2, 3], ∀ b ∈ List.range d,
    (∀ w ∈ List.range (deg f d b), (downVerts f d b w).Nodup ∧
      ∃ s ∈ cellFaces f d b, SameSet (downVerts f d b w) s) ∧
    (∀ s ∈ cellFaces f d b, ∃ w ∈ List.range (deg f d b), SameSet (downVerts f d b w) s) ∧
    (∀ w ∈ List.range (deg f d b), ∀ w' ∈ List.range (deg f d b),
      SameSet (downVerts f d b w) (downVerts f d b w') → w = w') ∧
    deg f d b = (cellFaces f d b).length := by
  decide +kernel

/-- Sides of polygons are listed around: side `i` of a triangle or quadrilateral goes from vertex `i`
to the next one; and the four vertices of a hexahedron's side go around that side (consecutive ones
are joined by an edge). -/
theorem C10_polygon_sides : ∀ f ∈ families,
    (∀ w ∈ List.range (deg f 2 1), downVerts f 2 1 w = [(w : Int), (((w + 1) % deg f 2 0 : Nat) : Int)]) ∧
    (∀ w ∈ List.range (deg f 3 2), ∀ i ∈ List.range (deg f 2 0),
      ∃ a ∈ (downVerts f 3 2 w)[i]?, ∃ b ∈ (downVerts f 3 2 w)[(i + 1) % deg f 2 0]?,
        ∃ e ∈ List.range (deg f 3 1), SameSet (downVerts f 3 1 e) [a, b]) := by
  decide +kernel

/-- Vertex `j` of entity `w'` (dimension `b`) of entity `w` (dimension `h`) of the cell. -/
def composed (f : Family) (d h w b w' : Nat) : List Int :=
  (List.range (deg f b 0)).map (fun (j : Nat) =>
    elementDownTemplate f d h w
      (if b = 0 then elementDownTemplate f h 0 w' 0 else elementDownTemplate f h b w' j))

/-- How many entities of the next dimension contain an entity of dimension `b` in the cell. -/
def nups (f : Family) (d b w : Nat) : Nat :=
  ((List.range (deg f d (b + 1))).filter (fun u =>
    decide (∀ x ∈ downVerts f d b w, x ∈ downVerts f d (b + 1) u))).length

/-- Upward templates are right: each entry names an entity that contains the given one at the stated
position, in the stated direction; the entries name distinct entities; there are as many entries as
containing entities; beyond them the table answers -1. -/
theorem C10_up_templates : ∀ f ∈ families, ∀ d ∈ [2, 3], ∀ b ∈ List.range (d - 1),
    ∀ w ∈ List.range (deg f d b),
    (∀ k ∈ List.range (nups f d b w),
      ∃ u ∈ List.range (deg f d (b + 1)), ∃ wd ∈ List.range (deg f (b + 1) b),
        (elementUpTemplate f d b w k).up = u ∧ (elementUpTemplate f d b w k).whichDown = wd ∧
        composed f d (b + 1) u b wd =
          (if (elementUpTemplate f d b w k).isFlipped then (downVerts f d b w).reverse
            else downVerts f d b w)) ∧
    (∀ k ∈ List.range (nups f d b w), ∀ k' ∈ List.range (nups f d b w),
      (elementUpTemplate f d b w k).up = (elementUpTemplate f d b w k').up → k = k') ∧
    elementUpTemplate f d b w (nups f d b w) = ⟨-1, -1, false⟩ ∧
    nups f d b w = (if d = 3 ∧ b = 0 then 3 else 2) := by
  decide +kernel

/-- Composition of downward templates: every entity of an entity of the cell is an entity of the
cell, up to the direction recorded in the upward template. -/
theorem C10_down_composition : ∀ f ∈ families, ∀ d ∈ [2, 3], ∀ b ∈ List.range (d - 1),
    ∀ u ∈ List.range (deg f d (b + 1)), ∀ wd ∈ List.range (deg f (b + 1) b),
    ∃ w ∈ List.range (deg f d b), ∃ k ∈ List.range (nups f d b w),
      (elementUpTemplate f d b w k).up = u ∧ (elementUpTemplate f d b w k).whichDown = wd ∧
      composed f d (b + 1) u b wd =
        (if (elementUpTemplate f d b w k).isFlipped then (downVerts f d b w).reverse
          else downVerts f d b w) := by
  decide +kernel

/-- The directed edges run through by side `w` of a solid, going around its vertices in order. -/
def sideEdges (f : Family) (w : Nat) : List (Int × Int) :=
  (downVerts f 3 2 w).zip ((downVerts f 3 2 w).rotateLeft 1)

/-- The two sides meeting at an edge of a solid run through it in opposite directions, so the sides
are coherently oriented: each directed edge belongs to one side only, and its reverse to one other
side. The flags of the upward template say the same. -/
theorem C10_coherent_orientation : ∀ f ∈ families,
    (∀ w ∈ List.range (deg f 3 2), ∀ e ∈ sideEdges f w,
      (∀ w' ∈ List.range (deg f 3 2), e ∈ sideEdges f w' → w' = w) ∧
      ∃ w' ∈ List.range (deg f 3 2), w' ≠ w ∧ (e.2, e.1) ∈ sideEdges f w') ∧
    ∀ e ∈ List.range (deg f 3 1),
      (elementUpTemplate f 3 1 e 0).isFlipped ≠ (elementUpTemplate f 3 1 e 1).isFlipped := by
  decide +kernel

/-- The sides of a solid face outwards: seen from every vertex not on the side, the first three
vertices of the side turn so that their normal points away. Coordinates are those of the reference
cell (`Spec.refVertex`). -/
theorem C10_sides_face_outwards : ∀ f ∈ families, ∀ w ∈ List.range (deg f 3 2),
    ∃ a ∈ (downVerts f 3 2 w)[0]?, ∃ b ∈ (downVerts f 3 2 w)[1]?, ∃ c ∈ (downVerts f 3 2 w)[2]?,
      ∀ v ∈ List.range (deg f 3 0), (v : Int) ∉ downVerts f 3 2 w →
        tripleProduct (refVertex (f = .simplex) a) (refVertex (f = .simplex) b)
          (refVertex (f = .simplex) c) (refVertex (f = .simplex) v) < 0 := by
  decide +kernel

/-- The opposite template of a simplex names the entity made of the complementary vertices, and
taking it twice leads back. -/
theorem C10_opposite_is_complement : ∀ d ∈ [1, 2, 3], ∀ b ∈ List.range d,
    ∀ w ∈ List.range (deg .simplex d b),
    ∃ o ∈ List.range (deg .simplex d (d - 1 - b)),
      simplexOppositeTemplate d b w = o ∧
      (∀ v ∈ List.range (d + 1), ((v : Int) ∈ downVerts .simplex d b w ↔
        (v : Int) ∉ downVerts .simplex d (d - 1 - b) o)) ∧
      simplexOppositeTemplate d ((d - 1 - b : Nat) : Int) o = w := by
  decide +kernel

/-- Entities of the cell and of its boundary are counted consistently: the Euler characteristic of a
cell is 1. -/
theorem C10_euler_characteristic : ∀ f ∈ families, ∀ d ∈ [0, 1, 2, 3],
    ((List.range (d + 1)).map (fun (b : Nat) => (-1 : Int) ^ b * elementDegree f d b)).sum = 1 := by
  decide +kernel

/-- A quirk kept from the code: a vertex "has" one entity of every dimension in the simplex table,
while the hypercube table answers -1. -/
theorem C10_degree_of_vertex_quirk : simplexDegree 0 3 = 1 ∧ hypercubeDegree 0 3 = -1 := by
  decide +kernel

/-! Non-vacuity: the tables are not empty. -/
example : deg .simplex 3 1 = 6 ∧ deg .hypercube 3 2 = 6 := by decide
example : downVerts .simplex 3 2 3 = [2, 0, 3] := by decide +kernel

end OmegaH
