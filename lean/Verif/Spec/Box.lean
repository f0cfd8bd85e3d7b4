import Verif.Model.Element
import Mathlib.Data.List.Rotate
/-!
# Structured grids

Grid points are numbered along the first axis, then the second, then the third. `mx` and `my` are the largest
indices on the first two axes; a grid of lower dimension has the single index 0 on the axes it lacks.
-/
namespace OmegaH.Spec

/-- The position of grid point `v` on an axis. -/
def gridIndex (mx my : Nat) (axis v : Nat) : Nat :=
  match axis with
  | 0 => v % (mx + 1)
  | 1 => v / (mx + 1) % (my + 1)
  | _ => v / (mx + 1) / (my + 1)

/-- Offset on an axis of a corner of a unit cell: corners 0 to 3 go round the lower face, 4 to 7 round
the upper one. -/
def cornerOff (corner axis : Nat) : Nat :=
  match axis with
  | 0 => if corner % 4 = 1 ∨ corner % 4 = 2 then 1 else 0
  | 1 => if corner % 4 = 2 ∨ corner % 4 = 3 then 1 else 0
  | _ => if 4 ≤ corner then 1 else 0

/-- The vertices of side `f` of element `h`, in the canonical order of the element. -/
def SideVerts (dim : Nat) (conn : List Nat) (h f : Nat) (vs : List Nat) : Prop :=
  vs.length = 2 ^ (dim - 1) ∧ ∀ w : Nat, w < 2 ^ (dim - 1) → ∃ corner : Nat,
    hypercubeDownTemplate dim ((dim - 1 : Nat) : Int) f w = (corner : Int) ∧ vs[w]? = conn[h * 2 ^ dim + corner]?

/-- All of `vs` lie in the first or in the last plane of some axis. -/
def OnBoundary (dim : Nat) (mx my : Nat) (n : Nat → Nat) (vs : List Nat) : Prop :=
  ∃ a, a < dim ∧ ((∀ v ∈ vs, gridIndex mx my a v = 0) ∨ (∀ v ∈ vs, gridIndex mx my a v = n a))

/-- A conforming grid of unit cells with `n a` cells along axis `a`. -/
structure ConformingGrid (dim : Nat) (mx my : Nat) (n : Nat → Nat) (nelems nverts : Nat) (conn : List Nat) : Prop where
  len : conn.length = nelems * 2 ^ dim
  range : ∀ v ∈ conn, v < nverts
  used : ∀ v, v < nverts → v ∈ conn
  /-- the vertices of an element are the corners of a unit cell -/
  cell : ∀ h, h < nelems → ∃ p : Nat → Nat, (∀ a, a < dim → p a < n a) ∧ ∀ corner, corner < 2 ^ dim →
    ∃ v, conn[h * 2 ^ dim + corner]? = some v ∧ ∀ a, a < dim → gridIndex mx my a v = p a + cornerOff corner a
  /-- each cell is an element -/
  cells : ∀ p : Nat → Nat, (∀ a, a < dim → p a < n a) → ∃ h v, h < nelems ∧ conn[h * 2 ^ dim]? = some v ∧
    ∀ a, a < dim → gridIndex mx my a v = p a
  /-- two sides on the same vertices are opposite sides of two elements, and have opposite orientations -/
  shared : ∀ h f h' f' vs vs', h < nelems → f < 2 * dim → h' < nelems → f' < 2 * dim →
    SideVerts dim conn h f vs → SideVerts dim conn h' f' vs' → vs' ⊆ vs → (h', f') ≠ (h, f) →
    h' ≠ h ∧ f' ≠ f ∧ vs'.reverse ~r vs
  /-- exactly the sides inside the box are shared -/
  interior : ∀ h f vs, h < nelems → f < 2 * dim → SideVerts dim conn h f vs →
    (¬ OnBoundary dim mx my n vs ↔
      ∃ h' f' vs', h' < nelems ∧ f' < 2 * dim ∧ SideVerts dim conn h' f' vs' ∧ vs' ⊆ vs ∧ (h', f') ≠ (h, f))

/-- The number of cells on each axis. -/
def cellsOn (nx ny nz : Nat) : Nat → Nat
  | 0 => nx
  | 1 => ny
  | _ => nz

/-- Where a set of points, given by positions from 0 to `top` on an axis, lies in the box along that axis:
0 on the lower face, 2 on the upper face, 1 otherwise. -/
def SideOf (top : Nat) (ps : List Nat) (d : Nat) : Prop :=
  (d = 0 ∧ ∀ p ∈ ps, p = 0) ∨ (d = 2 ∧ ∀ p ∈ ps, p = top) ∨ (d = 1 ∧ (∃ p ∈ ps, p ≠ 0) ∧ ∃ p ∈ ps, p ≠ top)

/-- The boundary entity of the box with the given sides: its number reads the sides as digits in base
three, and its dimension counts the axes on which it is on neither face. -/
def boxEntity (d : List Nat) : Nat × Nat :=
  (d.foldr (fun x acc => acc * 3 + x) 0, (d.filter (· = 1)).length)

/-- The named parts of a box: the whole body and the two faces of each axis. A part is given by the name and the
sides of its points. -/
def boxParts (dim : Nat) : List (String × List Nat) :=
  let inside := List.replicate dim 1
  ("body", inside) :: (((["x", "y", "z"].take dim).zipIdx).flatMap (fun (name, axis) =>
    [(name ++ "-", inside.set axis 0), (name ++ "+", inside.set axis 2)]))

end OmegaH.Spec
