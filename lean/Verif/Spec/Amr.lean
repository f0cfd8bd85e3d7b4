import Verif.Model.Amr
import Verif.Spec.Box
import Verif.Spec.AdjRow
import Verif.Spec.Map
/-!
# Divided hypercubes

The reference parent is the cube with side 2, cut into unit cells by its midplanes. Corners of the parent are numbered
as in `cornerOff`.
-/
namespace OmegaH.Spec

/-- The corners of a side of the reference parent; the parent itself is its only side of full dimension. -/
def sideCorners (parentDim dim which : Nat) : List Nat :=
  if dim = parentDim then List.range (2 ^ parentDim)
  else (List.range (2 ^ dim)).map (fun w : Nat => (hypercubeDownTemplate parentDim dim which w).toNat)

/-- The centre of a side: the average of its corners, which are at 0 or 2 on each axis. -/
def sideCentre (parentDim dim which : Nat) : List Nat :=
  (List.range parentDim).map (fun a =>
    ((sideCorners parentDim dim which).map (fun c => 2 * cornerOff c a)).sum / (sideCorners parentDim dim which).length)

/-- The points at which the split template places the vertices of a child. -/
def childPoints (parentDim childDim child : Nat) : List (List Nat) :=
  (List.range (2 ^ childDim)).map (fun vert : Nat =>
    let low := hypercubeSplitTemplate parentDim childDim child vert
    sideCentre parentDim low.1.toNat low.2.toNat)

/-- Lists of `n` zeros and ones. -/
def bits : Nat → List (List Nat)
  | 0 => [[]]
  | n + 1 => (bits n).flatMap (fun l => [0 :: l, 1 :: l])

/-- The corners of the unit cell of dimension `dim` that extends from `base` along the axes marked 1 in `axes`. -/
def unitCell (base axes : List Nat) : List (List Nat) :=
  ((bits base.length).filter (fun o => (o.zip axes).all (fun (x, a) => x ≤ a))).map (fun o => (base.zip o).map (fun (b, x) => b + x))

/-- The unit cells of a given dimension that lie inside the parent and not on its boundary: along the axes they do not
extend on, they are in the midplane. -/
def innerCells (parentDim dim : Nat) : List (List (List Nat)) :=
  ((bits parentDim).filter (fun axes => axes.sum = dim)).flatMap (fun axes =>
    ((bits parentDim).filter (fun lo => (lo.zip axes).all (fun (x, a) => x ≤ a))).map (fun lo =>
      unitCell ((lo.zip axes).map (fun (x, a) => if a = 1 then x else 1)) axes))

/-- Points differing by one unit on one axis. -/
def unitApart (p q : List Nat) : Bool := ((p.zip q).map (fun (a, b) => (a - b) + (b - a))).sum == 1

/-- Two adjacent elements of different sizes: `e'` is on the other side of a child of a divided bridge of `e` inside the
domain. -/
def FinerNeighbour (V : AmrView) (e e' : Nat) : Prop :=
  ∃ b bridge c child, b < V.nb ∧ V.elems2bridges[e * V.nb + b]? = some bridge ∧
    (∃ x, V.isInterior[bridge]? = some x ∧ x ≠ 0) ∧ V.isBridgeLeaf[bridge]? = some 0 ∧
    InFan V.children.a2ab bridge c ∧ V.children.ab2b[c]? = some child ∧
    ∃ k, InFan V.bridges2elems.a2ab child k ∧ V.bridges2elems.ab2b[k]? = some e'

/-- The leaves that have to be divided so that neighbours differ by at most one level: the marked ones, and those with
a finer neighbour that is marked or has itself to be divided. -/
inductive MustDivide (V : AmrView) (marked : List Int) : Nat → Prop where
  | marked {e : Nat} {l m : Int} : V.isElemLeaf[e]? = some l → l ≠ 0 → marked[e]? = some m → m ≠ 0 → MustDivide V marked e
  | next {e e' : Nat} {l m : Int} : V.isElemLeaf[e]? = some l → l ≠ 0 → FinerNeighbour V e e' →
      marked[e']? = some m → m ≠ 0 → MustDivide V marked e
  | again {e e' : Nat} {l : Int} : V.isElemLeaf[e]? = some l → l ≠ 0 → FinerNeighbour V e e' →
      MustDivide V marked e' → MustDivide V marked e

/-- The arrays are consistent: sizes agree, numbers are in range, and a child of a divided bridge inside the domain has
exactly one element (the check of src/Omega_h_amr.cpp:48). -/
structure AmrConsistent (V : AmrView) (nelems nbridges : Nat) : Prop where
  leafLen : V.isElemLeaf.length = nelems
  bleafLen : V.isBridgeLeaf.length = nbridges
  inLen : V.isInterior.length = nbridges
  e2bLen : V.elems2bridges.length = nelems * V.nb
  e2bRange : ∀ b ∈ V.elems2bridges, b < nbridges
  childFan : IsFan V.children.a2ab
  childLen : V.children.a2ab.length = nbridges + 1
  childEnd : V.children.a2ab.getLast? = some V.children.ab2b.length
  childRange : ∀ b ∈ V.children.ab2b, b < nbridges
  upLen : V.bridges2elems.a2ab.length = nbridges + 1
  upFan : IsFan V.bridges2elems.a2ab
  upEnd : V.bridges2elems.a2ab.getLast? = some V.bridges2elems.ab2b.length
  upRange : ∀ e ∈ V.bridges2elems.ab2b, e < nelems
  single : ∀ e b bridge c child, e < nelems → b < V.nb → V.elems2bridges[e * V.nb + b]? = some bridge →
    (∃ x, V.isInterior[bridge]? = some x ∧ x ≠ 0) → V.isBridgeLeaf[bridge]? = some 0 →
    InFan V.children.a2ab bridge c → V.children.ab2b[c]? = some child →
    ∃ x, V.bridges2elems.a2ab[child]? = some x ∧ V.bridges2elems.a2ab[child + 1]? = some (x + 1)

/-- `v` is the new vertex in the middle of side `low` of dimension `dim`: its midpoint is made now (or, if `dim` is 0, it is
the vertex itself), or the side was divided before and `v` is the new number of its only child vertex. -/
def HasMid (mds2mods : Nat → List Int) (mods2midverts : Nat → List Nat) (childVerts : Nat → Graph)
    (old2new : List Nat) (dim low v : Nat) : Prop :=
  (∃ m : Nat, (mds2mods dim)[low]? = some (m : Int) ∧ (mods2midverts dim)[m]? = some v) ∨
  ((mds2mods dim)[low]? = some (-1) ∧ ∃ k old, (childVerts dim).a2ab[low]? = some k ∧ (childVerts dim).a2ab[low + 1]? = some (k + 1) ∧
    (childVerts dim).ab2b[k]? = some old ∧ old2new[old]? = some v)

end OmegaH.Spec
