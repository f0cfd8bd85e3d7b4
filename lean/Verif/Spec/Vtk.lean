import Verif.Spec.Map
import Verif.Model.Vtk
import Verif.Spec.File

/-! # Specification of VTK files -/

namespace OmegaH.Spec

/-- A tag that a VTK file can hold: its name has no quote and no line feed, and sizes fit. In two dimensions real tags have no 6 components. -/
structure GoodVtkTag (dim nents : Nat) (t : FileTag) : Prop where
  named : t.name ≠ [] ∧ t.name.length < 2 ^ 31
  name : ch '"' ∉ t.name ∧ ch '\n' ∉ t.name
  comps : 0 ≤ t.ncomps ∧ t.ncomps ≤ 127
  size : ∃ n, t.data.size = some n ∧ (n : Int) = nents * t.ncomps
  small : (nents : Int) * max t.ncomps 6 < 2 ^ 31
  six : dim = 2 → ∀ a, t.data = .f64 a → t.ncomps ≠ 6

/-- The tags of one dimension and the names of those that are written. -/
structure GoodVtkTags (dim nents : Nat) (tags : List FileTag) (set : List FileBytes) : Prop where
  good : ∀ t ∈ tags, t.name ∈ set → GoodVtkTag dim nents t
  nodup : (tags.map FileTag.name).Nodup
  count : tags.length ≤ 120
  known : ∀ n ∈ set, n ∈ [str "local", str "owner", str "vtkGhostType"] ∨ ∃ t ∈ tags, t.name = n
  global : ∀ t ∈ tags, t.name = str "global" → t.ncomps = 1 ∧ ∃ a, t.data = .i64 a

/-- A mesh that a VTK file can hold. Hypercubes have at least two dimensions. On several ranks the global numbers are written and the vertices are sorted by them. -/
structure GoodVtk (m : VtkMesh) (vset cset : List FileBytes) : Prop where
  dim : 1 ≤ m.dim ∧ m.dim ≤ 3
  family : m.dim = 1 → m.family = .simplex
  verts : m.nverts * 6 < 2 ^ 31
  conn : (m.conn.length : Int) = m.ncells * elementDegree m.family m.dim 0 ∧ m.conn.length < 2 ^ 31
  owners : m.commSize ≠ 1 → m.vertOwners.length = m.nverts ∧ m.cellOwners.length = m.ncells ∧ m.cellOwned.length = m.ncells
  coords : ∃ a, ⟨str "coordinates", m.dim, .f64 (some a)⟩ ∈ m.vertTags ∧ a.length = m.nverts * m.dim
  vertTags : GoodVtkTags m.dim m.nverts m.vertTags vset
  cellTags : GoodVtkTags m.dim m.ncells m.cellTags cset
  globals : m.commSize ≠ 1 → str "global" ∈ vset ∧ (m.ghosted → str "global" ∈ cset) ∧
    ∀ t ∈ m.vertTags, t.name = str "global" → ∀ a, t.data = .i64 (some a) → (a.map BitVec.toInt).Pairwise (· ≤ ·)

/-- What is read of the tags of one dimension: those that were written, without "local" and "owner", which are for other programs; the global numbers count if they were
not written. `more` are names about which nothing is said. -/
def SameTags (nents : Nat) (tags tags' : List FileTag) (set also more : List FileBytes) : Prop :=
  ∀ n, n ∉ more →
    tags'.find? (fun t => decide (t.name = n)) =
      if n = str "local" ∨ n = str "owner" then none
      else if n ∈ set ∨ n ∈ also then tags.find? (fun t => decide (t.name = n))
      else if n = str "global" then some ⟨n, 1, .i64 (some ((List.range nents).map (BitVec.ofNat 64)))⟩
      else none

/-- Two meshes have the same cells and the same tags as far as they were written. -/
structure SameVtk (m m' : VtkMesh) (vset cset : List FileBytes) : Prop where
  family : m'.family = m.family
  dim : m'.dim = m.dim
  verts : m'.nverts = m.nverts
  cells : m'.ncells = m.ncells
  conn : m'.conn = m.conn
  vertTags : SameTags m.nverts m.vertTags m'.vertTags vset [str "coordinates"] []
  cellTags : SameTags m.ncells m.cellTags m'.cellTags cset [] [str "vtkGhostType"]

/-- The program that writes compressed data has a library that does not fail, and the one that reads them has the same. -/
structure SameZlib (compress : Bool) (z zr : Option Zlib) : Prop where
  good : compress = true → ∃ y, z = some y ∧ GoodZlib y ∧ ∀ b, ∃ c, y.compress b = some c
  same : compress = true → zr = z

/-- What the other ranks found does not contradict the mesh, and it decides if there are no cells here. -/
structure SameKind (m : VtkMesh) (others : Nat × Int) : Prop where
  le : others.1 ≤ (if m.family = .simplex then 0 else 1) ∧ others.2 ≤ m.dim
  empty : m.ncells = 0 → others.1 = (if m.family = .simplex then 0 else 1) ∧ others.2 = m.dim

/-- Row `i` of `y` is row `perm i` of `x`. -/
def RowsMoved {α : Type} (perm : List Nat) (w : Nat) (x y : List α) : Prop :=
  y.length = x.length ∧ ∀ i k j : Nat, perm[i]? = some k → j < w → y[i * w + j]? = x[k * w + j]?

/-- The same for the values of a tag. -/
def TagMoved (perm : List Nat) (t u : FileTag) : Prop :=
  u.name = t.name ∧ u.ncomps = t.ncomps ∧
    match t.data, u.data with
    | .i8 (some x), .i8 (some y) => RowsMoved perm t.ncomps.toNat x y
    | .i32 (some x), .i32 (some y) => RowsMoved perm t.ncomps.toNat x y
    | .i64 (some x), .i64 (some y) => RowsMoved perm t.ncomps.toNat x y
    | .f64 (some x), .f64 (some y) => RowsMoved perm t.ncomps.toNat x y
    | _, _ => False

/-- `m'` is the mesh `m` with new numbers for vertices and cells: vertex `i` of `m'` is vertex `vp i` of `m`, and cell `k` is cell `cp k`, with the same vertices in the same
order. -/
structure VtkRenumbered (m m' : VtkMesh) (vp cp : List Nat) : Prop where
  kind : m'.family = m.family ∧ m'.dim = m.dim ∧ m'.nverts = m.nverts ∧ m'.ncells = m.ncells
  verts : IsPermutation vp m.nverts
  cells : IsPermutation cp m.ncells
  length : m'.conn.length = m.conn.length
  conn : ∀ k c j v v' : Nat, cp[k]? = some c → j < (elementDegree m.family m.dim 0).toNat →
    (m.conn[c * (elementDegree m.family m.dim 0).toNat + j]?).map BitVec.toNat = some v → vp[v']? = some v →
    (m'.conn[k * (elementDegree m.family m.dim 0).toNat + j]?).map BitVec.toNat = some v'
  vertTags : List.Forall₂ (TagMoved vp) m.vertTags m'.vertTags
  cellTags : List.Forall₂ (TagMoved cp) m.cellTags m'.cellTags

end OmegaH.Spec
