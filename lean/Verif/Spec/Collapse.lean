import Verif.Model.Collapse
import Verif.Spec.AdjRow
import Verif.Spec.Chain
import Verif.Spec.Map
/-!
# Which edges may be collapsed

`R d x` lists the vertices of entity `x` of dimension `d`, `nents d` is the number of these entities.
End `i` of an edge collapses onto the other end `1 - i`.
-/
namespace OmegaH.Spec
variable {K : Type} [LinearOrder K]

/-- The code of an adjacency from a vertex names the place of the vertex in the entity. -/
def VertCodeIn (code : Int) (row : List Nat) (v : Nat) : Prop :=
  ∃ i : Nat, codeWhichDown code = (i : Int) ∧ row[i]? = some v

/-- The code of the adjacency from the edge `p q` to a cell names the edge of the cell that it is, and
whether it has the opposite direction there. -/
def EdgePlaceIn (d : Nat) (code : Int) (row : List Nat) (p q : Nat) : Prop :=
  ∃ w r : Nat, (w : Int) < simplexDegree d 1 ∧ r < 2 ∧ code = 8 * (w : Int) + 2 * (r : Int) ∧
    row[(simplexDownTemplate d 1 (w : Int) (r : Int)).toNat]? = some p ∧
    row[(simplexDownTemplate d 1 (w : Int) ((1 - r : Nat) : Int)).toNat]? = some q

/-- The arrays of a rank describe a mesh of triangles (`D = 2`) or tetrahedra (`D = 3`) with the entities
`R`, and both measures are defined wherever they are used. -/
structure CollapseMesh (m : CollapseRank K) (D : Nat) (nents : Nat → Nat) (R : Nat → Nat → List Nat) : Prop where
  dim : D = 2 ∨ D = 3
  nverts : m.nverts = nents 0
  nedges : m.nedges = nents 1
  classLen : ∀ d, d ≤ D → (m.classDim d).length = nents d
  edge : ∀ e, e < nents 1 → ∃ p q, R 1 e = [p, q] ∧ p ≠ q ∧ p < nents 0 ∧ q < nents 0 ∧
    m.ev2v[e * 2]? = some p ∧ m.ev2v[e * 2 + 1]? = some q
  /-- no two edges join the same two vertices -/
  simple : ∀ e e', e < nents 1 → e' < nents 1 → (∀ v ∈ R 1 e, v ∈ R 1 e') → e = e'
  cell : ∀ d, 2 ≤ d → d ≤ D → ∀ c, c < nents d → (R d c).length = d + 1 ∧ (R d c).Nodup ∧
    ∀ v ∈ R d c, v < nents 0
  up : ∀ d, 2 ≤ d → d ≤ D → ∀ e, e < nents 1 → ∃ L, AdjRow (m.upEdge d) e L ∧
    (∀ x ∈ L, x.1 < nents d ∧ ∀ p q, R 1 e = [p, q] → EdgePlaceIn d x.2 (R d x.1) p q) ∧
    ∀ c, c < nents d → (∀ v ∈ R 1 e, v ∈ R d c) → ∃ code, (c, code) ∈ L
  side : ∀ d, 2 ≤ d → d ≤ D → ∀ c, c < nents d → ∀ i : Nat, i < (simplexDegree d ((d : Int) - 1)).toNat →
    ∃ x, (m.down d)[c * (simplexDegree d ((d : Int) - 1)).toNat + i]? = some x ∧ x < nents (d - 1) ∧
      ∀ v, v ∈ R (d - 1) x ↔ ∃ j : Nat, j < d ∧
        (R d c)[(simplexDownTemplate d ((d : Int) - 1) i j).toNat]? = some v
  vertEdges : ∀ v, v < nents 0 → ∃ L, AdjRow m.v2e v L ∧
    (∀ x ∈ L, x.1 < nents 1 ∧ VertCodeIn x.2 (R 1 x.1) v) ∧
    ∀ e, e < nents 1 → v ∈ R 1 e → ∃ code, (e, code) ∈ L
  vertCells : ∀ v, v < nents 0 → ∃ L, AdjRow m.v2c v L ∧
    (∀ x ∈ L, x.1 < nents D ∧ VertCodeIn x.2 (R D x.1) v) ∧
    ∀ c, c < nents D → v ∈ R D c → ∃ code, (c, code) ∈ L
  vertCellsFan : IsFan m.v2c.a2ab ∧ m.v2c.a2ab.length = nents 0 + 1 ∧
    m.v2c.a2ab.getLast? = some m.v2c.ab2b.length ∧ ∀ c ∈ m.v2c.ab2b, c < nents D
  vertEdgesCodes : m.v2e.codes.isSome
  cellVerts : ∀ c, c < nents D → rowAt m.cv2v (D + 1) c = some (R D c)
  edgeVertsLen : m.ev2v.length = nents 1 * 2
  globals : m.edgeGlobals.length = nents 1 ∧ ∀ g ∈ m.edgeGlobals, 0 ≤ g
  lengths : m.lengths.length = nents 1
  quals : m.elemQuals.length = nents D
  lengthOf : ∀ p q, p < nents 0 → q < nents 0 → (m.lengthOf p q).isSome
  qualityOf : ∀ l : List Nat, l.length = D + 1 → (∀ v ∈ l, v < nents 0) → (m.qualityOf l).isSome

/-- No boundary is exposed or closed: in every cell around the edge, the side away from the vertex that
stays is on an entity of the model of the same dimension as the cell. -/
def KeepsBoundaries (m : CollapseRank K) (D : Nat) (nents : Nat → Nat) (R : Nat → Nat → List Nat) (e i : Nat) :
    Prop :=
  ∀ d c j s t, 2 ≤ d → d ≤ D → c < nents d → (∀ v ∈ R 1 e, v ∈ R d c) →
    j < (simplexDegree d ((d : Int) - 1)).toNat →
    (m.down d)[c * (simplexDegree d ((d : Int) - 1)).toNat + j]? = some s →
    (R 1 e)[1 - i]? = some t → t ∉ R (d - 1) s → (m.classDim (d - 1))[s]? = (m.classDim d)[c]?

/-- Every other edge at the vertex that goes away is shorter than the limit once it ends at the vertex
that stays. -/
def ShortEnough (m : CollapseRank K) (maxLength : K) (nents : Nat → Nat) (R : Nat → Nat → List Nat) (e i : Nat) :
    Prop :=
  ∀ v t e' a b len, (R 1 e)[i]? = some v → (R 1 e)[1 - i]? = some t → e' < nents 1 → e' ≠ e → v ∈ R 1 e' →
    substVert v t (R 1 e') = [a, b] → m.lengthOf a b = some len → len < maxLength

/-- Quality `q` belongs to an element around the vertex that goes away, after the collapse. -/
def NewQuality (m : CollapseRank K) (D : Nat) (nents : Nat → Nat) (R : Nat → Nat → List Nat) (e i : Nat) (q : K) :
    Prop :=
  ∃ v t c, (R 1 e)[i]? = some v ∧ (R 1 e)[1 - i]? = some t ∧ c < nents D ∧ v ∈ R D c ∧ t ∉ R D c ∧
    m.qualityOf (substVert v t (R D c)) = some q

/-- `q` is the smallest quality of the elements around the vertex that goes away, after the collapse, or
1 if they are all better or there are none. -/
def WorstQuality (m : CollapseRank K) (one : K) (D : Nat) (nents : Nat → Nat) (R : Nat → Nat → List Nat)
    (e i : Nat) (q : K) : Prop :=
  (q = one ∨ NewQuality m D nents R e i q) ∧ q ≤ one ∧ ∀ q', NewQuality m D nents R e i q' → q ≤ q'

/-- Meshes on `n` ranks, with the owners of edges and vertices. -/
structure CollapseWorld (K : Type) where
  rank : Nat → CollapseRank K
  nents : Nat → Nat → Nat
  R : Nat → Nat → Nat → List Nat
  edgeOwner : Nat → Nat → Nat × Nat
  vertOwner : Nat → Nat → Nat × Nat

/-- The owners of the copies, as the program stores them. -/
def remotesOf (nents : Nat → Nat) (owner : Nat → Nat → Nat × Nat) (r : Nat) : Remotes :=
  ⟨(List.range (nents r)).map (fun i => (owner r i).1), (List.range (nents r)).map (fun i => (owner r i).2)⟩

/-- The argument `owners`: absent if entities cannot be shared. -/
def ownersArg (n : Nat) (shared : Bool) (nents : Nat → Nat) (owner : Nat → Nat → Nat × Nat) : Option (List Remotes) :=
  if shared then some ((List.range n).map (remotesOf nents owner)) else none

/-- Owners are entities that own themselves; without sharing every copy is its own owner. -/
structure OwnersFine (n : Nat) (shared : Bool) (nents : Nat → Nat) (owner : Nat → Nat → Nat × Nat) : Prop where
  valid : ∀ r i, r < n → i < nents r → (owner r i).1 < n ∧ (owner r i).2 < nents (owner r i).1 ∧
    owner (owner r i).1 (owner r i).2 = owner r i
  alone : shared = false → ∀ r i, r < n → i < nents r → owner r i = (r, i)

/-- The copies form a mesh on every rank, and the options make sense. -/
structure CollapseWorld.Ok (W : CollapseWorld K) (n : Nat) (shared : Bool) (o : CollapseOpts K) : Prop where
  size : n ≤ 2147483648
  mesh : ∀ r, r < n → CollapseMesh (W.rank r) o.dim (W.nents r) (W.R r)
  edges : OwnersFine n shared (fun r => W.nents r 1) W.edgeOwner
  verts : OwnersFine n shared (fun r => W.nents r 0) W.vertOwner
  top : o.one ≤ o.top

/-- The collapse of end `i` of edge `e` of rank `r` is offered (`B`) and passes all checks, each made where
the edge or the vertex is owned. -/
def CollapseWorld.Accepted (W : CollapseWorld K) (o : CollapseOpts K) (B : Nat → Nat → Nat → Prop) (r e i : Nat) : Prop :=
  B r e i ∧
  let p := (W.edgeOwner r e).1
  let x := (W.edgeOwner r e).2
  KeepsBoundaries (W.rank p) o.dim (W.nents p) (W.R p) x i ∧
  ShortEnough (W.rank p) o.maxLength (W.nents p) (W.R p) x i ∧
  ∃ q, WorstQuality (W.rank p) o.one o.dim (W.nents p) (W.R p) x i q ∧ o.minQual ≤ q ∧
    (o.improve = true → ∃ v c old, (W.R r 1 e)[i]? = some v ∧
      c < W.nents (W.vertOwner r v).1 o.dim ∧ (W.vertOwner r v).2 ∈ W.R (W.vertOwner r v).1 o.dim c ∧
      (W.rank (W.vertOwner r v).1).elemQuals[c]? = some old ∧ old < q)

/-- The choice for vertex `v` of rank `r`: no edge, or the shortest accepted one, and of several shortest
ones one with the best quality. -/
def CollapseWorld.Choice (W : CollapseWorld K) (o : CollapseOpts K) (B : Nat → Nat → Nat → Prop) (r v : Nat)
    (out : Option (Int × K × Int)) : Prop :=
  (out = some (0, o.minusOne, -1) ∧
    ∀ e i, e < W.nents r 1 → (W.R r 1 e)[i]? = some v → ¬ W.Accepted o B r e i) ∨
  ∃ e i g len q, e < W.nents r 1 ∧ (W.R r 1 e)[i]? = some v ∧ W.Accepted o B r e i ∧
    (W.rank r).edgeGlobals[e]? = some g ∧ (W.rank r).lengths[e]? = some len ∧
    WorstQuality (W.rank (W.edgeOwner r e).1) o.one o.dim (W.nents (W.edgeOwner r e).1)
      (W.R (W.edgeOwner r e).1) (W.edgeOwner r e).2 i q ∧
    out = some (1, q, g) ∧
    ∀ e' i' len' q', e' < W.nents r 1 → (W.R r 1 e')[i']? = some v → W.Accepted o B r e' i' →
      (W.rank r).lengths[e']? = some len' →
      WorstQuality (W.rank (W.edgeOwner r e').1) o.one o.dim (W.nents (W.edgeOwner r e').1)
        (W.R (W.edgeOwner r e').1) (W.edgeOwner r e').2 i' q' →
      len < len' ∨ (len = len' ∧ q' ≤ q)

end OmegaH.Spec
