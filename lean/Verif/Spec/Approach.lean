import Verif.Model.Approach
import Verif.Spec.Stats
/-!
# Specification: a mesh that is moved

A field of vertices is a function of the global number of the vertex and of the component.
-/
namespace OmegaH.Spec

/-- The array of a field with `w` components at the vertices `vs`. -/
def rows {K : Type} (w : Nat) (vs : List Nat) (X : Nat → Nat → K) : List K :=
  vs.flatMap (fun v => (List.range w).map (X v))

/-- A distributed mesh whose vertices have one place each: the vertices, elements and edges of every rank, by global number, and how the quality of an
element and the length of an edge depend on all coordinates and the metric. -/
structure Domain (K : Type) where
  nranks : Nat
  dim : Nat
  ncomps : Nat
  nElems : Nat
  nEdges : Nat
  verts : Nat → List Nat
  elems : Nat → List Nat
  edges : Nat → List Nat
  ownedElems : Option (Nat → List Int)
  ownedEdges : Option (Nat → List Int)
  quality : (Nat → Nat → K) → (Nat → Nat → K) → Nat → K
  length : (Nat → Nat → K) → (Nat → Nat → K) → Nat → K
  size : (Nat → Nat → K) → Nat → K
  log : (Nat → Nat → K) → Nat → Nat → K
  exp : (Nat → Nat → K) → Nat → Nat → K

/-- The measures of the program are these functions on every rank, and every element and every edge is owned once. -/
structure Domain.Fits {K : Type} (d : Domain K) (ms : Measures K) : Prop where
  elems : OneOwner d.nranks d.nElems d.elems d.ownedElems
  edges : OneOwner d.nranks d.nEdges d.edges d.ownedEdges
  quals : ∀ r, r < d.nranks → ∀ X M, ms.quals r (rows d.dim (d.verts r) X) (rows d.ncomps (d.verts r) M) = (d.elems r).map (d.quality X M)
  lengths : ∀ r, r < d.nranks → ∀ X M, ms.lengths r (rows d.dim (d.verts r) X) (rows d.ncomps (d.verts r) M) = (d.edges r).map (d.length X M)
  log : ∀ r, r < d.nranks → ∀ M, ms.linearize (rows d.ncomps (d.verts r) M) = rows d.ncomps (d.verts r) (d.log M)
  exp : ∀ r, r < d.nranks → ∀ M, ms.delinearize (rows d.ncomps (d.verts r) M) = rows d.ncomps (d.verts r) (d.exp M)

/-- What the ranks have is the mesh with coordinates `X`, metric `M`, warp `W` and target `T`; whatever is cached belongs to these. -/
structure Domain.Is {K : Type} (d : Domain K) (X M : Nat → Nat → K) (W T : Option (Nat → Nat → K)) (mesh : List (MovedRank K)) : Prop where
  ranks : mesh.length = d.nranks
  each : ∀ r m, mesh[r]? = some m →
    m.nverts = (d.verts r).length ∧ m.coords = rows d.dim (d.verts r) X ∧ m.metric = rows d.ncomps (d.verts r) M ∧
    m.warp = W.map (rows d.dim (d.verts r)) ∧ m.target = T.map (rows d.ncomps (d.verts r)) ∧
    (∀ q, m.quals = some q → q = (d.elems r).map (d.quality X M)) ∧
    (∀ l, m.lengths = some l → l = (d.edges r).map (d.length X M)) ∧
    (∀ z, m.sizes = some z → z = (d.elems r).map (d.size X))

/-- No element is worse and no edge is longer than is allowed. -/
def Domain.Within {K : Type} [LinearOrder K] (d : Domain K) (o : MoveOpts K) (X M : Nat → Nat → K) : Prop :=
  (∀ g, g < d.nElems → o.minQualityAllowed ≤ d.quality X M g) ∧ ∀ e, e < d.nEdges → d.length X M e ≤ o.maxLengthAllowed

/-- The coordinates `X` moved by the part `f` of `W`. -/
def movedBy {K : Type} [Field K] (X W : Nat → Nat → K) (f : K) : Nat → Nat → K := fun v c => X v c + f * W v c

/-- The metric at the part `f` of the way from `M` to `T`. -/
def Domain.between {K : Type} [Field K] (d : Domain K) (M T : Nat → Nat → K) (f : K) : Nat → Nat → K :=
  d.exp (fun v c => d.log M v c * (1 - f) + d.log T v c * f)

end OmegaH.Spec
