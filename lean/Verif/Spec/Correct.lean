import Mathlib.Algebra.Order.Field.Basic
import Verif.Spec.Table
import Verif.Model.Correct
/-!
# What correcting conserved quantities means
-/
namespace OmegaH.Spec

/-- The pairs of one of `n` entities and one of its `deg` places. -/
def places (n deg : Nat) : List (Nat × Nat) := (List.range n).flatMap (fun e => (List.range deg).map (fun i => (e, i)))

/-- `up t` lists the entities that have `t` among their `down e 0 … down e (deg-1)`, in any order. -/
structure Incident (n deg nlow : Nat) (down : Nat → Nat → Nat) (up : Nat → List Nat) : Prop where
  below : ∀ e i, e < n → i < deg → down e i < nlow
  above : ∀ t, t < nlow → (up t).Perm (((places n deg).filter (fun p => decide (down p.1 p.2 = t))).map Prod.fst)

/-- A mesh of simplices. Side `i` of element `e` is `sides e i` and its vertex `i` is `verts e i`; `sideElems t` are the elements at
side `t` and `vertElems v` those at vertex `v`, in the order in which they are stored; `sideDim t` is the dimension of the model
entity that side `t` lies on. -/
structure FluxMesh (K : Type) where
  dim : Nat
  nelems : Nat
  nsides : Nat
  nverts : Nat
  sides : Nat → Nat → Nat
  sideDim : Nat → Int
  sideElems : Nat → List Nat
  verts : Nat → Nat → Nat
  vertElems : Nat → List Nat
  size : Nat → K

variable {K : Type}

/-- A side inside one of the bodies of the model. -/
def FluxMesh.interior (m : FluxMesh K) (t : Nat) : Bool := decide ((m.dim : Int) ≤ m.sideDim t)

/-- The elements on the other side of the interior sides of an element. -/
def FluxMesh.neighbours (m : FluxMesh K) (e : Nat) : List Nat := (List.range (m.dim + 1)).flatMap (fun i =>
  if m.interior (m.sides e i) then (m.sideElems (m.sides e i)).filter (fun o => decide (o ≠ e)) else [])

/-- A part of the mesh that no interior side leads out of; a material of the model is one. -/
def FluxMesh.Closed (m : FluxMesh K) (C : Nat → Bool) : Prop := ∀ e, e < m.nelems → ∀ o ∈ m.neighbours e, C o = C e

/-- The arrays. -/
def FluxMesh.sideArray (m : FluxMesh K) : List Nat := tableOf (List.range m.nelems) (m.dim + 1) m.sides
def FluxMesh.vertArray (m : FluxMesh K) : List Nat := tableOf (List.range m.nelems) (m.dim + 1) m.verts
def FluxMesh.sideGraph (m : FluxMesh K) : Graph := graphOn (List.range m.nsides) m.sideElems
def FluxMesh.vertGraph (m : FluxMesh K) : Graph := graphOn (List.range m.nverts) m.vertElems
def FluxMesh.sideDims (m : FluxMesh K) : List Int := (List.range m.nsides).map m.sideDim
def FluxMesh.sizes (m : FluxMesh K) : List K := (List.range m.nelems).map m.size

variable [Field K] [LinearOrder K]

/-- The incidences are right, an interior side has two different elements, and elements have positive sizes. -/
structure FluxMesh.Sound (m : FluxMesh K) : Prop where
  some : 0 < m.nelems
  sides : Incident m.nelems (m.dim + 1) m.nsides m.sides m.sideElems
  verts : Incident m.nelems (m.dim + 1) m.nverts m.verts m.vertElems
  two : ∀ t, t < m.nsides → m.interior t = true → ∃ a b, a ≠ b ∧ m.sideElems t = [a, b]
  size : ∀ e, e < m.nelems → 0 < m.size e

/-- The sum over the elements of a part. -/
def FluxMesh.total (m : FluxMesh K) (C : Nat → Bool) (f : Nat → K) : K := (((List.range m.nelems).filter C).map f).sum

/-- How much an element holds, for the purpose of saying which errors are small. -/
def weight (opts : DiffuseOpts K) (q : K) : K := max |q| opts.floor

/-- The mean of a value over the vertices of an element. -/
def FluxMesh.mean (m : FluxMesh K) (x : Nat → K) (e : Nat) : K :=
  ((List.range (m.dim + 1)).map (fun i => x (m.verts e i))).sum / ((m.dim + 1 : Nat) : K)

/-- Component `c` of the velocity of a vertex is held fixed. -/
def fixedAt (flags : Nat → BitVec 8) (v c : Nat) : Bool := (flags v).getLsbD c

/-- How many vertices of an element are free to move in component `c`. -/
def FluxMesh.freeCount (m : FluxMesh K) (flags : Nat → BitVec 8) (e c : Nat) : Nat :=
  ((List.range (m.dim + 1)).filter (fun i => !fixedAt flags (m.verts e i) c)).length

/-- One can walk from element `e` to element `a` through at most `k` interior sides. -/
def FluxMesh.Walk (m : FluxMesh K) (a : Nat) : Nat → Nat → Prop
  | 0, e => e = a
  | k + 1, e => e = a ∨ ∃ o ∈ m.neighbours e, m.Walk a k o

/-- A connected part of the mesh that has a side on the boundary of the model. -/
structure FluxMesh.Body (m : FluxMesh K) (C : Nat → Bool) : Prop where
  closed : m.Closed C
  connected : ∃ a, a < m.nelems ∧ C a = true ∧ (∃ i, i < m.dim + 1 ∧ m.interior (m.sides a i) = false) ∧
    ∀ e, e < m.nelems → C e = true → ∃ k, m.Walk a k e

end OmegaH.Spec
