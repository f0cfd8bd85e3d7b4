import Verif.Spec.Table
import Verif.Model.Conserve
/-!
# What keeping track of conservation errors means
-/
namespace OmegaH.Spec

/-- A mesh of elements, in mathematical terms. Vertex `i` of element `e` is `verts e i`; `vertDim v` is the dimension of the
model entity that vertex `v` lies on; `ids` are the materials, if there are any. -/
structure MassMesh (K : Type) where
  dim : Nat
  nelems : Nat
  nverts : Nat
  verts : Nat → Nat → Nat
  vertDim : Nat → Int
  ids : Option (Nat → Int)
  size : Nat → K

/-- The material of an element. -/
def MassMesh.material {K : Type} (m : MassMesh K) (e : Nat) : Int := match m.ids with
  | some f => f e
  | none => 1

/-- Element `e` has a vertex on the boundary of the model. -/
def MassMesh.touches {K : Type} (m : MassMesh K) (e : Nat) : Prop := ∃ i, i ≤ m.dim ∧ m.vertDim (m.verts e i) ≠ m.dim

/-- The arrays that hold the mesh. -/
def MassMesh.arrays {K : Type} (m : MassMesh K) : ElemMesh K :=
  { dim := m.dim, nelems := m.nelems, elemVerts := tableOf (List.range m.nelems) (m.dim + 1) m.verts,
    vertClassDims := (List.range m.nverts).map m.vertDim, classIds := m.ids.map (fun f => (List.range m.nelems).map f),
    sizes := (List.range m.nelems).map m.size }

/-- A mesh with a density of several components and the error recorded for it, at each element. -/
structure MassState (K : Type) where
  mesh : MassMesh K
  density : Nat → Nat → K
  error : Nat → Nat → K

/-- What the density and its error say was there at first in the materials `C`: the integral of component `j` of the
density minus the errors recorded. -/
def MassState.accounted {K : Type} [Field K] (σ : MassState K) (C : Int → Bool) (j : Nat) : K :=
  (((List.range σ.mesh.nelems).filter (fun e => C (σ.mesh.material e))).map (fun e => σ.density e j * σ.mesh.size e - σ.error e j)).sum

/-- What component `j` of a density amounts to in the elements `l` of materials `C`. -/
def MassState.amount {K : Type} [Field K] (σ : MassState K) (C : Int → Bool) (j : Nat) (l : List Nat) : K :=
  ((l.filter (fun e => C (σ.mesh.material e))).map (fun e => σ.density e j * σ.mesh.size e)).sum

/-- The errors recorded in the materials `C`. -/
def MassState.recorded {K : Type} [Field K] (σ : MassState K) (C : Int → Bool) (j : Nat) : K :=
  (((List.range σ.mesh.nelems).filter (fun e => C (σ.mesh.material e))).map (fun e => σ.error e j)).sum

/-- A modification of a mesh: each key is an entity `ent k` whose old elements `around (ent k)` are replaced by `made k`; the
other elements are kept, as the pairs `same` say. `entDim` is the dimension of the model entity that an entity lies on. -/
structure MassChange where
  nkeys : Nat
  nents : Nat
  ent : Nat → Nat
  around : Nat → List Nat
  made : Nat → List Nat
  entDim : Nat → Int
  same : List (Nat × Nat)

/-- Key `k` lies on the boundary of the model. -/
def MassChange.onBoundary {K : Type} (b : MassChange) (old : MassMesh K) (k : Nat) : Prop := b.entDim (b.ent k) < old.dim

/-- The modification takes one mesh to the other. -/
structure MassChange.Sound {K : Type} [Zero K] [LT K] (b : MassChange) (old new : MassMesh K) : Prop where
  some_elems : old.nelems ≠ 0
  verts_in : ∀ e, e < old.nelems → ∀ i, i ≤ old.dim → old.verts e i < old.nverts
  sizes : ∀ e, e < new.nelems → 0 < new.size e
  ents_in : ∀ k, k < b.nkeys → b.ent k < b.nents
  old_parts : (b.same.map Prod.fst ++ (List.range b.nkeys).flatMap (fun k => b.around (b.ent k))).Perm (List.range old.nelems)
  new_parts : (b.same.map Prod.snd ++ (List.range b.nkeys).flatMap b.made).Perm (List.range new.nelems)
  kept : ∀ p ∈ b.same, new.size p.2 = old.size p.1 ∧ new.material p.2 = old.material p.1
  few : ∀ k, k < b.nkeys → (b.around (b.ent k)).length ≤ 127 ∧ (b.made k).length ≤ 127
  boundary_key : ∀ k, k < b.nkeys → b.onBoundary old k → ∃ e ∈ b.around (b.ent k), old.touches e
  inside_key : ∀ k, k < b.nkeys → ¬ b.onBoundary old k → ∃ c, ∀ e ∈ b.around (b.ent k), old.material e = c
  materials : ∀ k, k < b.nkeys → ∀ c, (∃ e ∈ b.around (b.ent k), old.material e = c) ↔ ∃ e ∈ b.made k, new.material e = c

/-- The three situations of a key, as `BdryStatus` has them. -/
inductive BdryCase where
  | inside | touching | onBdry
deriving DecidableEq

/-- Which situation key `k` is in. -/
def MassChange.inCase {K : Type} (b : MassChange) (old : MassMesh K) (k : Nat) : BdryCase → Prop
  | .onBdry => b.onBoundary old k
  | .touching => ¬ b.onBoundary old k ∧ ∃ e ∈ b.around (b.ent k), old.touches e
  | .inside => ¬ ∃ e ∈ b.around (b.ent k), old.touches e

/-- Which of the flags of an operation apply. -/
def flagsFor (flags : ConservedBools × ConservedBools × ConservedBools) : BdryCase → ConservedBools
  | .inside => flags.1
  | .touching => flags.2.1
  | .onBdry => flags.2.2

/-- `σ'` is `σ` after the modification `b`: the densities are given, and the errors are those that `conserveErrors`
computes from the arrays. -/
def Recorded {K : Type} [Field K] [DecidableEq K] (flags : ConservedBools × ConservedBools × ConservedBools) (w : Nat) (b : MassChange)
    (σ σ' : MassState K) : Prop :=
  ∃ (s : Nat → Sched) (fuel : Nat), 128 ≤ fuel ∧
    conserveErrors s fuel flags σ.mesh.arrays σ'.mesh.arrays (graphOn (List.range b.nents) b.around) ((List.range b.nents).map b.entDim)
      ((List.range b.nkeys).map b.ent) (graphOn (List.range b.nkeys) b.made).a2ab (graphOn (List.range b.nkeys) b.made).ab2b
      (b.same.map Prod.fst) (b.same.map Prod.snd) (tableOf (List.range σ.mesh.nelems) w σ.density)
      (tableOf (List.range σ'.mesh.nelems) w σ'.density) (tableOf (List.range σ.mesh.nelems) w σ.error) w
    = some (tableOf (List.range σ'.mesh.nelems) w σ'.error)

/-- The densities are as the flags say: kept elements keep theirs, and where the operation claims to conserve, it does. -/
structure DensitiesAs {K : Type} [Field K] (flags : ConservedBools × ConservedBools × ConservedBools) (w : Nat) (b : MassChange) (σ σ' : MassState K) : Prop where
  kept : ∀ p ∈ b.same, ∀ j, j < w → σ'.density p.2 j = σ.density p.1 j
  conserved : ∀ k, k < b.nkeys → ∀ t, b.inCase σ.mesh k t → (flagsFor flags t).thisTime = true → ∀ C j, j < w →
    σ'.amount C j (b.made k) = σ.amount C j (b.around (b.ent k))

/-- Where the flags say that the operations always conserve, there is no error. -/
def NoErrorWhereAlways {K : Type} [Field K] (flags : ConservedBools × ConservedBools × ConservedBools) (w : Nat) (b : MassChange) (σ : MassState K) : Prop :=
  ∀ k, k < b.nkeys → ∀ t, b.inCase σ.mesh k t → (flagsFor flags t).always = true → ∀ e ∈ b.around (b.ent k), ∀ j, j < w → σ.error e j = 0

end OmegaH.Spec

namespace OmegaH.Spec

/-- A history of modifications, each with the errors recorded after it. -/
inductive History {K : Type} [Field K] [LinearOrder K] (flagsOf : ConserveOp → ConservedBools × ConservedBools × ConservedBools) (w : Nat)
    (σ : MassState K) : MassState K → Prop
  | none : History flagsOf w σ σ
  | step {σ₁ σ₂ : MassState K} (op : ConserveOp) (b : MassChange) : History flagsOf w σ σ₁ → b.Sound σ₁.mesh σ₂.mesh →
      DensitiesAs (flagsOf op) w b σ₁ σ₂ → Recorded (flagsOf op) w b σ₁ σ₂ → History flagsOf w σ σ₂

/-- The same, where moreover there is no error at the elements around keys inside the model. -/
inductive CleanHistory {K : Type} [Field K] [LinearOrder K] (flagsOf : ConserveOp → ConservedBools × ConservedBools × ConservedBools) (w : Nat)
    (σ : MassState K) : MassState K → Prop
  | none : CleanHistory flagsOf w σ σ
  | step {σ₁ σ₂ : MassState K} (op : ConserveOp) (b : MassChange) : CleanHistory flagsOf w σ σ₁ → b.Sound σ₁.mesh σ₂.mesh →
      DensitiesAs (flagsOf op) w b σ₁ σ₂ → NoErrorWhereAlways (flagsOf op) w b σ₁ → Recorded (flagsOf op) w b σ₁ σ₂ → CleanHistory flagsOf w σ σ₂

end OmegaH.Spec
