import Verif.Model.Offer
import Verif.Spec.Closure
import Verif.Spec.Correct
/-!
# Layers of elements around bad ones
-/
namespace OmegaH.Spec

/-- Elements `x` and `y`, identified by the copies that own them, share a side, as the owner of `x` sees it. -/
def MarkWorld.Adjacent (W : MarkWorld) (dual : Nat → Graph) (dim : Nat) (x y : Nat × Nat) : Prop :=
  ∃ h, Beside (dual x.1) x.2 h ∧ W.owner dim x.1 h = y

/-- `dual r` is the graph of neighbours on rank `r`; owners see all neighbours, so that neighbours see each other. -/
structure MarkWorld.DualOk (W : MarkWorld) (n dim : Nat) (dual : Nat → Graph) : Prop where
  good : ∀ r, r < n → GoodGraph (dual r) ((W.rank r).nents dim) ((W.rank r).nents dim)
  both : ∀ x y, W.IsEntity n dim x → W.Adjacent dual dim x y → W.Adjacent dual dim y x

/-- An element in `B` can be reached in exactly `k` steps, each from an element to a neighbour. -/
def StepsTo {X : Type} (adj : X → X → Prop) (B : X → Prop) : Nat → X → Prop
  | 0, x => B x
  | k + 1, x => ∃ y, adj x y ∧ StepsTo adj B k y

/-- An element in `B` is at most `k` layers away. -/
def WithinLayers {X : Type} (adj : X → X → Prop) (B : X → Prop) (k : Nat) (x : X) : Prop := ∃ j, j ≤ k ∧ StepsTo adj B j x

/-- An element without neighbours. -/
def Lone {X : Type} (adj : X → X → Prop) (x : X) : Prop := ¬ ∃ y, adj x y

/-- The elements with a mark other than zero are, on every copy, those in `M`. -/
def MarkWorld.Offers (W : MarkWorld) (n dim : Nat) (marks : Nat → List Int) (M : Nat × Nat → Prop) : Prop :=
  ∀ r, r < n → (marks r).length = (W.rank r).nents dim ∧
    ∀ e, e < (W.rank r).nents dim → ((∃ v, (marks r)[e]? = some v ∧ v ≠ 0) ↔ M (W.owner dim r e))

/-- The qualities of copies are those of owners. -/
def MarkWorld.QualsOk {K : Type} (W : MarkWorld) (n dim : Nat) (quals : Nat → List K) (Q : Nat × Nat → K) : Prop :=
  ∀ r, r < n → (quals r).length = (W.rank r).nents dim ∧ ∀ e, e < (W.rank r).nents dim → (quals r)[e]? = some (Q (W.owner dim r e))

/-- Two elements of one rank share a side. `sideElems t` are the elements at side `t`, and `sides e i` is side `i` of element `e`. -/
def ShareSide (dim : Nat) (sides : Nat → Nat → Nat) (sideElems : Nat → List Nat) (e h : Nat) : Prop :=
  h ≠ e ∧ ∃ i, i < dim + 1 ∧ h ∈ sideElems (sides e i)

/-- The edges that swapping is to be tried on, if these elements are offered: the ones inside the domain that bound an offered
element. -/
def SwapEdge (W : MarkWorld) (n dim : Nat) (offered : Nat × Nat → Prop) (x : Nat × Nat) : Prop :=
  (∃ i, W.ClassedOn 1 x dim i) ∧ ∃ y, W.Bounds n 1 dim x y ∧ offered y

end OmegaH.Spec
