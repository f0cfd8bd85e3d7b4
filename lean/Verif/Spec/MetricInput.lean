import Verif.Model.MetricInput

/-! # What data on a mesh are derivatives of -/

namespace OmegaH.Spec

/-- Where data live and how many times they have been differentiated. -/
structure DerivKind where
  onVertices : Bool
  order : Nat
deriving DecidableEq

/-- How many numbers a derivative of a scalar has: one, a vector, a symmetric matrix. -/
def derivComps (dim : Nat) : Nat → Option Nat
  | 0 => some 1
  | 1 => some dim
  | 2 => some (dim * (dim + 1) / 2)
  | _ => none

/-- What an operation makes of data, if it can be done: differentiating takes data at vertices to
elements, fitting takes data on elements to vertices. -/
def derivEffect : DerivOp → DerivKind → Option DerivKind
  | .gradients, ⟨true, 0⟩ => some ⟨false, 1⟩
  | .hessians, ⟨true, 1⟩ => some ⟨false, 2⟩
  | .project, ⟨false, k⟩ => some ⟨true, k⟩
  | _, _ => none

def derivRun : List DerivOp → DerivKind → Option DerivKind
  | [], k => some k
  | op :: ops, k => (derivEffect op k).bind (derivRun ops)

end OmegaH.Spec
