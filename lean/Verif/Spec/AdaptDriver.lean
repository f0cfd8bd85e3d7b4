import Verif.Model.AdaptDriver
/-!
# What adapting does, as sequences of passes
-/
namespace OmegaH.Spec
variable {S K : Type} [LinearOrder K]

/-- The mesh is as desired. -/
def AsDesired (o : AdaptLimits K) (p : AdaptParts S K) (s : S) : Prop :=
  o.minQualityDesired ≤ p.quality s ∧ o.minLength ≤ p.shortest s ∧ p.longest s ≤ o.maxLength

/-- The options make sense. -/
def SensibleOpts (zero one : K) (o : AdaptLimits K) : Prop :=
  zero ≤ o.minQualityAllowed ∧ o.minQualityAllowed ≤ o.minQualityDesired ∧ o.minQualityDesired ≤ one ∧
    0 ≤ o.nsliverLayers ∧ o.nsliverLayers < 100

/-- Refining and coarsening by size, each only if it is wanted. -/
inductive LengthPasses (o : AdaptLimits K) (p : AdaptParts S K) : S → S → Prop
  | none (s : S) : LengthPasses o p s s
  | refine {s s' t : S} {b : Bool} : o.shouldRefine = true → p.refine s = .ok (s', b) → LengthPasses o p s' t → LengthPasses o p s t
  | coarsen {s s' t : S} {b : Bool} : o.shouldCoarsen = true → p.coarsen s = .ok (s', b) → LengthPasses o p s' t → LengthPasses o p s t

/-- Swapping, and coarsening slivers where swapping did nothing, each only if it is wanted and only while the quality is below the
desired one. -/
inductive QualityPasses (o : AdaptLimits K) (p : AdaptParts S K) : S → S → Prop
  | none (s : S) : QualityPasses o p s s
  | swap {s s' t : S} : p.quality s < o.minQualityDesired → o.shouldSwap = true → p.swap s = .ok (s', true) →
      QualityPasses o p s' t → QualityPasses o p s t
  | slivers {s r s' t : S} : p.quality s < o.minQualityDesired → (if o.shouldSwap then p.swap s = .ok (r, false) else r = s) →
      o.shouldCoarsenSlivers = true → p.slivers r = .ok (s', true) → QualityPasses o p s' t → QualityPasses o p s t

/-- A pass that says it did nothing leaves the mesh as it was. -/
def IdleKeeps (f : S → Res (S × Bool)) : Prop := ∀ s s', f s = .ok (s', false) → s' = s

/-- The pass has nothing to do here, or is not wanted. -/
def NothingToDo (on : Bool) (f : S → Res (S × Bool)) (s : S) : Prop := on = true → f s = .ok (s, false)

/-- What is true before the pass is true after it. -/
def PassKeeps (P : S → Prop) (f : S → Res (S × Bool)) : Prop := ∀ s s' b, P s → f s = .ok (s', b) → P s'

end OmegaH.Spec
