import Verif.Spec.Dist
import Mathlib.Algebra.Field.Basic
import Mathlib.Algebra.Order.Field.Basic
/-!
# Every entity once

The entities of the whole mesh are `0 .. N - 1`; rank `r` holds copies of those in `ents r`.
-/
namespace OmegaH.Spec

/-- Copy `i` of rank `r` is owned; if there is no array, then all are. -/
def IsOwned (owned : Option (Nat → List Int)) (r i : Nat) : Prop :=
  match owned with
  | none => True
  | some o => (o r)[i]? = some 1

/-- Every entity has exactly one copy that is owned. -/
structure OneOwner (n N : Nat) (ents : Nat → List Nat) (owned : Option (Nat → List Int)) : Prop where
  ranks : 0 < n
  names : ∀ r, r < n → ∀ g ∈ ents r, g < N
  len : ∀ o, owned = some o → ∀ r, r < n → (o r).length = (ents r).length ∧ ∀ x ∈ o r, x = 0 ∨ x = 1
  some_ : ∀ g, g < N → ∃ r i, r < n ∧ (ents r)[i]? = some g ∧ IsOwned owned r i
  once : ∀ g r i r' i', r < n → r' < n → (ents r)[i]? = some g → (ents r')[i']? = some g → IsOwned owned r i → IsOwned owned r' i' →
    r = r' ∧ i = i'

/-- The number of entities with a property. -/
def howMany (N : Nat) (p : Nat → Prop) [DecidablePred p] : Nat := ((List.range N).filter (fun g => p g)).length

/-- The value `x` is in part `i` of the interval from `lo` to `hi`, which is divided into `nbins` equal parts; only the last one contains its
upper end. -/
def InBin {K : Type} [Field K] [LinearOrder K] (lo hi : K) (nbins i : Nat) (x : K) : Prop :=
  lo + (i : K) * ((hi - lo) / (nbins : K)) ≤ x ∧ (if i + 1 = nbins then x ≤ hi else x < lo + ((i + 1 : Nat) : K) * ((hi - lo) / (nbins : K)))

instance {K : Type} [Field K] [LinearOrder K] (lo hi : K) (nbins i : Nat) (x : K) : Decidable (InBin lo hi nbins i x) := by
  unfold InBin
  infer_instance

end OmegaH.Spec
