import Verif.Model.Res
import Mathlib.Order.Defs.LinearOrder
/-!
# The driver of adaptation: src/Omega_h_adapt.cpp

`S` is everything the program holds: the mesh with its data. The passes are parameters here; what they do is modelled in `Model/Coarsen`,
`Model/Collapse`, `Model/RefineQual` and `Model/SwapChoice`. Printing is left out. The build is without EGADS.
-/
namespace OmegaH

/-- The options that the driver reads: src/Omega_h_adapt.hpp:53-77. -/
structure AdaptLimits (K : Type) where
  minQualityAllowed : K
  minQualityDesired : K
  minLength : K
  maxLength : K
  nsliverLayers : Int
  shouldRefine : Bool
  shouldCoarsen : Bool
  shouldSwap : Bool
  shouldCoarsenSlivers : Bool

/-- What the driver calls. `quality`, `shortest` and `longest` are the least quality and the least and greatest length over all ranks;
`fieldsThere` is `TransferOpts::validate`: src/Omega_h_adapt.cpp:29-51. -/
structure AdaptParts (S K : Type) where
  simplices : S → Bool
  fieldsThere : S → Bool
  quality : S → K
  shortest : S → K
  longest : S → K
  refine : S → Res (S × Bool)
  coarsen : S → Res (S × Bool)
  swap : S → Res (S × Bool)
  slivers : S → Res (S × Bool)
  setup : S → Res S
  correct : S → Res S
  elemBased : S → Res S

variable {S K : Type} [LinearOrder K]

/-- `print_adapt_status`: src/Omega_h_adapt.cpp:113-123. -/
def adaptDone (o : AdaptLimits K) (p : AdaptParts S K) (s : S) : Bool :=
  decide (o.minQualityDesired ≤ p.quality s) && decide (o.minLength ≤ p.shortest s) && decide (p.longest s ≤ o.maxLength)

/-- `validate`: src/Omega_h_adapt.cpp:144-155. `zero` and `one` are the numbers. -/
def validOpts (zero one : K) (o : AdaptLimits K) : Bool :=
  decide (zero ≤ o.minQualityAllowed) && decide (o.minQualityAllowed ≤ o.minQualityDesired) && decide (o.minQualityDesired ≤ one) &&
    decide (0 ≤ o.nsliverLayers) && decide (o.nsliverLayers < 100)

/-- A pass that the options may turn off. -/
def optionalPass (on : Bool) (f : S → Res (S × Bool)) (s : S) : Res (S × Bool) := if on then f s else .ok (s, false)

/-- One turn of the loop in `satisfy_lengths`: src/Omega_h_adapt.cpp:179-188. -/
def lengthsTurn (o : AdaptLimits K) (p : AdaptParts S K) (s : S) : Res (S × Bool) :=
  (optionalPass o.shouldRefine p.refine s).bind (fun r =>
    (optionalPass o.shouldCoarsen p.coarsen r.1).bind (fun c => .ok (c.1, r.2 || c.2)))

/-- `satisfy_lengths`: src/Omega_h_adapt.cpp:175-190. Absent: not ended after that many turns. -/
def satisfyLengths (o : AdaptLimits K) (p : AdaptParts S K) : Nat → S → Option (Res S)
  | 0, _ => none
  | n + 1, s =>
    match lengthsTurn o p s with
    | .ok (s', true) => satisfyLengths o p n s'
    | .ok (s', false) => some (.ok s')
    | .fail => some .fail
    | .ub => some .ub

/-- One turn of the loop in `satisfy_quality`: src/Omega_h_adapt.cpp:198-208. -/
def qualityTurn (o : AdaptLimits K) (p : AdaptParts S K) (s : S) : Res (S × Bool) :=
  (optionalPass o.shouldSwap p.swap s).bind (fun r => if r.2 then .ok r else optionalPass o.shouldCoarsenSlivers p.slivers r.1)

/-- The loop in `satisfy_quality`: src/Omega_h_adapt.cpp:198-210. -/
def qualityLoop (o : AdaptLimits K) (p : AdaptParts S K) : Nat → S → Option (Res (S × Bool))
  | 0, _ => none
  | n + 1, s =>
    match qualityTurn o p s with
    | .ok (s', true) => if p.quality s' < o.minQualityDesired then qualityLoop o p n s' else some (.ok (s', true))
    | .ok (s', false) => some (.ok (s', false))
    | .fail => some .fail
    | .ub => some .ub

/-- `satisfy_quality`: src/Omega_h_adapt.cpp:192-211. -/
def satisfyQuality (o : AdaptLimits K) (p : AdaptParts S K) (n : Nat) (s : S) : Option (Res (S × Bool)) :=
  if o.minQualityDesired ≤ p.quality s then some (.ok (s, true)) else qualityLoop o p n s

/-- `pre_adapt`: src/Omega_h_adapt.cpp:157-171. -/
def preAdapt (zero one : K) (o : AdaptLimits K) (p : AdaptParts S K) (s : S) : Res Bool :=
  if validOpts zero one o then (if p.fieldsThere s then .ok (!adaptDone o p s) else .fail) else .fail

/-- `adapt` after `pre_adapt`: src/Omega_h_adapt.cpp:278-286. -/
def adaptRun (o : AdaptLimits K) (p : AdaptParts S K) (n : Nat) (s : S) : Option (Res S) :=
  match p.setup s with
  | .ok s0 =>
    match satisfyLengths o p n s0 with
    | some (.ok s1) =>
      match satisfyQuality o p n s1 with
      | some (.ok (s2, _)) => some ((p.correct s2).bind p.elemBased)
      | some .fail => some .fail
      | some .ub => some .ub
      | none => none
    | some .fail => some .fail
    | some .ub => some .ub
    | none => none
  | .fail => some .fail
  | .ub => some .ub

/-- `adapt`: src/Omega_h_adapt.cpp:273-289. -/
def adapt (zero one : K) (o : AdaptLimits K) (p : AdaptParts S K) (n : Nat) (s : S) : Option (Res (S × Bool)) :=
  if p.simplices s then
    match preAdapt zero one o p s with
    | .ok true => (adaptRun o p n s).map (fun r => r.bind (fun s' => .ok (s', true)))
    | .ok false => some (.ok (s, false))
    | .fail => some .fail
    | .ub => some .ub
  else some .fail

end OmegaH
