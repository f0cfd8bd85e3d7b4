import Verif.Model.Res
import Verif.Model.Vtk
import Mathlib.Algebra.Field.Defs
import Mathlib.Order.Defs.LinearOrder

/-! # Generating metrics from a list of sources

The metrics of all vertices are one value of a type `M`; what is done to them at one time is a
parameter. src/Omega_h_metric_input.cpp -/

namespace OmegaH

/-- One source: the metrics computed from it and whether they may be scaled. The computation from
the type, the tag and the knob (lines 150-189) is not modelled here.
src/Omega_h_adapt.hpp:94-105 -/
structure MetricSource (M : Type) where
  metrics : M
  scales : Bool

/-- `MetricInput`, without what is only printed. Smoothing and gradation are in `MetricOps.finish`.
src/Omega_h_adapt.hpp:107-123 -/
structure MetricInput (K M : Type) where
  sources : List (MetricSource M)
  limitLengths : Bool
  minLength : K
  maxLength : K
  limitCount : Bool
  minCount : K
  maxCount : K
  overRelaxation : K

/-- What is done to the metrics of all vertices: `multiply_each_by`, `clamp_metrics`,
`intersect_metrics`, smoothing and limiting of gradation, `get_expected_nelems` and
`get_metric_scalar_for_nelems`. -/
structure MetricOps (K M : Type) where
  scale : K → M → M
  clamp : K → K → M → M
  inter : M → M → M
  finish : M → M
  count : M → K
  factor : K → K → K

section
variable {K M : Type} [Field K] [LinearOrder K]

/-- What is taken from one source. src/Omega_h_metric_input.cpp:201-212 -/
def sourceMetrics (ops : MetricOps K M) (inp : MetricInput K M) (scalar : K)
    (s : MetricSource M) : M :=
  let m := if s.scales then ops.scale scalar s.metrics else s.metrics
  if inp.limitLengths then ops.clamp inp.minLength inp.maxLength m else m

/-- One round: all sources, intersected from left to right, then smoothed and graded; there is a
first source. src/Omega_h_metric_input.cpp:200-226 -/
def metricRound (ops : MetricOps K M) (inp : MetricInput K M) (first : MetricSource M)
    (rest : List (MetricSource M)) (scalar : K) : M :=
  ops.finish (rest.foldl (fun m s => ops.inter m (sourceMetrics ops inp scalar s))
    (sourceMetrics ops inp scalar first))

/-- The rounds that are left; none left is the failure at the start of the loop.
src/Omega_h_metric_input.cpp:196-242 -/
def metricLoop (ops : MetricOps K M) (inp : MetricInput K M) (first : MetricSource M)
    (rest : List (MetricSource M)) : Nat → K → Res M
  | 0, _ => .fail
  | left + 1, scalar =>
    let m := metricRound ops inp first rest scalar
    if inp.limitCount = false then .ok m
    else
      let n := ops.count m
      if n > inp.maxCount then
        metricLoop ops inp first rest left
          (scalar * ops.factor n inp.maxCount / inp.overRelaxation)
      else if n < inp.minCount then
        metricLoop ops inp first rest left
          (scalar * ops.factor n inp.minCount * inp.overRelaxation)
      else .ok m

/-- `generate_metrics`, with the checks made first. src/Omega_h_metric_input.cpp:140-254 -/
def generateMetrics (ops : MetricOps K M) (inp : MetricInput K M) : Res M :=
  if inp.limitLengths = true ∧ ¬ inp.minLength ≤ inp.maxLength then .fail
  else if inp.limitCount = true ∧ ¬ inp.minLength ≤ inp.maxLength then .fail
  else
    match inp.sources with
    | [] => .fail
    | first :: rest => metricLoop ops inp first rest 100 1
end

/-- What a tag of the name asked for is: of real numbers or not, and with how many components. -/
structure DerivTag where
  isReal : Bool
  ncomps : Nat

/-- The operations of the `switch` in `get_derivative_metrics`: `derive_element_gradients`,
`project_by_fit`, `derive_element_hessians`. -/
inductive DerivOp where
  | gradients
  | project
  | hessians
deriving DecidableEq, Repr

/-- The operations that `get_derivative_metrics` does on the data, given the tag of that name on
vertices and the one on elements, if any. `get_tagbase` fails if there is no tag.
src/Omega_h_metric_input.cpp:84-138 -/
def derivSteps (dim : Nat) (vertTag elemTag : Option DerivTag) : Res (List DerivOp) :=
  match vertTag with
  | some t =>
    if t.isReal then
      if t.ncomps = 1 then .ok [.gradients, .project, .hessians, .project]
      else if t.ncomps = dim then .ok [.hessians, .project]
      else if t.ncomps = symmNcomps dim then .ok []
      else .fail
    else .fail
  | none =>
    match elemTag with
    | none => .fail
    | some _ =>
      /- `get_tagbase(VERT, name)` -/
      match vertTag with
      | none => .fail
      | some t =>
        if t.isReal then
          if t.ncomps = dim then .ok [.project, .hessians, .project]
          else if t.ncomps = symmNcomps dim then .ok [.project]
          else .fail
        else .fail
end OmegaH
