import Verif.Model.Stats
/-!
# Moving a mesh by steps: src/Omega_h_approach.cpp

The part of a mesh that is moved: coordinates, metric, the fields that say where to go, and what is cached about the present coordinates and metric.
How lengths, qualities and logarithms of metrics are computed is a parameter. Real numbers are exact.
-/
namespace OmegaH

/-- What one rank has: tags of vertices (`coordinates`, `metric`, `warp`, `target_metric`) and the cached tags `length`, `quality`, `size`. -/
structure MovedRank (K : Type) where
  nverts : Nat
  coords : List K
  metric : List K
  warp : Option (List K)
  target : Option (List K)
  lengths : Option (List K)
  quals : Option (List K)
  sizes : Option (List K)
deriving Inhabited, DecidableEq, Repr

/-- How `measure_edges_metric` and `measure_qualities` get lengths and qualities from coordinates and metric on a rank, and how `linearize_metrics` and
`delinearize_metrics` convert an array of metrics; parameters. -/
structure Measures (K : Type) where
  lengths : Nat → List K → List K → List K
  quals : Nat → List K → List K → List K
  linearize : List K → List K
  delinearize : List K → List K

/-- The limits of `AdaptOpts` that matter here; the space dimension. -/
structure MoveOpts (K : Type) where
  dim : Nat
  minQualityAllowed : K
  maxLengthAllowed : K

section
variable {K : Type}

/-- The check of `Mesh::set_tag`, in `divide_no_remainder`: src/Omega_h_mesh.cpp:161-165 with src/Omega_h_scalar.hpp:280-284. -/
def canSetTag (m : MovedRank K) (a : List K) : Bool := decide (m.nverts ≠ 0) && decide (a.length % m.nverts = 0)

/-- `Mesh::set_coords` with what it invalidates: src/Omega_h_mesh.cpp:365-368, 167-177. -/
def setCoords (dim : Nat) (a : List K) (m : MovedRank K) : Option (MovedRank K) :=
  if a.length = m.nverts * dim then
    if canSetTag m a then some { m with coords := a, lengths := none, quals := none, sizes := none } else none
  else none

/-- `set_tag` of the metric: src/Omega_h_mesh.cpp:161-177. -/
def setMetric (a : List K) (m : MovedRank K) : Option (MovedRank K) :=
  if canSetTag m a then some { m with metric := a, lengths := none, quals := none } else none

/-- `set_tag` of the warp: src/Omega_h_mesh.cpp:161-177. -/
def setWarp (a : List K) (m : MovedRank K) : Option (MovedRank K) :=
  if canSetTag m a then some { m with warp := some a } else none

/-- `Mesh::ask_lengths`: src/Omega_h_mesh.cpp:374-380; the mesh afterwards and the lengths. -/
def askLengths (ms : Measures K) (r : Nat) (m : MovedRank K) : MovedRank K × List K :=
  match m.lengths with
  | some l => (m, l)
  | none => ({ m with lengths := some (ms.lengths r m.coords m.metric) }, ms.lengths r m.coords m.metric)

/-- `Mesh::ask_qualities`: src/Omega_h_mesh.cpp:382-388. -/
def askQuals (ms : Measures K) (r : Nat) (m : MovedRank K) : MovedRank K × List K :=
  match m.quals with
  | some q => (m, q)
  | none => ({ m with quals := some (ms.quals r m.coords m.metric) }, ms.quals r m.coords m.metric)

end

section
variable {K : Type} [Field K] [LinearOrder K]

/-- The same array operation with every rank's own array. -/
def zipRanks {α β γ : Type} (a : List α) (b : List β) (f : Nat → α → β → Option γ) : Option (List γ) :=
  onRanks a (fun r x => (b[r]?).bind (f r x))

/-- `okay`: src/Omega_h_approach.cpp:24-34, with `min_fixable_quality` (src/Omega_h_adapt.cpp:95-97) and `Mesh::max_length`
(src/Omega_h_mesh.cpp:703-706); the answer and the mesh, of which more is cached then. -/
def okay (t : Nat → Nat → Team) (rt : Nat → RankTree) (small big : K) (ms : Measures K) (o : MoveOpts K) (mesh : List (MovedRank K)) :
    Option (Bool × List (MovedRank K)) :=
  (onRanks mesh (fun r m => some (askQuals ms r m))).bind (fun q =>
  (globalMin (t 0) (rt 0) big (q.map Prod.snd)).bind (fun minq =>
  if minq < o.minQualityAllowed then some (false, q.map Prod.fst)
  else
    (onRanks (q.map Prod.fst) (fun r m => some (askLengths ms r m))).bind (fun l =>
    (globalMax (t 1) (rt 1) small (l.map Prod.snd)).map (fun maxl =>
      (!decide (maxl > o.maxLengthAllowed), l.map Prod.fst)))))

/-- `check_okay`: src/Omega_h_approach.cpp:11-22; `none` if it ends the program. -/
def checkOkay (t : Nat → Nat → Team) (rt : Nat → RankTree) (small big : K) (ms : Measures K) (o : MoveOpts K) (mesh : List (MovedRank K)) :
    Option (List (MovedRank K)) :=
  (okay t rt small big ms o mesh).bind (fun x => if x.1 then some x.2 else none)

/-- The loop of `warp_to_limit`: src/Omega_h_approach.cpp:52-75; `left` is how often `++i` stays within `max_niters`. -/
def warpLoop (s : Nat → Nat → Nat → Sched) (t : Nat → Nat → Nat → Team) (rt : Nat → Nat → RankTree) (small big : K) (ms : Measures K) (o : MoveOpts K)
    (exitOnStall : Bool) (coords : List (List K)) :
    Nat → List (List K) → List (List K) → List (MovedRank K) → Option (Bool × List (MovedRank K))
  | 0, _, _, mesh => if exitOnStall then some (true, mesh.map (fun m => { m with warp := none })) else none
  | left + 1, warp, remainder, mesh =>
    (onRanks warp (fun r w => mapEach (s (4 * left) r 0) (fun x => some (x / 2)) w)).bind (fun half =>
    (zipRanks remainder half (fun r a b => zipEach (s (4 * left + 1) r 0) (fun x y => some (x + y)) a b)).bind (fun rest =>
    (zipRanks coords half (fun r a b => zipEach (s (4 * left + 2) r 0) (fun x y => some (x + y)) a b)).bind (fun moved =>
    (zipRanks mesh moved (fun _ m a => setCoords o.dim a m)).bind (fun mesh =>
    (okay (t left) (rt left) small big ms o mesh).bind (fun x =>
      if x.1 then (zipRanks x.2 rest (fun _ m a => setWarp a m)).map (fun mesh => (true, mesh))
      else warpLoop s t rt small big ms o exitOnStall coords left half rest x.2)))))

/-- `warp_to_limit`: src/Omega_h_approach.cpp:36-81. All ranks have the tag or none has. -/
def warpToLimit (s : Nat → Nat → Nat → Sched) (t : Nat → Nat → Nat → Team) (rt : Nat → Nat → RankTree) (small big : K) (ms : Measures K) (o : MoveOpts K)
    (exitOnStall : Bool) (maxNiters : Nat) (mesh : List (MovedRank K)) : Option (Bool × List (MovedRank K)) :=
  match mesh.mapM (fun m => m.warp) with
  | none => some (false, mesh)
  | some warp =>
    (checkOkay (t maxNiters) (rt maxNiters) small big ms o mesh).bind (fun mesh =>
    (zipRanks (mesh.map (fun m => m.coords)) warp (fun r a b => zipEach (s (4 * maxNiters) r 0) (fun x y => some (x + y)) a b)).bind (fun moved =>
    (zipRanks mesh moved (fun _ m a => setCoords o.dim a m)).bind (fun moving =>
    (okay (t (maxNiters + 1)) (rt (maxNiters + 1)) small big ms o moving).bind (fun x =>
      if x.1 then some (true, x.2.map (fun m => { m with warp := none }))
      else warpLoop s t rt small big ms o exitOnStall (mesh.map (fun m => m.coords)) maxNiters warp (warp.map (fun w => w.map (fun _ => 0))) x.2))))

/-- `interpolate_between_metrics`: src/Omega_h_metric.cpp:106-111 with `interpolate_between`, src/Omega_h_array_ops.cpp:567-574. -/
def interpolateMetrics (s : Sched) (ms : Measures K) (a b : List K) (f : K) : Option (List K) :=
  (zipEach s (fun x y => some (x * (1 - f) + y * f)) (ms.linearize a) (ms.linearize b)).map ms.delinearize

/-- How a loop that has no limit of its own stands after a number of steps. -/
inductive Looped (α : Type) where
  | running
  | failed
  | done (a : α)
deriving DecidableEq, Repr

def Looped.map {α β : Type} (f : α → β) : Looped α → Looped β
  | .running => .running
  | .failed => .failed
  | .done a => .done (f a)

/-- The body of the loop of `approach_metric` after the check of the step: src/Omega_h_approach.cpp:118-121. -/
def approachStep (s : Nat → Sched) (t : Nat → Nat → Team) (rt : Nat → RankTree) (small big : K) (ms : Measures K) (o : MoveOpts K)
    (orig target : List (List K)) (factor : K) (mesh : List (MovedRank K)) : Option (Bool × List (MovedRank K)) :=
  (zipRanks orig target (fun r a b => interpolateMetrics (s r) ms a b factor)).bind (fun current =>
  (zipRanks mesh current (fun _ m a => setMetric a m)).bind (okay t rt small big ms o))

/-- The loop of `approach_metric`: src/Omega_h_approach.cpp:95-121. -/
def approachLoop (s : Nat → Nat → Sched) (t : Nat → Nat → Nat → Team) (rt : Nat → Nat → RankTree) (small big minStep : K) (ms : Measures K) (o : MoveOpts K)
    (orig target : List (List K)) : Nat → K → List (MovedRank K) → Looped (List (MovedRank K))
  | 0, _, _ => .running
  | steps + 1, factor, mesh =>
    if factor / 2 < minStep then .failed
    else
      match approachStep (s steps) (t steps) (rt steps) small big ms o orig target (factor / 2) mesh with
      | none => .failed
      | some (true, mesh) => .done mesh
      | some (false, mesh) => approachLoop s t rt small big minStep ms o orig target steps (factor / 2) mesh

/-- The beginning of `approach_metric`: src/Omega_h_approach.cpp:87-93; the mesh that was there, and the answer for the target with the mesh that has it. -/
def approachStart (t : Nat → Nat → Nat → Team) (rt : Nat → Nat → RankTree) (small big : K) (ms : Measures K) (o : MoveOpts K) (steps : Nat)
    (target : List (List K)) (mesh : List (MovedRank K)) : Option (List (MovedRank K) × Bool × List (MovedRank K)) :=
  (checkOkay (t steps) (rt steps) small big ms o mesh).bind (fun mesh =>
  (zipRanks mesh target (fun _ m a => setMetric a m)).bind (fun moving =>
  (okay (t (steps + 1)) (rt (steps + 1)) small big ms o moving).map (fun x => (mesh, x))))

/-- `approach_metric`, of which the loop is followed for some steps: src/Omega_h_approach.cpp:83-126. -/
def approachMetric (s : Nat → Nat → Sched) (t : Nat → Nat → Nat → Team) (rt : Nat → Nat → RankTree) (small big minStep : K) (ms : Measures K) (o : MoveOpts K)
    (steps : Nat) (mesh : List (MovedRank K)) : Looped (Bool × List (MovedRank K)) :=
  match mesh.mapM (fun m => m.target) with
  | none => .done (false, mesh)
  | some target =>
    match approachStart t rt small big ms o steps target mesh with
    | none => .failed
    | some (_, true, moved) => .done (true, moved.map (fun m => { m with target := none }))
    | some (mesh, false, moving) =>
      (approachLoop s t rt small big minStep ms o (mesh.map (fun m => m.metric)) target steps 1 moving).map (fun mesh => (true, mesh))

end

end OmegaH
