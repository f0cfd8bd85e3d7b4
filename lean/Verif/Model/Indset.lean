import Verif.Model.Dist
import Verif.Model.Linpart

/-! # Independent sets: src/Omega_h_indset_inline.hpp, src/Omega_h_indset.cpp

States are `NOT_IN = 0`, `IN = 1`, `UNKNOWN = 2`. -/

namespace OmegaH

/-- The outcome of a computation with a loop that need not end, when it is given a number of rounds: a value, no end yet, a reported
failure, or undefined behaviour. -/
inductive Outcome (α : Type) where
  | done (a : α)
  | running
  | fail
  | ub
  deriving DecidableEq, Repr

/-- `QualityCompare::operator()`: src/Omega_h_indset.cpp:8-14. `ne` and `lt` are `!=` and `<` of the type of the qualities. -/
def qualityLess {K : Type} (ne lt : K → K → Bool) (quality : List K) (globals : List Int) (u v : Nat) : Option Bool :=
  (quality[v]?).bind (fun vq => (quality[u]?).bind (fun uq =>
    if ne uq vq then some (lt uq vq) else (globals[u]?).bind (fun ug => (globals[v]?).map (fun vg => decide (ug < vg)))))

/-- The first inner loop of `local_iteration`: src/Omega_h_indset_inline.hpp:24-30. Is a neighbor chosen? -/
def anyIn (adj : List Nat) (state : List Int) : List Nat → Option Bool
  | [] => some false
  | j :: js => (adj[j]?).bind (fun u => (state[u]?).bind (fun x => if x = 1 then some true else anyIn adj state js))

/-- The second inner loop: src/Omega_h_indset_inline.hpp:32-37. Are all neighbors that are not rejected smaller? -/
def allLess (less : Nat → Nat → Option Bool) (adj : List Nat) (state : List Int) (v : Nat) : List Nat → Option Bool
  | [] => some true
  | j :: js => (adj[j]?).bind (fun u => (state[u]?).bind (fun x =>
      if x = 0 then allLess less adj state v js
      else (less u v).bind (fun b => if b then allLess less adj state v js else some false)))

/-- The body of `local_iteration`: src/Omega_h_indset_inline.hpp:20-39. The new state, if one is written. -/
def indsetEntry (less : Nat → Nat → Option Bool) (xadj adj : List Nat) (state : List Int) (v : Nat) : Option (Option Int) :=
  (state[v]?).bind (fun x =>
    if x ≠ 2 then some none
    else (fanMembers xadj v).bind (fun js => (anyIn adj state js).bind (fun rejected =>
      if rejected then some (some 0)
      else (allLess less adj state v js).map (fun chosen => if chosen then some 1 else none))))

/-- `local_iteration`: src/Omega_h_indset_inline.hpp:14-43. -/
def localIteration (s : Sched) (less : Nat → Nat → Option Bool) (xadj adj : List Nat) (state : List Int) : Option (List Int) :=
  (parScatter s (xadj.length - 1) (fun v => (indsetEntry less xadj adj state v).map (fun o => o.toList.map (fun x => (v, x))))
    (Mem.ofList state)).bind Mem.toArray?

/-- What the ranks hold for `find_indset`: the graph, the candidates, the qualities and the global numbers. -/
structure IndsetRank (K : Type) where
  xadj : List Nat
  adj : List Nat
  candidates : List Int
  quality : List K
  globals : List Int

/-- `Mesh::sync_array`: src/Omega_h_mesh.cpp:583-588. `owners` is absent if entities of this dimension cannot be shared. -/
def syncStates (s : Nat → Nat → Sched) (owners : Option (List Remotes)) (state : List (List Int)) : Option (List (List Int)) :=
  match owners with
  | none => some state
  | some owners => (newDist s owners (owners.map (fun o => o.ranks.length))).bind (fun D =>
      Dist.exch (fun r k => s r (k + 10)) (D.map Dist.invert) 1 state)

/-- `iteration`: src/Omega_h_indset_inline.hpp:45-51. -/
def indsetRound {K : Type} (ne lt : K → K → Bool) (s : Nat → Nat → Sched) (owners : Option (List Remotes)) (ranks : List (IndsetRank K))
    (state : List (List Int)) : Option (List (List Int)) :=
  ((List.range ranks.length).mapM (fun r => (ranks[r]?).bind (fun k => (state[r]?).bind (fun st =>
    localIteration (s r 0) (qualityLess ne lt k.quality k.globals) k.xadj k.adj st)))).bind (fun st =>
  syncStates (fun r k => s r (k + 1)) owners st)

/-- The loop of `find`: src/Omega_h_indset_inline.hpp:66-70. `s k` are the schedules of round `k`. -/
def indsetLoop {K : Type} (ne lt : K → K → Bool) (s : Nat → Nat → Nat → Sched) (owners : Option (List Remotes)) (ranks : List (IndsetRank K)) :
    Nat → Nat → List (List Int) → Outcome (List (List Int))
  | rounds, k, state =>
    if commMax (-128) state = 2 then
      match rounds with
      | 0 => .running
      | rounds + 1 => match indsetRound ne lt (s k) owners ranks state with
        | none => .ub
        | some state' => indsetLoop ne lt s owners ranks rounds (k + 1) state'
    else .done state

/-- The initial state of one rank: src/Omega_h_indset_inline.hpp:58-65. -/
def indsetStart (s : Sched) (candidates : List Int) : Option (List Int) :=
  (parScatter s candidates.length (fun i => ((candidates[i]?).map (fun c => if c = 0 then (0 : Int) else 2)).map (fun v => [(i, v)]))
    (Mem.alloc candidates.length)).bind Mem.toArray?

/-- `find_indset` on a graph, run for a number of rounds: src/Omega_h_indset_inline.hpp:53-72, src/Omega_h_indset.cpp:17-25. -/
def findIndset {K : Type} (ne lt : K → K → Bool) (s0 : Nat → Sched) (s : Nat → Nat → Nat → Sched) (owners : Option (List Remotes))
    (ranks : List (IndsetRank K)) (rounds : Nat) : Outcome (List (List Int)) :=
  if ∀ k ∈ ranks, k.candidates.length + 1 = k.xadj.length then
    match (List.range ranks.length).mapM (fun r => (ranks[r]?).bind (fun k => indsetStart (s0 r) k.candidates)) with
    | none => .ub
    | some state => indsetLoop ne lt s owners ranks rounds 0 state
  else .fail

end OmegaH
