import Verif.Model.Marks
/-!
# Which edges swapping is tried on: src/Omega_h_swap.cpp
-/
namespace OmegaH

section
variable {K : Type} [LinearOrder K]

/-- The largest mark on all ranks, `get_max(comm, …)`: src/Omega_h_array_ops.cpp:47-58, 66-69. -/
def maxMark (t : Nat → Team) (rt : RankTree) (marks : List (List Int)) : Option Int :=
  (onRanks marks (fun r m => arrayMax (t r) (-128) m)).bind (fun maxes =>
  allreduce rt (fun x y => if x < y then y else x) maxes)

/-- The start of `coarsen_slivers` and of `swap_part1`, the elements whose surroundings are to be improved:
src/Omega_h_coarsen.cpp:211-217, src/Omega_h_swap.cpp:14-19. `none` is the failure of `OMEGA_H_CHECK`. -/
def sliverElems (s : Nat → Nat → Nat → Sched) (t : Nat → Team) (rt : RankTree) (owners : Option (List Remotes)) (duals : List Graph)
    (quals : List (List K)) (ceil : K) (nlayers : Nat) : Option (List (List Int)) :=
  (markSliverLayers s owners duals quals ceil nlayers).bind (fun marks =>
  (maxMark t rt marks).bind (fun m => if m = 1 then some marks else none))

/-- `swap_part1` on a ghosted mesh: src/Omega_h_swap.cpp:13-28. The result is the tag `candidate`, or nothing if there are no
candidates. -/
def swapPart1 (s : Nat → Nat → Nat → Sched) (t : Nat → Nat → Team) (rt : Nat → RankTree) (elemOwners edgeOwners : Option (List Remotes))
    (dim : Nat) (ranks : List MarkRank) (duals : List Graph) (quals : List (List K)) (ceil : K) (nlayers : Nat) :
    Option (Option (List (List Int))) :=
  (sliverElems s (t 0) (rt 0) elemOwners duals quals ceil nlayers).bind (fun elems =>
  (markDownRanks (s (nlayers + 1)) true edgeOwners ranks dim 1 elems).bind (fun edges =>
  (onRanks ranks (fun r m => (edges[r]?).bind (fun c => (eachEqTo (s (nlayers + 2) r 0) (m.classDim 1) (wrapSigned 8 dim)).bind (fun inner =>
    landEach (s (nlayers + 2) r 1) c inner)))).bind (fun cands =>
  (maxMark (t 1) (rt 1) cands).map (fun m => if m ≤ 0 then none else some cands))))

end

end OmegaH
