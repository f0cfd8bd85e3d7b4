import Verif.Model.Classify
import Verif.Model.Modify
import Verif.Model.ArrayOps
import Verif.Model.Correct
/-!
# Marking entities: src/Omega_h_mark.cpp, src/Omega_h_mark.hpp

`OMEGA_H_CHECK`s on dimensions are hypotheses of the loops that call these functions with dimensions in range. Numbers of entities
are below the limits of the types.
-/
namespace OmegaH

/-- `mark_exposed_sides`: src/Omega_h_mark.cpp:12-19. -/
def markExposedSides (s : Sched) (nsides : Nat) (s2c : Graph) : Option (List Int) :=
  (parScatter s nsides (fun i => (s2c.a2ab[i + 1]?).bind (fun hi => (s2c.a2ab[i]?).map (fun (lo : Nat) =>
    [(i, b2i ((hi : Int) - lo < 2))]))) (Mem.alloc nsides)).bind Mem.toArray?

/-- `mark_down` on a graph: src/Omega_h_mark.cpp:21-33. The offsets have at least one entry. -/
def markDown (s : Sched) (l2h : Graph) (high : List Int) : Option (List Int) :=
  (parScatter s (l2h.a2ab.length - 1) (fun l => (fanMembers l2h.a2ab l).bind (fun lhs =>
    (lhs.mapM (fun lh => (l2h.ab2b[lh]?).bind (fun h => (high[h]?).map (fun m =>
      if m ≠ 0 then [(l, (1 : Int))] else [])))).map List.flatten))
    (Mem.filled (l2h.a2ab.length - 1) 0)).bind Mem.toArray?

/-- `Mesh::reduce_array`: src/Omega_h_mesh.cpp:607-611. `owners` is absent if entities of this dimension cannot be shared. -/
def reduceValues {T VT : Type} (s : Nat → Nat → Sched) (f : Functor T VT) (owners : Option (List Remotes)) (w : Nat)
    (data : List (List T)) : Option (List (List T)) :=
  match owners with
  | none => some data
  | some owners => (newDist s owners (owners.map (fun o => o.ranks.length))).bind (fun D =>
      Dist.exchReduce (fun r k => s r (k + 10)) f D w data)

/-- `mark_down` on all ranks, from a higher to a lower dimension: src/Omega_h_mark.cpp:40-47. `allUpward` is
`owners_have_all_upward` (src/Omega_h_mesh.cpp:713-716). -/
def markDownBelow (s : Nat → Nat → Sched) (allUpward : Bool) (owners : Option (List Remotes)) (ups : List Graph)
    (highs : List (List Int)) : Option (List (List Int)) :=
  (onRanks ups (fun r l2h => (highs[r]?).bind (markDown (s r 0) l2h))).bind (fun low =>
  (if allUpward then some low else reduceValues (fun r k => s r (k + 1)) (maxFunctor 8) owners 1 low).bind (fun all =>
  syncValues (fun r k => s r (k + 50)) owners 1 all))

/-- What one rank holds: numbers of entities, entities of a higher dimension (second argument) around entities, the entities of a
lower dimension (second argument) of entities and their number per entity, the classes of entities. -/
structure MarkRank where
  nents : Nat → Nat
  up : Nat → Nat → Graph
  down : Nat → Nat → List Nat
  degree : Nat → Nat → Nat
  classDim : Nat → List Int
  classId : Nat → List Int

/-- `mark_down` on all ranks: src/Omega_h_mark.cpp:35-48. -/
def markDownRanks (s : Nat → Nat → Sched) (allUpward : Bool) (owners : Option (List Remotes)) (ranks : List MarkRank)
    (high low : Nat) (highs : List (List Int)) : Option (List (List Int)) :=
  if low ≤ high ∧ high ≤ 3 then
    if high = low then some highs
    else markDownBelow s allUpward owners (ranks.map (fun m => m.up low high)) highs
  else none

/-- `mark_up_all`: src/Omega_h_mark.cpp:75-92. -/
def markUpAll (s : Sched) (hl2l : List Nat) (deg nh : Nat) (lowMarked : List Int) : Option (List Int) :=
  (parScatter s nh (fun h => ((List.range deg).mapM (fun hhl => (hl2l[h * deg + hhl]?).bind (fun l => lowMarked[l]?))).map
    (fun ms => [(h, b2i (ms.all (fun m => decide (m ≠ 0))))])) (Mem.filled nh 0)).bind Mem.toArray?

/-- `binary_search` between `l` and `r`: src/Omega_h_mark.hpp:44-58. The index -1 says that the value is not there. -/
def binarySearchIn (a : List Int) (v : Int) (l r : Int) : Option Int :=
  if l > r then some (-1)
  else
    let m := (l + r) / 2
    match a[m.toNat]? with
    | none => none
    | some x => if x < v then binarySearchIn a v (m + 1) r else if x > v then binarySearchIn a v l (m - 1) else some m
  termination_by (r + 1 - l).toNat
  decreasing_by all_goals omega

/-- `binary_search`: src/Omega_h_mark.hpp:40-59. -/
def binarySearch (a : List Int) (v : Int) (n : Nat) : Option Int := binarySearchIn a v 0 ((n : Int) - 1)

/-- `get_eq_marks`: src/Omega_h_mark.cpp:114-138. `std::sort` of numbers gives the sorted list. -/
def getEqMarks (s : Sched) (m : MarkRank) (classDim : Nat) (ids : List Int) : Option (List Int) :=
  let sorted := ids.mergeSort (fun x y => decide (x ≤ y))
  (parScatter s (m.nents classDim) (fun e => ((m.classDim classDim)[e]?).bind (fun d =>
    if d = wrapSigned 8 classDim then ((m.classId classDim)[e]?).bind (fun i =>
      (binarySearch sorted i sorted.length).map (fun k => [(e, b2i (-1 ≠ k))]))
    else some [(e, 0)])) (Mem.alloc (m.nents classDim))).bind Mem.toArray?

/-- `mark_class_closures` for model entities of one dimension: src/Omega_h_mark.cpp:140-146. -/
def markClosuresDim (s : Nat → Nat → Sched) (allUpward : Bool) (owners : Option (List Remotes)) (ranks : List MarkRank)
    (entDim classDim : Nat) (ids : List Int) : Option (List (List Int)) :=
  (onRanks ranks (fun r m => getEqMarks (s r 0) m classDim ids)).bind (fun eq =>
    markDownRanks (fun r k => s r (k + 1)) allUpward owners ranks classDim entDim eq)

/-- `get_dim_class_ids`: src/Omega_h_mark.cpp:157-166. -/
def dimClassIds (classDim : Nat) (pairs : List (Int × Int)) : List Int :=
  (pairs.filter (fun p => decide (p.1 = (classDim : Int)))).map Prod.snd

/-- The loop of `mark_class_closures`, over the dimensions in the list: src/Omega_h_mark.cpp:171-177. -/
def markClosuresLoop (s : Nat → Nat → Nat → Sched) (allUpward : Bool) (owners : Option (List Remotes)) (ranks : List MarkRank)
    (entDim : Nat) (pairs : List (Int × Int)) : List Nat → List (List Int) → Option (List (List Int))
  | [], marks => some marks
  | d :: ds, marks =>
    if dimClassIds d pairs = [] then markClosuresLoop s allUpward owners ranks entDim pairs ds marks
    else
      (markClosuresDim (s d) allUpward owners ranks entDim d (dimClassIds d pairs)).bind (fun more =>
      (onRanks ranks (fun r _ => (marks[r]?).bind (fun a => (more[r]?).bind (lorEach (s d r 200) a)))).bind
      (markClosuresLoop s allUpward owners ranks entDim pairs ds))

/-- `mark_class_closures` for a list of model entities: src/Omega_h_mark.cpp:168-179. -/
def markClassClosures (s : Nat → Nat → Nat → Sched) (allUpward : Bool) (owners : Option (List Remotes)) (dim : Nat)
    (ranks : List MarkRank) (entDim : Nat) (pairs : List (Int × Int)) : Option (List (List Int)) :=
  markClosuresLoop s allUpward owners ranks entDim pairs (List.range' entDim (dim + 1 - entDim))
    (ranks.map (fun m => List.replicate (m.nents entDim) 0))

/-- `ents_on_closure` after `to_class_pairs`: src/Omega_h_mesh.cpp:895-900. -/
def entsOnClosure (s : Nat → Nat → Nat → Sched) (allUpward : Bool) (owners : Option (List Remotes)) (dim : Nat)
    (ranks : List MarkRank) (entDim : Nat) (pairs : List (Int × Int)) : Option (List (List Nat)) :=
  (markClassClosures s allUpward owners dim ranks entDim pairs).bind (fun marks =>
    onRanks ranks (fun r _ => (marks[r]?).bind (collectMarked (s 9 r 0))))

/-- `ask_dual`: src/Omega_h_mesh.cpp:260, 322-327. -/
def askDual (s : Nat → Sched) (dim nsides : Nat) (es2s : List Nat) (s2c : Graph) : Option Graph :=
  (markExposedSides (s 0) nsides s2c).bind (elementsAcrossSides (fun k => s (k + 1)) dim es2s s2c)

/-- `graph_reduce` with `OMEGA_H_MAX` on marks: src/Omega_h_graph.cpp:61-67. -/
def graphReduceMax (s1 s2 : Sched) (g : Graph) (marks : List Int) : Option (List Int) :=
  (unmap s1 g.ab2b marks 1).bind (fun ab => fanReduce s2 (maxFunctor 8) g.a2ab ab 1)

/-- `mark_dual_layers`: src/Omega_h_mark.cpp:189-198. -/
def markDualLayers (s : Nat → Nat → Nat → Sched) (owners : Option (List Remotes)) (duals : List Graph) :
    Nat → List (List Int) → Option (List (List Int))
  | 0, marks => some marks
  | k + 1, marks =>
    (onRanks duals (fun r g => (marks[r]?).bind (graphReduceMax (s k r 0) (s k r 1) g))).bind (fun next =>
    (syncValues (fun r j => s k r (j + 2)) owners 1 next).bind (markDualLayers s owners duals k))

section
variable {K : Type} [LinearOrder K]

/-- `mark_sliver_layers`: src/Omega_h_mark.cpp:207-212. -/
def markSliverLayers (s : Nat → Nat → Nat → Sched) (owners : Option (List Remotes)) (duals : List Graph) (quals : List (List K))
    (ceil : K) (nlayers : Nat) : Option (List (List Int)) :=
  (onRanks quals (fun r q => mapEach (s nlayers r 0) (fun x => some (b2i (decide (x < ceil)))) q)).bind
    (markDualLayers s owners duals nlayers)

end

end OmegaH
