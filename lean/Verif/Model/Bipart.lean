import Verif.Model.Res
import Verif.Model.Dist
import Verif.Model.Linpart
import Verif.Model.ArrayOps

/-! # Bisection over ranks: src/Omega_h_bipart.cpp, src/Omega_h_inertia.cpp:162-189 -/

namespace OmegaH

/-- What one rank has in `bi_partition`: src/Omega_h_bipart.cpp:12-14. The arrays are allocated without initial values. -/
structure BipartState where
  marks : List Int
  ranks : Mem Int
  idxs : Mem Int
  linsize : Int

/-- The marks and the marked entries of one rank in one round: src/Omega_h_bipart.cpp:17-18. -/
def bipartMarks (s : Nat → Sched) (marks : List Int) : Option (List Int × List Nat) :=
  (invertMarks (s 0) marks).bind (fun inv => (collectMarked (s 1) inv).map (fun marked => (inv, marked)))

/-- The rest of the round on one rank: src/Omega_h_bipart.cpp:21-30. -/
def bipartLocal (s : Nat → Sched) (halfsize rankStart rank total start : Nat) (marks : List Int) (marked : List Nat)
    (st : BipartState) : Option BipartState :=
  (globalsToLinearOwners (s 2) ((List.range marked.length).map (fun i => ((start + i : Nat) : Int))) total halfsize).bind (fun owners =>
  (addToEach (s 3) (owners.map Prod.fst) rankStart).bind (fun shifted =>
  (mapInto (s 4) shifted marked st.ranks 1).bind (fun ranks =>
  (mapInto (s 5) (owners.map Prod.snd) marked st.idxs 1).bind (fun idxs =>
  (if rankStart ≤ rank ∧ rank < rankStart + halfsize then linearPartitionSize total halfsize ((rank : Int) - rankStart)
    else some st.linsize).map (fun linsize => ⟨marks, ranks, idxs, linsize⟩)))))

/-- One round on all ranks: src/Omega_h_bipart.cpp:17-31. The sum and the prefix sum over the ranks are exact. -/
def bipartRound (s : Nat → Nat → Sched) (halfsize rankStart : Nat) (sts : List BipartState) : Option (List BipartState) :=
  ((List.range sts.length).mapM (fun r => (sts[r]?).bind (fun st => bipartMarks (s r) st.marks))).bind (fun ms =>
  let counts := ms.map (fun m => m.2.length)
  (List.range sts.length).mapM (fun r => (sts[r]?).bind (fun st => (ms[r]?).bind (fun m =>
    bipartLocal (s r) halfsize rankStart r counts.sum ((counts.take r).sum) m.1 m.2 st))))

/-- The destinations that one rank hands to the constructor of the pattern: src/Omega_h_bipart.cpp:33. -/
def BipartState.dests (st : BipartState) : Option Remotes :=
  (st.ranks.toArray?).bind (fun ranks => (toIndices? ranks).bind (fun ranks =>
  (st.idxs.toArray?).bind (fun idxs => (toIndices? idxs).map (fun idxs => ⟨ranks, idxs⟩))))

/-- `bi_partition`: src/Omega_h_bipart.cpp:9-35. An odd number of ranks is reported. -/
def biPartition (s : Nat → Nat → Sched) (marks : List (List Int)) : Res (List Dist) :=
  if marks.length % 2 = 0 then
    let halfsize := marks.length / 2
    Res.ofOption (
      (bipartRound s halfsize 0 (marks.map (fun m => ⟨m, Mem.alloc m.length, Mem.alloc m.length, -1⟩))).bind (fun st0 =>
      (bipartRound (fun r k => s r (k + 6)) halfsize halfsize st0).bind (fun st1 =>
      (st1.mapM BipartState.dests).bind (fun dests =>
      (st1.mapM (fun st : BipartState => st.linsize.toNat?)).bind (fun linsizes =>
      newDist (fun r k => s r (k + 12)) dests linsizes)))))
  else .fail

/-- `recursively_bisect` on a communicator of `n` ranks: src/Omega_h_inertia.cpp:162-189. The three arrays that travel together
are one array of rows. `mark` stands for the choice of the marks, lines 171-180: any function of what the ranks hold and of the
halves `path` taken so far. `Comm::split` keeps the order of the ranks in a half. -/
def recursivelyBisect {α : Type} (s : List Bool → Nat → Nat → Sched) (mark : List Bool → List (List α) → List (List Int))
    (path : List Bool) (n : Nat) (data : List (List α)) : Res (List (List α)) :=
  if n ≤ 1 then .ok data
  else
    (biPartition (s path) (mark path data)).bind (fun D =>
    (Res.ofOption (Dist.exch (fun r k => s path r (k + 30)) D 1 data)).bind (fun moved =>
    (recursivelyBisect s mark (path ++ [false]) (n / 2) (moved.take (n / 2))).bind (fun lower =>
    (recursivelyBisect s mark (path ++ [true]) (n / 2) (moved.drop (n / 2))).bind (fun upper =>
    .ok (lower ++ upper)))))
  termination_by n

end OmegaH
