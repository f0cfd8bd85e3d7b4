import Verif.Model.Dist
import Verif.Model.Linpart

/-! # Ownership: src/Omega_h_owners.cpp, src/Omega_h_globals.cpp and `copies_to_linear_owners` -/

namespace OmegaH

/-- `Comm::allgather` on a graph communicator: src/Omega_h_comm.cpp:281-302 and 373-384. Every rank sends its value to all its
destinations and gets one value per source, in the order of its sources. -/
def neighborAllgather {α : Type} (s : Nat → Sched) (Ps : List Plan) (xs : List α) : Option (List (List α)) :=
  alltoallv s
    (Ps.map (fun P => ⟨P.dsts, List.range (P.dsts.length + 1), P.srcs, List.range (P.srcs.length + 1)⟩)) 1
    ((Ps.zip xs).map (fun (P, x) => List.replicate P.dsts.length x))

/-- The loop with suggested ranks over the copies `serv_copy` of one old owner: src/Omega_h_owners.cpp:26-38. -/
def searchOwner (clients ranks : List Nat) (own : List Int) (idxs : List Nat) : List Nat → Option Int
  | [] => some (-1)
  | sc :: rest =>
    (clients[sc]?).bind (fun c => (ranks[c]?).bind (fun q => (own[sc]?).bind (fun o =>
    if o = (q : Int) then (idxs[sc]?).map Int.ofNat else searchOwner clients ranks own idxs rest)))

/-- The loop without suggested ranks: src/Omega_h_owners.cpp:46-63. The state is (own_rank, nown_client_copies, own_idx). -/
def bestOwner (clients ranks sizes idxs : List Nat) : List Nat → Int × Int × Int → Option (Int × Int × Int)
  | [], st => some st
  | sc :: rest, st =>
    (clients[sc]?).bind (fun c => (sizes[c]?).bind (fun n => (ranks[c]?).bind (fun q =>
    if st.1 = -1 ∨ (n : Int) < st.2.1 ∨ ((n : Int) = st.2.1 ∧ (q : Int) < st.1) then
      (idxs[sc]?).bind (fun i => bestOwner clients ranks sizes idxs rest (q, n, i))
    else bestOwner clients ranks sizes idxs rest st)))

/-- The arrays that an old owner's rank looks at: src/Omega_h_owners.cpp:12-19. -/
def serverArrays (s : Nat → Nat → Sched) (D : List Dist) : Option (List (List Nat) × List (List Nat)) :=
  (D.mapM (fun d : Dist => d.nitems.map List.range)).bind (fun iotas =>
  (Dist.exch s D 1 iotas).bind (fun idxs =>
  ((List.range D.length).mapM (fun r => (D[r]?).bind (fun d => d.invert.items2msgs (s r 4) (s r 5)))).map (fun clients =>
    (idxs, clients))))

/-- `update_ownership` with suggested ranks: src/Omega_h_owners.cpp:11-40 and 67-70. -/
def updateOwnershipRanks (s : Nat → Nat → Sched) (D : List Dist) (ownRanks : List (List Int)) :
    Option (List (List Int) × List (List Int)) :=
  (serverArrays s D).bind (fun (idxs, clients) =>
  (Dist.exch (fun r k => s r (k + 6)) D 1 ownRanks).bind (fun servOwn =>
  ((List.range D.length).mapM (fun r =>
    (D[r]?).bind (fun d => (d.rev.roots2items).bind (fun fan =>
    (idxs[r]?).bind (fun ix => (clients[r]?).bind (fun cl => (servOwn[r]?).bind (fun ow =>
    (parScatter (s r 10) (fan.length - 1) (fun a => ((fanMembers fan a).bind (fun bs =>
      searchOwner cl d.rev.peers ow ix bs)).map (fun v => [(a, v)])) (Mem.alloc (fan.length - 1))).bind Mem.toArray?)))))
    )).bind (fun ownIdxs =>
  (Dist.exch (fun r k => s r (k + 11)) (D.map Dist.invert) 1 ownIdxs).map (fun copyIdxs => (ownRanks, copyIdxs)))))

/-- `update_ownership` without suggested ranks: src/Omega_h_owners.cpp:11-20 and 41-70. The loop writes two arrays; here it
writes one array of pairs. -/
def updateOwnershipSizes (s : Nat → Nat → Sched) (D : List Dist) : Option (List (List Int) × List (List Int)) :=
  (serverArrays s D).bind (fun (idxs, clients) =>
  (D.mapM Dist.nitems).bind (fun ncopies =>
  (neighborAllgather (fun r => s r 6) (D.map Dist.plan) ncopies).bind (fun sizes =>
  ((List.range D.length).mapM (fun r =>
    (D[r]?).bind (fun d => (d.rev.roots2items).bind (fun fan =>
    (idxs[r]?).bind (fun ix => (clients[r]?).bind (fun cl => (sizes[r]?).bind (fun sz =>
    (parScatter (s r 10) (fan.length - 1) (fun a => ((fanMembers fan a).bind (fun bs =>
      (bestOwner cl d.rev.peers sz ix bs (-1, -1, -1)).map (fun v => (v.1, v.2.2)))).map (fun v => [(a, v)])) (Mem.alloc (fan.length - 1))).bind Mem.toArray?)))))
    )).bind (fun own =>
  (Dist.exch (fun r k => s r (k + 11)) (D.map Dist.invert) 1 (own.map (fun l => l.map Prod.fst))).bind (fun copyRanks =>
  (Dist.exch (fun r k => s r (k + 15)) (D.map Dist.invert) 1 (own.map (fun l => l.map Prod.snd))).map (fun copyIdxs =>
    (copyRanks, copyIdxs)))))))

/-- `update_ownership`: src/Omega_h_owners.cpp:11-71. -/
def updateOwnership (s : Nat → Nat → Sched) (D : List Dist) (ownRanks : Option (List (List Int))) :
    Option (List (List Int) × List (List Int)) :=
  match ownRanks with
  | some own => updateOwnershipRanks s D own
  | none => updateOwnershipSizes s D

/-- `copies_to_linear_owners`: src/Omega_h_linpart.cpp:53-60. -/
def copiesToLinearOwners (s : Nat → Nat → Sched) (globals : List (List Int)) : Option (List Dist) :=
  let total := findTotalGlobals globals
  ((List.range globals.length).mapM (fun r : Nat => (linearPartitionSize total globals.length r).bind Int.toNat?)).bind (fun nlins =>
  ((List.range globals.length).mapM (fun r => (globals[r]?).bind (fun g =>
    (globalsToLinearOwners (s r 0) g total globals.length).bind (fun os =>
    (toIndices? (os.map Prod.fst)).bind (fun ranks => (toIndices? (os.map Prod.snd)).map (fun idxs =>
      (⟨ranks, idxs⟩ : Remotes))))))).bind (fun dests =>
  newDist (fun r k => s r (k + 1)) dests nlins))

/-- `owners_from_globals`: src/Omega_h_owners.cpp:79-83. -/
def ownersFromGlobals (s : Nat → Nat → Sched) (globals : List (List Int)) (ownRanks : Option (List (List Int))) :
    Option (List (List Int) × List (List Int)) :=
  (copiesToLinearOwners s globals).bind (fun D => updateOwnership (fun r k => s r (k + 11)) D ownRanks)

/-- One rank's part of `rescan_globals`: src/Omega_h_globals.cpp:9-19, with the result `start` of the prefix sum over the ranks. -/
def rescanLocal (s : Sched) (counts : List Int) (start : Int) : Option (List Int) :=
  let offsets := offsetScan counts
  (parScatter s counts.length (fun i => (offsets[i]?).map (fun o => [(i, o + start)])) (Mem.alloc counts.length)).bind Mem.toArray?

/-- `rescan_globals`: src/Omega_h_globals.cpp:8-20, and `Comm::exscan`: src/Omega_h_comm.cpp:243-255. -/
def rescanGlobals (s : Nat → Sched) (counts : List (List Int)) : Option (List (List Int)) :=
  (List.range counts.length).mapM (fun r => (counts[r]?).bind (fun c =>
    rescanLocal (s r) c (((counts.take r).map List.sum).sum)))

/-- `globals_from_owners` for entities that may be shared: src/Omega_h_owners.cpp:106-115, with `Mesh::owned`, `Mesh::ask_dist` and
`Mesh::sync_array`: src/Omega_h_mesh.cpp:465-478 and 583-588. -/
def globalsFromOwners (s : Nat → Nat → Sched) (owners : List Remotes) : Option (List (List Int)) :=
  let owned := owners.zipIdx.map (fun (o, r) => o.ranks.map (fun q => if q = r then (1 : Int) else 0))
  (rescanGlobals (fun r => s r 0) owned).bind (fun newGlobals =>
  (newDist (fun r k => s r (k + 1)) owners (owners.map (fun o => o.ranks.length))).bind (fun D =>
  Dist.exch (fun r k => s r (k + 11)) (D.map Dist.invert) 1 newGlobals))

/-- `globals_from_owners` for entities that are not shared: src/Omega_h_owners.cpp:108-111. -/
def globalsUnshared (nents : List Nat) : List (List Int) :=
  nents.zipIdx.map (fun (n, r) => (List.range n).map (fun i => (((nents.take r).sum + i : Nat) : Int)))

/-- `reduce_data_to_owners`: src/Omega_h_owners.cpp:85-104. The loop is that of `unmap` over the first copy of every owner. An owner
without copies reads the data of the next owner, or past the end. -/
def reduceDataToOwners {α : Type} (s : Nat → Nat → Sched) (D : List Dist) (w : Nat) (data : List (List α)) : Option (List (List α)) :=
  (Dist.exch s D w data).bind (fun serv =>
  (List.range D.length).mapM (fun r =>
    (D[r]?).bind (fun d => (serv[r]?).bind (fun x => (d.rev.roots2items).bind (fun fan =>
    unmap (s r 4) (fan.take (fan.length - 1)) x w)))))

end OmegaH
