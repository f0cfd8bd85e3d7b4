import Verif.Model.Graph
import Verif.Model.Blocks

/-! # Communication patterns: src/Omega_h_dist.cpp, src/Omega_h_remotes.hpp and the point-to-point part of
src/Omega_h_comm.cpp (MPI builds without the CUDA self-send path)

A collective call is a function on the list of what the ranks hold. `none`: some rank fails a check,
reads or writes out of range, or waits for ever. MPI delivers messages between a pair of ranks in
order; nothing else is assumed of it: a schedule per rank orders the stores into the receive buffers. -/

namespace OmegaH

/-- `Remotes`: src/Omega_h_remotes.hpp. -/
structure Remotes where
  ranks : List Nat
  idxs : List Nat
  deriving DecidableEq, Repr, Inhabited

/-- The neighbours of one rank in a graph communicator and the offsets of its messages: the arguments
of `Neighbor_ialltoallv`. -/
structure Plan where
  dsts : List Nat
  sdispls : List Nat
  srcs : List Nat
  rdispls : List Nat
  deriving DecidableEq, Repr

/-- The sends of one rank: destination and content, in order. src/Omega_h_comm.cpp:337-352 and the size
check 536. Messages may not be empty (line 343). -/
def outbox {α : Type} (P : Plan) (w : Nat) (buf : List α) : Option (List (Nat × List α)) :=
  (P.sdispls.getLast?).bind (fun last =>
  if buf.length = last * w then
    (List.range P.dsts.length).mapM (fun i =>
      (P.dsts[i]?).bind (fun p =>
      (P.sdispls[i]?).bind (fun lo =>
      (P.sdispls[i + 1]?).bind (fun hi =>
      if lo < hi ∧ 0 < w ∧ hi * w ≤ buf.length then
        some (p, (buf.drop (lo * w)).take ((hi - lo) * w))
      else none))))
  else none)

/-- The receives of one rank: src/Omega_h_comm.cpp:353-367 and 537-557. The receives posted for one source
match its messages in order. A message longer than the space reserved for it is an error; a shorter one
leaves cells uninitialised. -/
def inbox {α : Type} (s : Sched) (rank : Nat) (P : Plan) (w : Nat) (sent : List (List (Nat × List α))) :
    Option (List α) :=
  (P.rdispls.getLast?).bind (fun last =>
  (parScatter s P.srcs.length (fun i =>
    (P.srcs[i]?).bind (fun q =>
    (P.rdispls[i]?).bind (fun lo =>
    (P.rdispls[i + 1]?).bind (fun hi =>
    if lo < hi ∧ 0 < w ∧ hi * w ≤ last * w then
      (sent[q]?).bind (fun msgs =>
      ((msgs.filter (fun m => m.1 == rank))[(P.srcs.take i).count q]?).bind (fun m =>
      if m.2.length ≤ (hi - lo) * w then some (blockWrites (lo * w) m.2) else none))
    else none)))) (Mem.alloc (last * w))).bind Mem.toArray?)

/-- All neighbours are ranks and every send has its receive and vice versa: otherwise `MPI_Waitall` does
not return on some rank. -/
def matched (Ps : List Plan) : Bool :=
  (Ps.all (fun P => P.dsts.all (· < Ps.length) && P.srcs.all (· < Ps.length))) &&
  Ps.zipIdx.all (fun (P, q) => Ps.zipIdx.all (fun (P', p) => P.dsts.count p == P'.srcs.count q))

/-- `Comm::alltoallv`: src/Omega_h_comm.cpp:525-567. -/
def alltoallv {α : Type} (s : Nat → Sched) (Ps : List Plan) (w : Nat) (bufs : List (List α)) :
    Option (List (List α)) :=
  if matched Ps then
    ((List.range Ps.length).mapM (fun r =>
      (Ps[r]?).bind (fun P => (bufs[r]?).bind (fun buf => outbox P w buf)))).bind (fun sent =>
    (List.range Ps.length).mapM (fun r => (Ps[r]?).bind (fun P => inbox (s r) r P w sent)))
  else none

/-- `Comm::alltoall`: src/Omega_h_comm.cpp:304-324 and 386-398: one value per neighbour. -/
def alltoall {α : Type} (s : Nat → Sched) (Ps : List Plan) (xs : List (List α)) : Option (List (List α)) :=
  alltoallv s
    (Ps.map (fun P => ⟨P.dsts, List.range (P.dsts.length + 1), P.srcs, List.range (P.srcs.length + 1)⟩)) 1
    ((Ps.zip xs).map (fun (P, x) => x.take P.dsts.length))

/-- `Comm::graph`: src/Omega_h_comm.cpp:167-180. The sources that `sources_from_destinations` finds for one
rank, after sorting (lines 119-165; C45 proves that the search finds exactly these). -/
def graphSources (dsts : List (List Nat)) (rank : Nat) : List Nat :=
  dsts.zipIdx.flatMap (fun (d, q) => List.replicate (d.count rank) q)

/-- One direction of a `Dist` on one rank. `peers` are the destinations of the communicator of this
direction, which are the sources of that of the other direction. -/
structure DistDir where
  roots2items : Option (List Nat)
  items2content : Option (List Nat)
  msgs2content : List Nat
  peers : List Nat
  deriving DecidableEq, Repr, Inhabited

/-- `Dist` on one rank: src/Omega_h_dist.hpp. Direction 0 is `fwd`, direction 1 is `rev`; `comm_[R]` is always
the inverse of `comm_[F]`. -/
structure Dist where
  fwd : DistDir
  rev : DistDir
  deriving DecidableEq, Repr, Inhabited

/-- What `exch` passes to `alltoallv`: src/Omega_h_dist.cpp:118. -/
def Dist.plan (d : Dist) : Plan := ⟨d.fwd.peers, d.fwd.msgs2content, d.rev.peers, d.rev.msgs2content⟩

/-- `Dist::invert`: src/Omega_h_dist.cpp:96-106. -/
def Dist.invert (d : Dist) : Dist := ⟨d.rev, d.fwd⟩

/-- Copying the data of every root to its items: src/Omega_h_dist.cpp:112-114. -/
def DistDir.expandRoots {α : Type} (s : Sched) (d : DistDir) (w : Nat) (data : List α) : Option (List α) :=
  match d.roots2items with
    | some fan => expand s data fan w
    | none => some data

/-- Sorting the items by destination rank: src/Omega_h_dist.cpp:115-117. -/
def DistDir.permuteItems {α : Type} (s : Sched) (d : DistDir) (w : Nat) (data : List α) : Option (List α) :=
  match d.items2content with
    | some perm => permute s data perm w
    | none => some data

/-- The local steps before the communication: src/Omega_h_dist.cpp:112-117. -/
def Dist.pack {α : Type} (s1 s2 : Sched) (d : Dist) (w : Nat) (data : List α) : Option (List α) :=
  (d.fwd.expandRoots s1 w data).bind (fun data => d.fwd.permuteItems s2 w data)

/-- The local step after the communication: src/Omega_h_dist.cpp:119-121. -/
def Dist.unpack {α : Type} (s : Sched) (d : Dist) (w : Nat) (data : List α) : Option (List α) :=
  match d.rev.items2content with
    | some perm => unmap s perm data w
    | none => some data

/-- `Dist::exch`: src/Omega_h_dist.cpp:108-123. -/
def Dist.exch {α : Type} (s : Nat → Nat → Sched) (D : List Dist) (w : Nat) (data : List (List α)) :
    Option (List (List α)) :=
  ((List.range D.length).mapM (fun r =>
    (D[r]?).bind (fun d => (data[r]?).bind (fun x => d.pack (s r 0) (s r 1) w x)))).bind (fun content =>
  (alltoallv (fun r => s r 2) (D.map Dist.plan) w content).bind (fun recvd =>
  (List.range D.length).mapM (fun r =>
    (D[r]?).bind (fun d => (recvd[r]?).bind (fun x => d.unpack (s r 3) w x)))))

/-- `sort_small_range` of the destination ranks of one rank: src/Omega_h_dist.cpp:34-36. The values are 32-bit. -/
def sortRanks (ranks : List Nat) : Option (List Nat × List Nat × List Nat) :=
  (sortSmallRange 2147483647 (ranks.map Int.ofNat) ranks.length).bind (fun (pos, fan, uniq) =>
  (toIndices? pos).bind (fun pos => (toIndices? fan).bind (fun fan => (toIndices? uniq).map (fun uniq =>
    (pos, fan, uniq)))))

/-- `Dist::set_dest_ranks` on a new `Dist`: src/Omega_h_dist.cpp:30-74, with
`use_small_neighborhood_algorithm = true` as in the code. -/
def setDestRanks (s : Nat → Nat → Sched) (items2ranks : List (List Nat)) : Option (List Dist) :=
  (items2ranks.mapM sortRanks).bind (fun parts =>
  ((List.range parts.length).mapM (fun r => (parts[r]?).bind (fun part => getDegrees (s r 0) part.2.1))).bind (fun fdegrees =>
  let dsts := parts.map (fun part => part.2.2)
  let Ps := parts.zipIdx.map (fun (part, r) => (⟨part.2.2, part.2.1, graphSources dsts r, []⟩ : Plan))
  (alltoall (fun r => s r 1) Ps fdegrees).bind (fun rdegrees =>
  (List.range parts.length).mapM (fun r =>
    (parts[r]?).bind (fun part =>
    (rdegrees[r]?).bind (fun rd =>
    (toIndices? (offsetScan rd)).map (fun rfan =>
      ⟨⟨none, some part.1, part.2.1, part.2.2⟩, ⟨none, none, rfan, graphSources dsts r⟩⟩)))))))

/-- `Dist::set_dest_idxs`: src/Omega_h_dist.cpp:76-82. -/
def setDestIdxs (s : Nat → Nat → Sched) (D : List Dist) (fitems2rroots : List (List Nat)) (nrroots : List Nat) :
    Option (List Dist) :=
  (Dist.exch s D 1 fitems2rroots).bind (fun rcontent2rroots =>
  (List.range D.length).mapM (fun r =>
    (D[r]?).bind (fun d => (rcontent2rroots[r]?).bind (fun m => (nrroots[r]?).bind (fun n =>
    (invertMapByAtomics (s r 4) (s r 5) (s r 6) m n).map (fun g =>
      ⟨d.fwd, ⟨some g.a2ab, some g.ab2b, d.rev.msgs2content, d.rev.peers⟩⟩))))))

/-- `Dist::Dist(comm, fitems2rroots, nrroots)`: src/Omega_h_dist.cpp:20-24. -/
def newDist (s : Nat → Nat → Sched) (dests : List Remotes) (nrroots : List Nat) : Option (List Dist) :=
  (setDestRanks s (dests.map Remotes.ranks)).bind (fun D =>
  setDestIdxs (fun r k => s r (k + 2)) D (dests.map Remotes.idxs) nrroots)

/-- `Dist::set_dest_globals`: src/Omega_h_dist.cpp:84-90. -/
def setDestGlobals (s : Nat → Nat → Sched) (D : List Dist) (globals : List (List Int)) : Option (List Dist) :=
  (Dist.exch s D 1 globals).bind (fun recvd =>
  (List.range D.length).mapM (fun r =>
    (D[r]?).bind (fun d => (recvd[r]?).bind (fun keys => (sortByKeys keys 1).map (fun perm =>
      ⟨d.fwd, ⟨none, some perm, d.rev.msgs2content, d.rev.peers⟩⟩)))))

/-- `Dist::set_roots2items`: src/Omega_h_dist.cpp:92-94. -/
def Dist.setRoots2items (d : Dist) (fan : List Nat) : Dist := ⟨{ d.fwd with roots2items := some fan }, d.rev⟩

/-- `Dist::exch_reduce`: src/Omega_h_dist.cpp:145-149. -/
def Dist.exchReduce {T VT : Type} (s : Nat → Nat → Sched) (f : Functor T VT) (D : List Dist) (w : Nat)
    (data : List (List T)) : Option (List (List T)) :=
  (Dist.exch s D w data).bind (fun items =>
  (List.range D.length).mapM (fun r =>
    (D[r]?).bind (fun d => (items[r]?).bind (fun x =>
    d.rev.roots2items.bind (fun fan => fanReduce (s r 4) f fan x w)))))

/-- `Dist::items2msgs`: src/Omega_h_dist.cpp:157-163. -/
def Dist.items2msgs (s1 s2 : Sched) (d : Dist) : Option (List Nat) :=
  (invertFan s1 d.fwd.msgs2content).bind (fun content2msgs =>
  d.fwd.items2content.bind (fun perm =>
  (unmap s2 perm content2msgs 1).bind toIndices?))

/-- `Dist::items2ranks`: src/Omega_h_dist.cpp:167-171. -/
def Dist.items2ranks (s1 s2 s3 : Sched) (d : Dist) : Option (List Nat) :=
  (d.items2msgs s1 s2).bind (fun items2msgs => compoundMaps s3 items2msgs d.fwd.peers)

/-- `Dist::nitems`: src/Omega_h_dist.cpp:182. -/
def Dist.nitems (d : Dist) : Option Nat := d.fwd.msgs2content.getLast?

/-- `Dist::nroots`, `nsrcs`: src/Omega_h_dist.cpp:184-189. -/
def Dist.nsrcs (d : Dist) : Option Nat :=
  match d.fwd.roots2items with
  | some fan => some (fan.length - 1)
  | none => d.nitems

/-- `Dist::ndests`: src/Omega_h_dist.cpp:191. -/
def Dist.ndests (d : Dist) : Option Nat := d.invert.nsrcs

/-- `Dist::items2dest_idxs`: src/Omega_h_dist.cpp:173-176. -/
def Dist.items2destIdxs (s : Nat → Nat → Sched) (D : List Dist) : Option (List (List Nat)) :=
  (D.mapM (fun d : Dist => d.ndests.map List.range)).bind (fun idxs =>
  Dist.exch s (D.map Dist.invert) 1 idxs)

/-- The destinations of the data items of one rank: src/Omega_h_dist.cpp:240-252. `ownerOffsets` holds, for every actor, where the
data of its owner begins. -/
def variableDests (s : Nat → Sched) (d : Dist) (copies2data ownerOffsets : List Nat) : Option Remotes :=
  (d.nitems).bind (fun nactors =>
  (copies2data.getLast?).bind (fun dataSize =>
  (d.items2ranks (s 0) (s 1) (s 2)).bind (fun ranks =>
  (expand (s 3) ranks copies2data 1).bind (fun dataRanks =>
  ((parScatter (s 4) nactors (fun actor =>
    (copies2data[actor]?).bind (fun b => (copies2data[actor + 1]?).bind (fun e => (ownerOffsets[actor]?).map (fun off =>
      (List.range' b (e - b)).map (fun i => (i, off + (i - b))))))) (Mem.alloc dataSize)).bind Mem.toArray?).bind (fun dataIdxs =>
  if dataRanks.length = dataIdxs.length then some ⟨dataRanks, dataIdxs⟩ else none)))))

/-- `create_dist_for_variable_sized`: src/Omega_h_dist.cpp:224-257. An actor without data does not read its owner's offset in the C++
code; reading an array within its size has no effect. -/
def variableDist (s : Nat → Nat → Sched) (D : List Dist) (copies2data : List (List Nat)) : Option (List Dist) :=
  ((List.range D.length).mapM (fun r => (D[r]?).bind (fun d => (copies2data[r]?).bind (fun c => (d.nitems).bind (fun nactors =>
    if c.length = nactors + 1 then
      (parScatter (s r 0) nactors (fun i => (c[i]?).map (fun x => [(i, x)])) (Mem.filled nactors 0)).bind Mem.toArray?
    else none))))).bind (fun offsets =>
  (Dist.exch (fun r k => s r (k + 1)) (D.map Dist.invert) 1 offsets).bind (fun ownerOffsets =>
  ((List.range D.length).mapM (fun r => (D[r]?).bind (fun d => (copies2data[r]?).bind (fun c => (ownerOffsets[r]?).bind (fun o =>
    variableDests (fun k => s r (k + 5)) d c o))))).bind (fun dests =>
  ((List.range D.length).mapM (fun r => (copies2data[r]?).bind (fun c => c.getLast?))).bind (fun sizes =>
  newDist (fun r k => s r (k + 10)) dests sizes))))

end OmegaH
