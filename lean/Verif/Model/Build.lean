import Verif.Model.Ghost
import Verif.Model.Adj

/-! # Edges and faces of a mesh given by partitioned element-to-vertex lists: src/Omega_h_build.cpp

Global numbers are natural numbers here: `find_total_globals` and the linear partition have no meaning for others. -/

namespace OmegaH

/-- `ArithTraits<I32>::max()`: src/Omega_h_scalar.hpp. -/
def i32Max : Int := 2147483647

/-- The smallest rank above `last` among the served items `js`: src/Omega_h_build.cpp:174-180. The last argument is
`next_smallest_rank`. -/
def nextRank (ranks : List Nat) (last : Int) : List Nat → Int → Option Int
  | [], next => some next
  | j :: js, next => (ranks[j]?).bind (fun q =>
    nextRank ranks last js (if last < (q : Int) ∧ (q : Int) < next then (q : Int) else next))

/-- The rounds for one server: src/Omega_h_build.cpp:172-190. The value is the list of stores. `fuel` counts rounds; a round stores
at least one item, so that `stop - i` rounds are enough. -/
def rankRounds (ranks js : List Nat) (stop : Nat) : Nat → Nat → Int → Option (List (Nat × Nat))
  | fuel, i, last =>
    if stop ≤ i then some []
    else match fuel with
      | 0 => none
      | fuel + 1 => (nextRank ranks last js i32Max).bind (fun next =>
        if last < next ∧ next < i32Max then
          let found := js.filter (fun (j : Nat) => decide ((ranks[j]?).map Int.ofNat = some next))
          (rankRounds ranks js stop fuel (i + found.length) next).map (fun rest =>
            found.mapIdx (fun k j => (i + k, j)) ++ rest)
        else none)

/-- `sort_locally_based_on_rank`: src/Omega_h_build.cpp:165-195. -/
def sortLocallyByRank (s : Sched) (fan ranks : List Nat) : Option (List Nat) :=
  (parScatter s (fan.length - 1) (fun server =>
    (fan[server]?).bind (fun b => (fan[server + 1]?).bind (fun e =>
      rankRounds ranks (List.range' b (e - b)) e (e - b) b (-1)))) (Mem.alloc ranks.length)).bind Mem.toArray?

/-- What `resolve_derived_copies` computes on one rank before communicating: src/Omega_h_build.cpp:199-217. The entity vertices and
their global numbers in canonical order, and the place of every entity in the linear partition of vertices. -/
def canonicalEnts (s : Nat → Sched) (deg : Nat) (total : Int) (commSize : Nat) (globals ev2v : List Nat) :
    Option (List Nat × List Nat × Remotes) :=
  (unmap (s 0) ev2v globals 1).bind (fun ev2vg =>
  (getCodesToCanonical (s 1) deg ev2vg).bind (fun codes =>
  (alignEv2v (s 2) deg ev2v codes).bind (fun canon =>
  (alignEv2v (s 3) deg ev2vg codes).bind (fun canonGlobals =>
  (getComponent (s 4) canon deg 0).bind (fun e2fv =>
  (globalsToLinearOwners (s 5) (globals.map Int.ofNat) total commSize).bind (fun owners =>
  (toIndices? (owners.map Prod.fst)).bind (fun ranks => (toIndices? (owners.map Prod.snd)).bind (fun idxs =>
  (unmapRemotes (s 6) (s 7) e2fv ⟨ranks, idxs⟩).map (fun e2ov => (canon, canonGlobals, e2ov))))))))))

/-- What a server does with the entities it serves: src/Omega_h_build.cpp:236-273. `fan` groups them by vertex, `orig` says where they
came from, `verts` are their vertices. The value is the owner of each. -/
def serveEnts (s : Nat → Sched) (deg : Nat) (fan : List Nat) (orig : Remotes) (nserved : Nat) (verts : List Nat) : Option Remotes :=
  (sortLocallyByRank (s 0) fan orig.ranks).bind (fun order =>
  (makeCode false 0 0).bind (fun code =>
  (invertFan (s 1) fan).bind (fun served2server => (toIndices? served2server).bind (fun served2server =>
  (findMatchesEx (s 2) (s 3) deg served2server verts verts ⟨fan, order, some (List.replicate nserved code)⟩ true).bind (fun found =>
  unmapRemotes (s 4) (s 5) found.1 orig)))))

/-- `resolve_derived_copies`: src/Omega_h_build.cpp:197-287. -/
def resolveDerivedCopies (s : Nat → Nat → Sched) (deg : Nat) (globals ev2v : List (List Nat)) :
    Option (List (List Nat) × List Remotes) :=
  let n := globals.length
  let total := findTotalGlobals (globals.map (fun l => l.map Int.ofNat))
  ((List.range n).mapM (fun r => (globals[r]?).bind (fun g => (ev2v[r]?).bind (fun e =>
    canonicalEnts (s r) deg total n g e)))).bind (fun ents =>
  ((List.range n).mapM (fun r : Nat => (linearPartitionSize total n r).bind Int.toNat?)).bind (fun sizes =>
  (newDist (fun r k => s r (k + 8)) (ents.map (fun x => x.2.2)) sizes).bind (fun inDist =>
  (Dist.exch (fun r k => s r (k + 20)) inDist deg (ents.map (fun x => x.2.1))).bind (fun served =>
  let outDist := inDist.map Dist.invert
  (items2dests (fun r k => s r (k + 24)) outDist).bind (fun orig =>
  ((List.range n).mapM (fun r => (outDist[r]?).bind (fun d => d.fwd.roots2items.bind (fun fan => d.nitems.bind (fun nserved =>
    (orig[r]?).bind (fun o => (served[r]?).bind (fun verts =>
      serveEnts (fun k => s r (k + 31)) deg fan o nserved verts))))))).bind (fun owners =>
  (exchRemotes (fun r k => s r (k + 37)) (outDist.map (fun d => ⟨{ d.fwd with roots2items := none }, d.rev⟩)) 1 owners).map (fun out =>
    (ents.map Prod.fst, out))))))))

/-- The derived entities of dimension `low` in `build_ents_from_elems2verts`: src/Omega_h_build.cpp:73-76, with the part of
`add_ents2verts` for more than one rank and entities that may be shared (lines 19-33 and 46-51). The vertices, owners and global numbers. -/
def deriveShared (s : Nat → Nat → Sched) (f : Family) (high low : Nat) (globals elems : List (List Nat)) :
    Option (List (List Nat) × List Remotes × List (List Int)) :=
  ((List.range elems.length).mapM (fun r => (elems[r]?).bind (fun e => findUnique (s r 0) e f high low))).bind (fun ents =>
  (resolveDerivedCopies (fun r k => s r (k + 1)) (elementDegree f low 0).toNat globals ents).bind (fun out =>
  (globalsFromOwners (fun r k => s r (k + 50)) out.2).map (fun numbers => (out.1, out.2, numbers))))

end OmegaH
