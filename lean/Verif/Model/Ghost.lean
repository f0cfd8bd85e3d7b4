import Verif.Model.Migrate

/-! # Ghost layers and partitioning modes: src/Omega_h_ghost.cpp and `Mesh::set_parting`

The elements are a `MeshLevel` whose lower entities are vertices (`ask_down(dim, VERT)`). -/

namespace OmegaH

/-- `ask_up(VERT, dim)` on every rank: offsets and elements. -/
structure UpGraph where
  fans : List (List Nat)
  elems : List (List Nat)
  deriving DecidableEq, Repr, Inhabited

/-- `expand` of remotes: src/Omega_h_remotes.cpp:7-9. -/
def expandRemotes (s1 s2 : Sched) (a2c : Remotes) (a2b : List Nat) : Option Remotes :=
  (expand s1 a2c.ranks a2b 1).bind (fun ranks => (expand s2 a2c.idxs a2b 1).map (fun idxs => ⟨ranks, idxs⟩))

/-- `get_local_elem_uses2own_verts`: src/Omega_h_ghost.cpp:10-16. -/
def localUses2ownVerts (s : Nat → Nat → Sched) (verts : MeshLevel) (up : UpGraph) : Option (List Dist) :=
  ((List.range up.fans.length).mapM (fun r => (up.fans[r]?).bind (fun fan => (verts.owners[r]?).bind (fun o =>
    expandRemotes (s r 0) (s r 1) o fan)))).bind (fun uses =>
  newDist (fun r k => s r (k + 2)) uses verts.nents)

/-- `get_local_elem_uses2own_elems`: src/Omega_h_ghost.cpp:18-23. -/
def localUses2ownElems (s : Nat → Nat → Sched) (elems : MeshLevel) (up : UpGraph) : Option (List Remotes) :=
  (List.range up.elems.length).mapM (fun r => (up.elems[r]?).bind (fun l => (elems.owners[r]?).bind (fun o =>
    unmapRemotes (s r 0) (s r 1) l o)))

/-- `RemoteGraph` on every rank: src/Omega_h_remotes.hpp. -/
structure RemoteGraph where
  fans : List (List Nat)
  edges : List Remotes
  deriving DecidableEq, Repr, Inhabited

/-- `get_own_verts2own_elems`: src/Omega_h_ghost.cpp:28-35. -/
def ownVerts2ownElems (s : Nat → Nat → Sched) (elems verts : MeshLevel) (up : UpGraph) : Option RemoteGraph :=
  (localUses2ownElems s elems up).bind (fun uses2elems =>
  (localUses2ownVerts (fun r k => s r (k + 2)) verts up).bind (fun uses2verts =>
  (exchRemotes (fun r k => s r (k + 12)) uses2verts 1 uses2elems).bind (fun servUses =>
  (uses2verts.mapM (fun d : Dist => d.rev.roots2items)).map (fun fans => ⟨fans, servUses⟩))))

/-- What one owner vertex writes: the elements around it for each of its copies, with the copy. src/Omega_h_ghost.cpp:55-66. Each
entry is (element rank, element index), (vertex rank, vertex index). -/
def useBlock (servUses : List (Nat × Nat)) (servVerts : List (Nat × Nat)) (su sv : List Nat) : Option (List ((Nat × Nat) × (Nat × Nat))) :=
  (sv.mapM (fun v => (servVerts[v]?).bind (fun vert => su.mapM (fun u => (servUses[u]?).map (fun e => (e, vert)))))).map List.flatten

/-- The loop of `push_elem_uses` on one rank: src/Omega_h_ghost.cpp:43-70. The four arrays are one array of four numbers; pairs of
arrays are zipped, which loses nothing because their lengths are compared here. The number of iterations is the number of roots. -/
def pushUsesLocal (s : Nat → Sched) (useFan : List Nat) (uses : Remotes) (vertFan : List Nat) (verts : Remotes) :
    Option (List ((Nat × Nat) × (Nat × Nat))) :=
  (multiplyFans (s 0) useFan vertFan).bind (fun items => (toIndices? items).bind (fun items => (items.getLast?).bind (fun nitems =>
  if uses.ranks.length = uses.idxs.length ∧ verts.ranks.length = verts.idxs.length then
    (parScatter (s 1) (vertFan.length - 1) (fun ov =>
      (items[ov]?).bind (fun item => (items[ov + 1]?).bind (fun next =>
      (fanMembers vertFan ov).bind (fun sv => (fanMembers useFan ov).bind (fun su =>
      (useBlock (uses.ranks.zip uses.idxs) (verts.ranks.zip verts.idxs) su sv).bind (fun block =>
        if item + block.length = next then some (blockWrites item block) else none))))))
      (Mem.alloc nitems)).bind Mem.toArray?
  else none)))

/-- `items2dests`: src/Omega_h_dist.cpp:178-180. -/
def items2dests (s : Nat → Nat → Sched) (D : List Dist) : Option (List Remotes) :=
  ((List.range D.length).mapM (fun r => (D[r]?).bind (fun d => d.items2ranks (s r 0) (s r 1) (s r 2)))).bind (fun ranks =>
  (Dist.items2destIdxs (fun r k => s r (k + 3)) D).map (fun idxs => (ranks.zip idxs).map (fun (a, b) => (⟨a, b⟩ : Remotes))))

/-- `push_elem_uses`: src/Omega_h_ghost.cpp:43-77. -/
def pushElemUses (s : Nat → Nat → Sched) (G : RemoteGraph) (ownVerts2verts : List Dist) : Option (List Remotes) :=
  (items2dests s ownVerts2verts).bind (fun servVerts =>
  ((List.range ownVerts2verts.length).mapM (fun r =>
    (ownVerts2verts[r]?).bind (fun d => (d.fwd.roots2items).bind (fun vertFan =>
    (G.fans[r]?).bind (fun useFan => (G.edges[r]?).bind (fun uses => (servVerts[r]?).bind (fun verts =>
      pushUsesLocal (fun k => s r (k + 10)) useFan uses vertFan verts))))))).bind (fun items =>
  (ownVerts2verts.mapM (fun d : Dist => d.invert.nitems)).bind (fun nverts =>
  (newDist (fun r k => s r (k + 12)) (items.map (fun l => ⟨l.map (fun x => x.2.1), l.map (fun x => x.2.2)⟩)) nverts).bind (fun items2verts =>
  exchRemotes (fun r k => s r (k + 22)) items2verts 1 (items.map (fun l => ⟨l.map (fun x => x.1.1), l.map (fun x => x.1.2)⟩))))))

/-- `close_up`: src/Omega_h_ghost.cpp:79-88. -/
def closeUp (s : Nat → Nat → Sched) (elems : MeshLevel) (G : RemoteGraph) (verts2owners : List Dist) : Option (List Dist) :=
  (pushElemUses s G (verts2owners.map Dist.invert)).bind (fun uses =>
  (newDist (fun r k => s r (k + 30)) uses elems.nents).bind (fun uses2oldOwners =>
  newCopies2oldOwners (fun r k => s r (k + 40)) uses2oldOwners elems.globals))

/-- `close_down`: src/Omega_h_ghost.cpp:90-99. The number of vertices of an element is taken to be `dim + 1`. -/
def closeDown (s : Nat → Nat → Sched) (dim : Nat) (verts : MeshLevel) (oldUseOwners : List Remotes) (elems2owners : List Dist) :
    Option (List Dist) :=
  (exchRemotes s (elems2owners.map Dist.invert) (dim + 1) oldUseOwners).bind (fun newUseOwners =>
  (newDist (fun r k => s r (k + 10)) newUseOwners verts.nents).bind (fun uses2oldOwners =>
  newCopies2oldOwners (fun r k => s r (k + 20)) uses2oldOwners verts.globals))

/-- The loop of `ghost_mesh`: src/Omega_h_ghost.cpp:112-115. -/
def ghostLoop (s : Nat → Nat → Nat → Sched) (dim : Nat) (elems verts : MeshLevel) (G : RemoteGraph) (oldUseOwners : List Remotes) :
    Nat → List Dist → Option (List Dist)
  | 0, elems2owners => some elems2owners
  | k + 1, elems2owners =>
    (closeDown (s k) dim verts oldUseOwners elems2owners).bind (fun verts2owners =>
    (closeUp (fun r i => s k r (i + 40)) elems G verts2owners).bind (fun elems2owners =>
    ghostLoop s dim elems verts G oldUseOwners k elems2owners))

/-- The plan that `ghost_mesh` makes: src/Omega_h_ghost.cpp:101-115. `have` and `want` are numbers of ghost layers. -/
def ghostPlan (s : Nat → Nat → Nat → Sched) (dim : Nat) (elems verts : MeshLevel) (up : UpGraph) (have_ want : Int) : Option (List Dist) :=
  if 0 ≤ have_ ∧ have_ < want then
    (ownVerts2ownElems (s 0) elems verts up).bind (fun G =>
    (newDist (s 1) verts.owners verts.nents).bind (fun verts2owners =>
    (closeUp (s 2) elems G verts2owners).bind (fun elems2owners =>
    if 1 < want - have_ then
      (downUseOwners (s 3) elems verts).bind (fun oldUseOwners =>
      ghostLoop (fun k => s (k + 4)) dim elems verts G oldUseOwners (want - have_ - 1).toNat elems2owners)
    else some elems2owners)))
  else none

/-- The plan of `partition_by_verts`: src/Omega_h_ghost.cpp:119-129. -/
def vertsPlan (s : Nat → Nat → Sched) (elems verts : MeshLevel) (up : UpGraph) : Option (List Dist) :=
  (ownVerts2ownElems s elems verts up).bind (fun G =>
  (newDist (fun r k => s r (k + 30)) G.edges elems.nents).bind (fun uses2oldOwners =>
  newCopies2oldOwners (fun r k => s r (k + 40)) uses2oldOwners elems.globals))

/-- `Mesh::owned`: src/Omega_h_mesh.cpp:465-468. -/
def ownedMarks (s : Sched) (rank : Nat) (owners : Remotes) : Option (List Int) :=
  (parScatter s owners.ranks.length (fun i => ((owners.ranks[i]?).map (fun p => if p = rank then (1 : Int) else 0)).map (fun v => [(i, v)]))
    (Mem.alloc owners.ranks.length)).bind Mem.toArray?

/-- The plan of `partition_by_elems`: src/Omega_h_ghost.cpp:132-139. -/
def elemsPlan (s : Nat → Nat → Sched) (elems : MeshLevel) : Option (List Dist) :=
  ((List.range elems.owners.length).mapM (fun r => (elems.owners[r]?).bind (fun o =>
    (ownedMarks (s r 0) r o).bind (fun marks => (collectMarked (s r 1) marks).bind (fun owned2all =>
    unmapRemotes (s r 2) (s r 3) owned2all o))))).bind (fun owned =>
  newDist (fun r k => s r (k + 4)) owned elems.nents)

end OmegaH

namespace OmegaH

/-- The changes of a mesh that `set_parting` makes. -/
inductive PartAct where
  | byElems
  | ghost (have_ want : Int)
  | byVerts
  deriving DecidableEq, Repr

/-- `Mesh::set_parting(ELEM_BASED, 0)` of a mesh with a partitioning: src/Omega_h_mesh.cpp:508-513. -/
def setElemBased (size : Nat) (cur : Parting × Int) : List PartAct :=
  if cur = (.elemBased, 0) then [] else if 1 < size then [.byElems] else []

/-- `Mesh::set_parting`: src/Omega_h_mesh.cpp:503-525, without the output. `none` in the second argument is `parting_ == -1`. The new
mode and number of layers are the arguments. `nghost_layers()` as `ghost_mesh` sees it is 0 after the change to element based. -/
def setParting (size : Nat) (cur : Option (Parting × Int)) (want : Parting) (nlayers : Int) : Option (List PartAct) :=
  match cur with
  | none => some []
  | some cur =>
    if cur = (want, nlayers) then some []
    else match want with
      | .elemBased => if nlayers = 0 then some (setElemBased size cur) else none
      | .ghosted =>
        let reset := cur.1 ≠ .ghosted ∨ nlayers < cur.2
        let layers := if reset then 0 else cur.2
        let acts := if reset then setElemBased size cur else []
        if 1 < size then
          if 0 ≤ layers ∧ layers < nlayers then some (acts ++ [.ghost layers nlayers]) else none
        else some acts
      | .vertBased => if nlayers = 1 then some (if 1 < size then [.byVerts] else []) else none

end OmegaH
