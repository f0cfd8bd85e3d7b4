import Verif.Model.Refine
import Verif.Model.Graph
/-!
# Topology of edge collapses: src/Omega_h_coarsen_topology.cpp

The adjacencies that the code asks from the mesh are arguments. Collapse directions are 0 or 1; other
values are not modelled (`none`).
-/
namespace OmegaH

/-- `unmap_adjacency`: src/Omega_h_adj.cpp:15-38. The two result arrays are stored at the same indices
and are modelled as one array of pairs. -/
def unmapAdjacency (s1 s2 s3 : Sched) (a2b : List Nat) (b2c : Adj) : Option Adj := do
  let codes ← b2c.codes
  let a2ac ← keyDomains s1 s2 b2c.a2ab a2b
  let nac ← a2ac.getLast?
  let pairs ← (parScatter s3 a2b.length (fun a => do
    let b ← a2b[a]?
    let bc ← b2c.a2ab[b]?
    let ac0 ← natAt a2ac a
    let ac1 ← natAt a2ac (a + 1)
    let vals ← (List.range' bc (ac1 - ac0)).mapM (fun i => do
      let c ← b2c.ab2b[i]?
      let code ← codes[i]?
      pure (c, code))
    pure (blockWrites ac0 vals)) (Mem.alloc nac.toNat)).bind Mem.toArray?
  let offs ← toIndices? a2ac
  pure ⟨offs, pairs.map Prod.fst, some (pairs.map Prod.snd)⟩

/-- `get_verts_onto`: src/Omega_h_coarsen_topology.cpp:15-26. -/
def getVertsOnto (s : Sched) (ev2v rails2edges dirs : List Nat) : Option (List Int) :=
  (parScatter s rails2edges.length (fun key => do
    let e ← rails2edges[key]?
    let eev ← dirs[key]?
    if eev ≤ 1 then
      let v ← ev2v[e * 2 + (1 - eev)]?
      pure [(key, (v : Int))]
    else none) (Mem.filled rails2edges.length (-1))).bind Mem.toArray?

/-- The cells around a rail, each with its side opposite to the vertex that the rail collapses onto:
src/Omega_h_coarsen_topology.cpp:37-50. -/
def deadPairs (dim : Nat) (e2c : Adj) (cs2s rails2edges dirs : List Nat) (rail : Nat) :
    Option (List (Nat × Nat)) := do
  let codes ← e2c.codes
  let e ← rails2edges[rail]?
  let col ← dirs[rail]?
  if col ≤ 1 then
    let ecs ← fanMembers e2c.a2ab e
    ecs.mapM (fun ec => do
      let c ← e2c.ab2b[ec]?
      let code ← codes[ec]?
      let cce := codeWhichDown code
      let rot := codeRotation code
      let cevOnto : Nat := rot.toNat ^^^ (1 - col)
      let ccvOnto := simplexDownTemplate dim 1 cce (cevOnto : Int)
      let ccsOpp := simplexOppositeTemplate dim 0 ccvOnto
      let sOpp ← (if 0 ≤ ccsOpp then
          cs2s[c * (simplexDegree dim ((dim : Int) - 1)).toNat + ccsOpp.toNat]?
        else none)
      pure (c, sOpp))
  else none

/-- The stores into `dead_cells` (`sel = Prod.fst`) or `dead_sides` (`sel = Prod.snd`) of the first
`mark_dead_ents`: src/Omega_h_coarsen_topology.cpp:28-56. The two arrays are different, so each is
modelled as its own loop. -/
def markDead (s : Sched) (dim : Nat) (e2c : Adj) (cs2s rails2edges dirs : List Nat)
    (sel : Nat × Nat → Nat) (dead : Mem Int) : Option (Mem Int) :=
  parScatter s rails2edges.length (fun rail =>
    (deadPairs dim e2c cs2s rails2edges dirs rail).map (fun ps => ps.map (fun p => (sel p, 1)))) dead

/-- What the second `mark_dead_ents` asks from the mesh. -/
structure CoarsenMesh where
  nents : Nat → Nat
  upEdge : Nat → Adj
  down : Nat → List Nat

/-- The marks of dimension `d ≥ 1` made by the second `mark_dead_ents`:
src/Omega_h_coarsen_topology.cpp:57-69. The loop over `dim` from the mesh dimension down to 2 marks the
sides of dimension `d` in turn `d + 1` and the cells in turn `d`. -/
def markDeadEnts (s : Nat → Sched) (mesh : CoarsenMesh) (meshDim : Nat) (rails2edges dirs : List Nat)
    (d : Nat) : Option (List Int) := do
  let start ← (if d = 1 then (markImage (s 0) rails2edges (mesh.nents 1)).map Mem.ofList
    else some (Mem.filled (mesh.nents d) 0))
  let sides ← (if d + 1 ≤ meshDim then
      markDead (s 1) (d + 1) (mesh.upEdge (d + 1)) (mesh.down (d + 1)) rails2edges dirs Prod.snd start
    else some start)
  let cells ← (if 1 < d then
      markDead (s 2) d (mesh.upEdge d) (mesh.down d) rails2edges dirs Prod.fst sides
    else some sides)
  cells.toArray?

/-- `find_coarsen_domains`: src/Omega_h_coarsen_topology.cpp:71-88. -/
def findCoarsenDomains (s : Nat → Sched) (keys2verts : List Nat) (v2e : Adj) (entsAreDead : List Int) :
    Option Adj := do
  let k2e ← unmapAdjacency (s 0) (s 1) (s 2) keys2verts v2e
  let keCodes ← k2e.codes
  let ke2k ← invertFan (s 3) k2e.a2ab
  let entsAreLive ← invertMarks (s 4) entsAreDead
  let kesAreLive ← unmap (s 5) k2e.ab2b entsAreLive 1
  let lke2ke ← collectMarked (s 6) kesAreLive
  let lke2k ← unmap (s 7) lke2ke ke2k 1
  let lkeCodes ← unmap (s 8) lke2ke keCodes 1
  let lke2e ← unmap (s 9) lke2ke k2e.ab2b 1
  let lke2kN ← toIndices? lke2k
  let k2lke ← invertFunnel (s 10) lke2kN keys2verts.length
  let offs ← toIndices? k2lke
  pure ⟨offs, lke2e, some lkeCodes⟩

/-- The vertices of one product: src/Omega_h_coarsen_topology.cpp:104-118. -/
def coarsenRow (cv2v old2new : List Nat) (nccv c : Nat) (code : Int) (vOnto : Nat) : Option (List Nat) :=
  (List.range nccv).mapM (fun (ccv : Nat) =>
    (if (ccv : Int) = codeWhichDown code then some vOnto else cv2v[c * nccv + ccv]?).bind
      (fun oldV => old2new[oldV]?))

/-- `coarsen_topology`: src/Omega_h_coarsen_topology.cpp:90-122. -/
def coarsenTopology (s : Sched) (keys2vertsOnto cv2v : List Nat) (nccv : Nat) (keys2doms : Adj)
    (old2new : List Nat) : Option (List Nat) := do
  let codes ← keys2doms.codes
  let ndoms ← keys2doms.a2ab.getLast?
  (parScatter s keys2vertsOnto.length (fun key => do
    let vOnto ← keys2vertsOnto[key]?
    let kcs ← fanMembers keys2doms.a2ab key
    let rows ← kcs.mapM (fun kc => do
      let c ← keys2doms.ab2b[kc]?
      let code ← codes[kc]?
      let r ← coarsenRow cv2v old2new nccv c code vOnto
      pure (blockWrites (kc * nccv) r))
    pure rows.flatten) (Mem.alloc (ndoms * nccv))).bind Mem.toArray?

end OmegaH
