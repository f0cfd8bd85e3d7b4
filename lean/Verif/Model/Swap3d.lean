import Verif.Model.Align
import Verif.Model.Element
import Verif.Model.Adj
import Verif.Model.Res
import Verif.Model.Blocks
import Verif.Model.Scan

/-!
# Edge swapping in 3D: tables and topology

The tables of src/Omega_h_swap3d_tables.hpp, transcribed entry by entry; a null pointer or an index
past the end of a table is `none` at the use.
-/

namespace OmegaH

/-- `swap_mesh_sizes`: src/Omega_h_swap3d_tables.hpp:27-43. -/
def swapMeshSizes : List Nat := [0, 0, 0, 1, 2, 3, 4, 5]

/-- `swap_mesh_counts`: src/Omega_h_swap3d_tables.hpp:45-61. -/
def swapMeshCounts : List Nat := [0, 0, 0, 1, 2, 5, 14, 42]

/-- `triangles_3`: src/Omega_h_swap3d_tables.hpp:63-63. -/
def triangles3 : List (List Nat) := [[0, 1, 2]]

/-- `meshes_3`: src/Omega_h_swap3d_tables.hpp:65-65. -/
def meshes3 : List Nat := [0]

/-- `triangles_4`: src/Omega_h_swap3d_tables.hpp:67-68. -/
def triangles4 : List (List Nat) := [[0, 1, 2], [0, 2, 3], [0, 1, 3], [1, 2, 3]]

/-- `meshes_4`: src/Omega_h_swap3d_tables.hpp:70-70. -/
def meshes4 : List Nat := [0, 1, 2, 3]

/-- `triangles_5`: src/Omega_h_swap3d_tables.hpp:72-74. -/
def triangles5 : List (List Nat) := [[0, 1, 2], [0, 2, 3], [0, 3, 4], [0, 1, 4], [1, 3, 4], [1, 2,
    3], [2, 3, 4], [0, 2, 4], [0, 1, 3], [1, 2, 4]]

/-- `meshes_5`: src/Omega_h_swap3d_tables.hpp:76-77. -/
def meshes5 : List Nat := [0, 1, 2, 3, 4, 5, 0, 6, 7, 2, 5, 8, 3, 6, 9]

/-- `triangles_6`: src/Omega_h_swap3d_tables.hpp:79-82. -/
def triangles6 : List (List Nat) := [[0, 1, 2], [0, 2, 3], [0, 3, 4], [0, 4, 5], [0, 2, 5], [2, 4,
    5], [2, 3, 4], [0, 3, 5], [3, 4, 5], [0, 2, 4], [2, 3, 5], [1, 2, 3], [0, 1, 3], [0, 1, 5], [1,
    4, 5], [1, 3, 4], [0, 1, 4], [1, 3, 5], [1, 2, 4], [1, 2, 5]]

/-- `meshes_6`: src/Omega_h_swap3d_tables.hpp:84-87. -/
def meshes6 : List Nat := [0, 1, 2, 3, 0, 4, 5, 6, 0, 1, 7, 8, 0, 3, 6, 9, 0, 4, 8, 10, 2, 3, 11,
    12, 11, 13, 14, 15, 7, 8, 11, 12, 3, 11, 15, 16, 8, 11, 13, 17, 6, 13, 14, 18, 3, 6, 16, 18, 5,
    6, 13, 19, 8, 10, 13, 19]

/-- `triangles_7`: src/Omega_h_swap3d_tables.hpp:89-94. -/
def triangles7 : List (List Nat) := [[0, 1, 2], [0, 2, 3], [0, 3, 4], [0, 4, 5], [0, 5, 6], [0, 3,
    6], [3, 5, 6], [3, 4, 5], [0, 4, 6], [4, 5, 6], [0, 3, 5], [3, 4, 6], [0, 2, 4], [2, 3, 4], [0,
    2, 6], [2, 5, 6], [2, 4, 5], [0, 2, 5], [2, 4, 6], [2, 3, 5], [2, 3, 6], [0, 1, 3], [1, 2, 3],
    [0, 1, 4], [1, 3, 4], [0, 1, 6], [1, 5, 6], [1, 4, 5], [0, 1, 5], [1, 4, 6], [1, 3, 5], [1, 3,
    6], [1, 2, 4], [1, 2, 5], [1, 2, 6]]

/-- `meshes_7`: src/Omega_h_swap3d_tables.hpp:96-106. -/
def meshes7 : List Nat := [0, 1, 2, 3, 4, 0, 1, 5, 6, 7, 0, 1, 2, 8, 9, 0, 1, 4, 7, 10, 0, 1, 5, 9,
    11, 0, 3, 4, 12, 13, 0, 13, 14, 15, 16, 0, 8, 9, 12, 13, 0, 4, 13, 16, 17, 0, 9, 13, 14, 18, 0,
    7, 14, 15, 19, 0, 4, 7, 17, 19, 0, 6, 7, 14, 20, 0, 9, 11, 14, 20, 2, 3, 4, 21, 22, 5, 6, 7, 21,
    22, 2, 8, 9, 21, 22, 4, 7, 10, 21, 22, 5, 9, 11, 21, 22, 3, 4, 22, 23, 24, 22, 24, 25, 26, 27,
    8, 9, 22, 23, 24, 4, 22, 24, 27, 28, 9, 22, 24, 25, 29, 7, 22, 25, 26, 30, 4, 7, 22, 28, 30, 6,
    7, 22, 25, 31, 9, 11, 22, 25, 31, 3, 4, 13, 23, 32, 13, 25, 26, 27, 32, 8, 9, 13, 23, 32, 4, 13,
    27, 28, 32, 9, 13, 25, 29, 32, 13, 16, 25, 26, 33, 4, 13, 16, 28, 33, 13, 15, 16, 25, 34, 9, 13,
    18, 25, 34, 7, 19, 25, 26, 33, 4, 7, 19, 28, 33, 7, 15, 19, 25, 34, 6, 7, 20, 25, 34, 9, 11, 20,
    25, 34]

/-- `swap_triangles`: src/Omega_h_swap3d_tables.hpp:108-111. -/
def swapTriangles (n : Nat) : Option (List (List Nat)) :=
  match n with
  | 3 => some triangles3
  | 4 => some triangles4
  | 5 => some triangles5
  | 6 => some triangles6
  | 7 => some triangles7
  | _ => none

/-- `swap_meshes`: src/Omega_h_swap3d_tables.hpp:113-115. -/
def swapMeshes (n : Nat) : Option (List Nat) :=
  match n with
  | 3 => some meshes3
  | 4 => some meshes4
  | 5 => some meshes5
  | 6 => some meshes6
  | 7 => some meshes7
  | _ => none

/-- `unique_edges_4`: src/Omega_h_swap3d_tables.hpp:119-119. -/
def uniqueEdges4 : List (List Nat) := [[2, 0], [1, 3]]

/-- `unique_edges_5`: src/Omega_h_swap3d_tables.hpp:121-122. -/
def uniqueEdges5 : List (List Nat) := [[2, 0], [3, 0], [1, 4], [1, 3], [4, 2], [0, 3], [3, 1]]

/-- `unique_edges_6`: src/Omega_h_swap3d_tables.hpp:124-126. -/
def uniqueEdges6 : List (List Nat) := [[2, 0], [3, 0], [4, 0], [2, 5], [2, 4], [3, 5], [0, 4], [4,
    2], [5, 3], [0, 3], [3, 1], [1, 5], [1, 4], [4, 1], [5, 2]]

/-- `unique_edges_7`: src/Omega_h_swap3d_tables.hpp:128-131. -/
def uniqueEdges7 : List (List Nat) := [[2, 0], [3, 0], [4, 0], [5, 0], [3, 6], [3, 5], [4, 6], [0,
    5], [5, 3], [6, 4], [0, 4], [2, 4], [4, 2], [2, 6], [2, 5], [5, 2], [6, 3], [0, 3], [1, 3], [3,
    1], [1, 4], [4, 1], [1, 6], [1, 5], [5, 1], [6, 2]]

/-- `unique_edges`: src/Omega_h_swap3d_tables.hpp:133-135. -/
def uniqueEdges (n : Nat) : Option (List (List Nat)) :=
  match n with
  | 4 => some uniqueEdges4
  | 5 => some uniqueEdges5
  | 6 => some uniqueEdges6
  | 7 => some uniqueEdges7
  | _ => none

/-- `edges2unique_4`: src/Omega_h_swap3d_tables.hpp:137-139, 263-264. -/
def edges2Unique4 : List (List Nat) := [[0], [1]]

/-- `edges2unique_5`: src/Omega_h_swap3d_tables.hpp:141-149, 266-268. -/
def edges2Unique5 : List (List Nat) := [[0, 1], [2, 3], [0, 4], [5, 6], [2, 4]]

/-- `edges2unique_6`: src/Omega_h_swap3d_tables.hpp:151-177, 270-274. -/
def edges2Unique6 : List (List Nat) := [[0, 1, 2], [0, 3, 4], [0, 1, 5], [0, 6, 7], [0, 3, 8], [9,
    2, 10], [10, 11, 12], [9, 5, 10], [6, 10, 13], [8, 10, 11], [7, 11, 12], [6, 7, 12], [4, 14,
    11], [8, 14, 11]]

/-- `edges2unique_7`: src/Omega_h_swap3d_tables.hpp:179-261, 276-287. -/
def edges2Unique7 : List (List Nat) := [[0, 1, 2, 3], [0, 1, 4, 5], [0, 1, 2, 6], [0, 1, 7, 8], [0,
    1, 4, 9], [0, 10, 3, 11], [0, 12, 13, 14], [0, 10, 6, 11], [0, 7, 12, 15], [0, 9, 12, 13], [0,
    8, 13, 14], [0, 7, 8, 14], [0, 5, 16, 13], [0, 9, 16, 13], [17, 2, 3, 18], [17, 4, 5, 18], [17,
    2, 6, 18], [7, 8, 17, 18], [17, 4, 9, 18], [10, 3, 19, 20], [19, 21, 22, 23], [10, 6, 19, 20],
    [7, 19, 21, 24], [9, 19, 21, 22], [8, 19, 22, 23], [7, 8, 19, 23], [5, 16, 19, 22], [9, 16, 19,
    22], [10, 3, 12, 20], [12, 22, 23, 20], [10, 6, 12, 20], [7, 12, 20, 24], [9, 12, 22, 20], [12,
    15, 22, 23], [7, 12, 15, 23], [12, 14, 25, 22], [9, 12, 25, 22], [8, 15, 22, 23], [7, 8, 15,
    23], [8, 14, 25, 22], [5, 16, 25, 22], [9, 16, 25, 22]]

/-- `edges2unique`: src/Omega_h_swap3d_tables.hpp:289-291. -/
def edges2Unique (n : Nat) : Option (List (List Nat)) :=
  match n with
  | 4 => some edges2Unique4
  | 5 => some edges2Unique5
  | 6 => some edges2Unique6
  | 7 => some edges2Unique7
  | _ => none

/-- `nedges`: src/Omega_h_swap3d_tables.hpp:293-294. -/
def swapNedges : List Nat := [0, 0, 0, 0, 1, 2, 3, 4]

/-! ## The loop around an edge -/

/-- `Loop`: src/Omega_h_swap3d_loop.hpp:18-22. `verts = none` is the value returned early for more
than 7 tets, where the vertices are left uninitialised. -/
structure Loop where
  size : Nat
  eev2v : List Nat
  verts : Option (List Nat)
deriving DecidableEq, Repr

/-- One pair of `tmp_edges`: src/Omega_h_swap3d_loop.hpp:43-58. -/
def loopEdge (tv2v : List Nat) (tet : Nat) (code : Int) : Option (Nat × Nat) := do
  let rre := codeWhichDown code
  let rot := codeRotation code
  let rreOpp := simplexOppositeTemplate 3 1 rre
  -- `rot ^ eev`; outside 0..3 the down template is -1, an invalid index
  let vert (eev : Nat) : Option Nat := do
    let rrv := simplexDownTemplate 3 1 rreOpp (rot.toNat ^^^ eev : Nat)
    if 0 ≤ rrv then tv2v[tet * 4 + rrv.toNat]? else none
  let a ← vert 0
  let b ← vert 1
  pure (a, b)

/-- The search for the next loop edge: src/Omega_h_swap3d_loop.hpp:67-71. -/
def findNext (es : List (Nat × Nat)) (v : Nat) (n : Nat) : Nat → Nat → Option Nat
  | 0, _ => none
  | fuel + 1, j =>
    if j < n then
      match es[j]? with
      | none => none
      | some e => if e.1 = v then some j else findNext es v n fuel (j + 1)
    else none

/-- One iteration of the ordering loop: src/Omega_h_swap3d_loop.hpp:66-73. Entries past the loop size
are never accessed, so the array of 7 pairs is modelled by its first `n` ones. -/
def orderStep (n : Nat) (es : List (Nat × Nat)) (i : Nat) : Res (List (Nat × Nat)) :=
  match es[i]? with
  | none => .ub
  | some e =>
    match findNext es e.2 n n (i + 1) with
    | none => .fail
    | some j => Res.ofOption (swapAt es (i + 1) j)

/-- src/Omega_h_swap3d_loop.hpp:66-73. -/
def orderLoop (es : List (Nat × Nat)) : Res (List (Nat × Nat)) :=
  (List.range (es.length - 1)).foldl (fun r i => r.bind (fun es => orderStep es.length es i)) (.ok es)

/-- `tmp_edges[edge_tet - begin_use]`: src/Omega_h_swap3d_loop.hpp:44-46,57. -/
def tmpEdge (et2t : List Nat) (codes : List Int) (tv2v : List Nat) (et : Nat) : Option (Nat × Nat) :=
  match et2t[et]?, codes[et]? with
  | some t, some c => loopEdge tv2v t c
  | _, _ => none

/-- `find_loop`: src/Omega_h_swap3d_loop.hpp:24-78. -/
def findLoop (e2et et2t : List Nat) (codes : List Int) (ev2v tv2v : List Nat) (edge : Nat) : Res Loop :=
  match e2et[edge]?, e2et[edge + 1]? with
  | some lo, some hi =>
    if hi < lo then .ub else
    if hi - lo > 7 then .ok ⟨hi - lo, [], none⟩ else
    if hi - lo < 3 then .fail else
    (Res.ofOption (rowAt ev2v 2 edge)).bind fun eev =>
    (Res.ofOption ((List.range' lo (hi - lo)).mapM (tmpEdge et2t codes tv2v))).bind fun es =>
    (orderLoop es).bind fun es' =>
    .ok ⟨hi - lo, eev, some (es'.map Prod.fst)⟩
  | _, _ => .ub

/-! ## New entities -/

/-- The two tets on a triangle of the loop: src/Omega_h_swap3d_topology.cpp:96-109. -/
def planeTets (e0 e1 : Nat) : List Nat → Option (List (List Nat))
  | [a, b, c] => some [[a, c, b, e0], [a, b, c, e1]]
  | _ => none

/-- The entities made for one edge: edges, triangles and tets, each as its vertex list.
src/Omega_h_swap3d_topology.cpp:55-112. -/
def swap3dProds (eev : List Nat) (verts : List Nat) (config : Nat) :
    Option (List (List Nat) × List (List Nat) × List (List Nat)) := do
  let n := verts.length
  let ntris ← swapMeshSizes[n]?
  let nedges ← swapNedges[n]?
  let lift (ls : List Nat) : Option (List Nat) := ls.mapM (fun l => verts[l]?)
  let edges ← (List.range nedges).mapM (fun pe => do
    let u ← (← (← edges2Unique n)[config]?)[pe]?
    lift (← (← uniqueEdges n)[u]?))
  let tris ← (List.range ntris).mapM (fun pt => do
    let u ← (← swapMeshes n)[config * ntris + pt]?
    lift (← (← swapTriangles n)[u]?))
  let e0 ← eev[0]?
  let e1 ← eev[1]?
  let sideTris := edges.flatMap (fun e => [e ++ [e0], e ++ [e1]])
  let tets ← tris.mapM (planeTets e0 e1)
  pure (edges, sideTris ++ tris, tets.flatten)

/-- Numbers of new edges, triangles and tets of one key: src/Omega_h_swap3d_topology.cpp:21-33. A loop
size above 7 reads past the tables (`none`). -/
def swap3dKeyCounts (e2et keys2edges : List Nat) (key : Nat) : Option (Nat × Nat × Nat) := do
  let edge ← keys2edges[key]?
  let lo ← e2et[edge]?
  let hi ← e2et[edge + 1]?
  let ntris ← if lo ≤ hi then swapMeshSizes[hi - lo]? else none
  let nedges ← swapNedges[hi - lo]?
  pure (nedges, ntris + 2 * nedges, 2 * ntris)

/-- `swap3d_keys_to_prods` for one dimension, selected by `sel`: src/Omega_h_swap3d_topology.cpp:12-40.
The loop writes three arrays; each is followed separately. -/
def swap3dKeysToProds (s : Sched) (e2et keys2edges : List Nat) (sel : Nat × Nat × Nat → Nat) :
    Option (List Nat) := do
  let counts ← (parScatter s keys2edges.length (fun key =>
    (swap3dKeyCounts e2et keys2edges key).map (fun c => [(key, sel c)]))
    (Mem.alloc keys2edges.length)).bind Mem.toArray?
  pure (offsetScan counts)

/-- What one key produces: src/Omega_h_swap3d_topology.cpp:57-111. The configuration is a nonnegative
`I8`. A failed check and a read of the uninitialised vertices of an oversized loop are both `none`. -/
def swap3dKeyProds (e2et et2t : List Nat) (codes : List Int) (ev2v tv2v : List Nat)
    (keys2edges configs : List Nat) (key : Nat) :
    Option (List (List Nat) × List (List Nat) × List (List Nat)) := do
  let edge ← keys2edges[key]?
  let config ← configs[edge]?
  match findLoop e2et et2t codes ev2v tv2v edge with
  | .ok ⟨_, eev, some verts⟩ => swap3dProds eev verts config
  | _ => none

/-- `swap3d_topology` for the products of dimension `dim`, selected by `sel`:
src/Omega_h_swap3d_topology.cpp:42-119. `prods key` is `swap3dKeyProds` of the mesh arrays; the loop
writes three arrays, each followed separately. -/
def swap3dTopology (s : Sched)
    (prods : Nat → Option (List (List Nat) × List (List Nat) × List (List Nat))) (nkeys dim : Nat)
    (sel : List (List Nat) × List (List Nat) × List (List Nat) → List (List Nat))
    (keys2prods : List Nat) : Option (List Nat) := do
  let last ← keys2prods.getLast?
  (parScatter s nkeys (fun key => do
    let P ← prods key
    let first ← keys2prods[key]?
    pure (blockWrites (first * (dim + 1)) (sel P).flatten))
    (Mem.alloc (last * (dim + 1)))).bind Mem.toArray?

end OmegaH
