import Verif.Model.Collapse
import Verif.Model.Swap2d
import Verif.Model.Swap3d
import Mathlib.Algebra.Ring.Defs
/-!
# Choosing which edges to swap, and how: src/Omega_h_swap3d_choice.hpp, src/Omega_h_swap3d_qualities.cpp,
src/Omega_h_swap2d_qualities.cpp, src/Omega_h_swap.cpp, src/Omega_h_swap2d.cpp, src/Omega_h_swap3d.cpp

Real numbers are elements of a linearly ordered ring `K` (no NaN). The length of an edge and the quality of
an element are functions of their vertices, `none` if they are not defined; how they follow from coordinates
and metric is not modelled.
-/
namespace OmegaH
section
variable {K : Type} [Ring K] [LinearOrder K]

/-- Look up entry `i` of a cache, an array of values with an array of flags that say which ones have been
computed, and compute it if it has not been: src/Omega_h_swap3d_choice.hpp:21-24, 33, 58-61. -/
def cached (cache : List (Option K)) (i : Nat) (compute : Option K) : Option (K × List (Option K)) :=
  match cache[i]? with
  | none => none
  | some (some x) => some (x, cache)
  | some none => compute.map (fun x => (x, cache.set i (some x)))

/-- The smaller quality of the two tets on a triangle of the loop: src/Omega_h_swap3d_choice.hpp:34-57. -/
def swapTriQuality (quality : List Nat → Option K) (eev verts tri : List Nat) : Option K :=
  (tri.mapM (fun l => verts[l]?)).bind (fun t => match t, eev with
    | [a, b, c], [e0, e1] => (quality [a, b, c, e1]).bind (fun q1 => (quality [a, c, b, e0]).map (fun q0 =>
        min (min 1 q1) q0))
    | _, _ => none)

/-- The loop over the triangles of a configuration: src/Omega_h_swap3d_choice.hpp:31-67. -/
def swapMeshQuality (uniq : Nat → Option Nat) (measure : Nat → Option K) :
    List Nat → K → List (Option K) → Option (K × List (Option K))
  | [], q, cache => some (q, cache)
  | t :: ts, q, cache => (uniq t).bind (fun u => (cached cache u (measure u)).bind (fun x =>
      if min q x.1 < 0 then some (min q x.1, x.2) else swapMeshQuality uniq measure ts (min q x.1) x.2))

/-- The loop over the inner edges of a configuration: src/Omega_h_swap3d_choice.hpp:74-94. -/
def swapOvershoots (uniq : Nat → Option Nat) (measure : Nat → Option K) (maxLength : K) :
    List Nat → List (Option K) → Option (Bool × List (Option K))
  | [], cache => some (false, cache)
  | e :: es, cache => (uniq e).bind (fun u => (cached cache u (measure u)).bind (fun x =>
      if maxLength < x.1 then some (true, x.2) else swapOvershoots uniq measure maxLength es x.2))

/-- What the loop over the configurations carries. -/
structure SwapState (K : Type) where
  mesh : Int
  quality : K
  tris : List (Option K)
  edges : List (Option K)

/-- The tables for a loop of `n` vertices: entry of the table of triangles or edges by configuration. -/
def swapTriIndex (n mesh : Nat) (t : Nat) : Option Nat :=
  (swapMeshSizes[n]?).bind (fun ntris => (swapMeshes n).bind (fun l => l[mesh * ntris + t]?))

/-- `edges2unique`: src/Omega_h_swap3d_choice.hpp:75. -/
def swapEdgeIndex (n mesh : Nat) (e : Nat) : Option Nat :=
  (edges2Unique n).bind (fun l => (l[mesh]?).bind (fun r => r[e]?))

/-- One configuration in `choose`: src/Omega_h_swap3d_choice.hpp:28-100. -/
def chooseStep (quality length : List Nat → Option K) (maxLength : K) (n : Nat) (eev verts : List Nat)
    (st : SwapState K) (mesh : Nat) : Option (SwapState K) :=
  (swapMeshSizes[n]?).bind (fun ntris => (swapNedges[n]?).bind (fun nedges =>
    (swapMeshQuality (swapTriIndex n mesh)
      (fun u => (swapTriangles n).bind (fun l => (l[u]?).bind (fun tri => swapTriQuality quality eev verts tri)))
      (List.range ntris) 1 st.tris).bind (fun x =>
        if st.quality < x.1 then
          (swapOvershoots (swapEdgeIndex n mesh)
            (fun u => (uniqueEdges n).bind (fun l => (l[u]?).bind (fun edge =>
              (edge.mapM (fun v => verts[v]?)).bind length)))
            maxLength (List.range nedges) st.edges).bind (fun y =>
              some (if y.1 then ⟨st.mesh, st.quality, x.2, y.2⟩ else ⟨(mesh : Int), x.1, x.2, y.2⟩))
        else some ⟨st.mesh, st.quality, x.2, st.edges⟩)))

/-- `choose`: src/Omega_h_swap3d_choice.hpp:15-102. -/
def chooseSwap (quality length : List Nat → Option K) (maxLength : K) (n : Nat) (eev verts : List Nat) :
    Option (Int × K) :=
  (swapMeshCounts[n]?).bind (fun nmeshes =>
    ((List.range nmeshes).foldlM (chooseStep quality length maxLength n eev verts)
      ⟨-1, 0, List.replicate 35 none, List.replicate 26 none⟩).map (fun st => (st.mesh, st.quality)))

/-- What one rank holds. `up` are the elements around the edges, `cv2v` the vertices of the elements. -/
structure SwapRank (K : Type) where
  nedges : Nat
  ownerRanks : List Nat
  up : Adj
  ev2v : List Nat
  cv2v : List Nat
  elemQuals : List K
  lengthOf : List Nat → Option K
  qualityOf : List Nat → Option K

/-- The kernel of `swap3d_qualities_tmpl` at an edge that is owned: src/Omega_h_swap3d_qualities.cpp:37-49.
The configuration is below 42 and so fits into the `I8` it is stored in. -/
def swapMeasure3 (maxLength : K) (m : SwapRank K) (e : Nat) : Option (Int × K) :=
  m.up.codes.bind (fun codes => match findLoop m.up.a2ab m.up.ab2b codes m.ev2v m.cv2v e with
    | .ok l => if 7 < l.size then some (-1, -1)
        else l.verts.bind (chooseSwap m.qualityOf m.lengthOf maxLength l.size l.eev2v)
    | _ => none)

/-- The kernel of `swap2d_qualities_tmpl` at an edge that is owned: src/Omega_h_swap2d_qualities.cpp:40-70.
There is one configuration only, numbered 0 here. The opposite vertices start uninitialised, which is marked by -42: vertices are
not negative. -/
def swapMeasure2 (maxLength : K) (m : SwapRank K) (e : Nat) : Option (Int × K) :=
  m.up.codes.bind (fun codes => (m.up.a2ab[e]?).bind (fun lo => (m.up.a2ab[e + 1]?).bind (fun hi =>
    if hi = 2 + lo then
      (swap2dOpposite m.up.a2ab m.up.ab2b codes m.cv2v e [-42, -42] 0).bind (fun ov =>
      (swap2dOpposite m.up.a2ab m.up.ab2b codes m.cv2v e ov 1).bind (fun ov =>
        match ov with
        | [.ofNat o0, .ofNat o1] => (m.lengthOf [o0, o1]).bind (fun l =>
            if maxLength < l then some (0, -1)
            else (m.ev2v[e * 2 + 0]?).bind (fun v0 => (m.ev2v[e * 2 + 1]?).bind (fun v1 =>
              (m.qualityOf [v1, o0, o1]).bind (fun q => (m.qualityOf [v0, o1, o0]).map (fun q' =>
                (0, min (min 1 q) q'))))))
        | _ => none))
    else none)))

/-- `swap2d_qualities` and `swap3d_qualities` on one rank before synchronisation:
src/Omega_h_swap2d_qualities.cpp:28-72, src/Omega_h_swap3d_qualities.cpp:24-51. `owned` is `Mesh::owned`:
src/Omega_h_mesh.cpp:465-468. The two arrays are stored at the same indices and are modelled as one array of pairs. -/
def swapQualities (s : Nat → Sched) (measure : SwapRank K → Nat → Option (Int × K)) (rank : Nat) (m : SwapRank K)
    (cands : List Nat) : Option (List (Int × K)) :=
  (mapEach (s 0) (fun x => some (b2i (decide (x = rank)))) m.ownerRanks).bind (fun owned =>
    (parScatter (s 1) cands.length (fun cand => (cands[cand]?).bind (fun e => (owned[e]?).bind (fun o =>
      (if o = 0 then some (-1, -1) else measure m e).map (fun x => [(cand, x)]))))
      (Mem.alloc cands.length)).bind Mem.toArray?)

/-- The old qualities at the edges in `filter_swap_improve`: src/Omega_h_swap.cpp:37-39, and `graph_reduce`:
src/Omega_h_graph.cpp:61-67. -/
def edgeOldQuals (s1 s2 : Sched) (top : K) (m : SwapRank K) : Option (List K) :=
  (unmap s1 m.up.ab2b m.elemQuals 1).bind (fun ab => fanReduce s2 (minFunctorK top) m.up.a2ab ab 1)

/-- `filter_swap_improve` after the synchronisation and `filter_swap`: src/Omega_h_swap.cpp:29-33, 41-42. -/
def filterSwap (s : Nat → Sched) (cands : List Nat) (vals : List (Int × K)) (old : List K) :
    Option (List Nat × List K) := do
  let quals := vals.map Prod.snd
  let candOld ← unmap (s 0) cands old 1
  let keep ← zipEach (s 1) (fun q o => some (b2i (decide (o < q)))) quals candOld
  let kept2old ← collectMarked (s 2) keep
  let cands' ← unmap (s 3) kept2old cands 1
  let quals' ← unmap (s 4) kept2old quals 1
  pure (cands', quals')

/-- What `find_indset` is given and the configurations: marks, qualities and configurations of the edges. -/
structure SwapMarks (K : Type) where
  marks : List Int
  quals : List K
  configs : List Int

/-- `swap2d_ghosted` and `swap3d_ghosted` up to the independent set: src/Omega_h_swap2d.cpp:14-25,
src/Omega_h_swap3d.cpp:14-29. `some none`: no edge can be swapped and the function returns `false`. -/
def swapGhosted (s : Nat → Nat → Nat → Sched) (owners : Option (List Remotes)) (ranks : List (SwapRank K))
    (measure : SwapRank K → Nat → Option (Int × K)) (top : K) (marks : List (List Int)) :
    Option (Option (List (SwapMarks K))) := do
  let cands ← onRanks marks (fun r l => collectMarked (s 0 r 0) l)
  let vals0 ← onRanks ranks (fun r m => (cands[r]?).bind (fun c => swapQualities (s 1 r) measure r m c))
  let vals ← syncSubset (s 2) owners (ranks.map SwapRank.nedges) cands (-1, -1) 1 vals0
  let configs ← onRanks ranks (fun r m => (cands[r]?).bind (fun c => (vals[r]?).bind (fun v =>
    mapOnto (s 3 r 0) (v.map Prod.fst) c m.nedges (-1) 1)))
  let old0 ← onRanks ranks (fun r m => edgeOldQuals (s 4 r 0) (s 4 r 1) top m)
  let old ← syncValues (s 5) owners 1 old0
  let kept ← onRanks cands (fun r c => (vals[r]?).bind (fun v => (old[r]?).bind (fun o => filterSwap (s 6 r) c v o)))
  if kept.all (fun k => k.1.isEmpty) then pure none
  else do
    let out ← onRanks ranks (fun r m => (kept[r]?).bind (fun k => (configs[r]?).bind (fun cf =>
      (markImage (s 7 r 0) k.1 m.nedges).bind (fun mk =>
        (mapOnto (s 7 r 1) k.2 k.1 m.nedges (-1) 1).map (fun q => (⟨mk, q, cf⟩ : SwapMarks K))))))
    pure (some out)

end
end OmegaH
