import Verif.Model.Refine
import Verif.Model.Map
/-!
# Which edges may be split: src/Omega_h_refine_qualities.cpp, src/Omega_h_refine.cpp

Qualities are elements of a linear order `K`, so they have no NaN. Points and metrics are opaque: the midpoint of two points, the average
of two metrics and the quality of an element with these points and metrics are arguments. One rank: `sync_subset_array` returns its
argument (src/Omega_h_mesh.cpp:601). Dimensions 2 and 3; in 1D the qualities are not computed from elements.
-/
namespace OmegaH

variable {K V M : Type}

/-- What the qualities are computed from. `mid` is src/Omega_h_refine_qualities.cpp:51, `avg` is `average_metric` of two metrics, and
`quality` is `maxdet_metric` followed by `metric_element_quality`: src/Omega_h_refine_qualities.cpp:30-31, src/Omega_h_quality.hpp. -/
structure QualData (K V M : Type) where
  mid : V → V → V
  avg : M → M → M
  quality : List V → List M → K

/-- `measure_qualities` for one element: src/Omega_h_quality.cpp:13-17 and `MetricElementQualities::measure` in
src/Omega_h_quality.hpp. -/
def measureQuality (d : QualData K V M) (coords : List V) (metrics : List M) (verts : List Nat) : Option K :=
  (verts.mapM (fun v => coords[v]?)).bind (fun ps => (verts.mapM (fun v => metrics[v]?)).map (fun ms => d.quality ps ms))

/-- `get_mident_metrics` for edges: src/Omega_h_metric.cpp:56-71. -/
def midMetrics (s : Sched) (d : QualData K V M) (metrics : List M) (ev2v entities : List Nat) : Option (List M) :=
  (parScatter s entities.length (fun a => ((entities[a]?).bind (fun e => (ev2v[e * 2]?).bind (fun v => (ev2v[e * 2 + 1]?).bind (fun w =>
    (metrics[v]?).bind (fun m => (metrics[w]?).map (fun n => d.avg m n)))))).map (fun m => [(a, m)]))
    (Mem.alloc entities.length)).bind Mem.toArray?

/-- The vertices of the side opposite to endpoint `eev`: src/Omega_h_refine_qualities.cpp:64-71. -/
def sideVerts (cv2v : List Nat) (dim c : Nat) (code : Int) (eev : Nat) : Option (List Nat) :=
  let cce := codeWhichDown code
  let rot := codeRotation code
  let ccv := simplexDownTemplate dim 1 cce ((eev ^^^ rot.toNat : Nat) : Int)
  let ccs := simplexOppositeTemplate dim 0 ccv
  (List.range dim).mapM (fun (csv : Nat) =>
    let ccv2 := simplexDownTemplate dim ((dim : Int) - 1) ccs (csv : Int)
    if 0 ≤ ccv2 then cv2v[c * (dim + 1) + ccv2.toNat]? else none)

/-- `flip_new_elem`: src/Omega_h_refine_topology.hpp:55-58. -/
def flipNewElem {α : Type} (dim : Nat) (l : List α) : Option (List α) := if dim = 3 then swapAt l 1 2 else some l

/-- The quality of the new cell at endpoint `eev`: src/Omega_h_refine_qualities.cpp:59-78 and 22-32. -/
def halfQuality (d : QualData K V M) (coords : List V) (metrics : List M) (cv2v : List Nat) (dim c : Nat) (code : Int) (eev : Nat) (midp : V)
    (midm : M) : Option K :=
  (sideVerts cv2v dim c code eev).bind (fun vs =>
    (vs.mapM (fun v => coords[v]?)).bind (fun ps =>
      (flipNewElem dim vs).bind (fun csv2v => (flipNewElem dim (ps ++ [midp])).bind (fun ncp =>
        (csv2v.mapM (fun v => metrics[v]?)).map (fun ms => d.quality ncp (ms ++ [midm]))))))

/-- The kernel for one candidate: src/Omega_h_refine_qualities.cpp:47-82. -/
def splitQuality [Min K] (d : QualData K V M) (one : K) (coords : List V) (metrics midms : List M) (mesh : RefineMesh) (dim : Nat)
    (cands : List Nat) (cand : Nat) : Option K :=
  (cands[cand]?).bind (fun e => ((mesh.vertsOf 1)[e * 2]?).bind (fun v => ((mesh.vertsOf 1)[e * 2 + 1]?).bind (fun w =>
    (coords[v]?).bind (fun p => (coords[w]?).bind (fun q => (midms[cand]?).bind (fun midm =>
      (fanMembers (mesh.upOffsets dim) e).bind (fun ecs =>
        (ecs.mapM (fun ec => ((mesh.upEnts dim)[ec]?).bind (fun c => ((mesh.upCodes dim)[ec]?).bind (fun code =>
          (halfQuality d coords metrics (mesh.vertsOf dim) dim c code 0 (d.mid p q) midm).bind (fun q0 =>
            (halfQuality d coords metrics (mesh.vertsOf dim) dim c code 1 (d.mid p q) midm).map (fun q1 => [q0, q1])))))).map (fun qs =>
          qs.flatten.foldl min one))))))))

/-- `refine_qualities`: src/Omega_h_refine_qualities.cpp:35-86. -/
def refineQualities [Min K] (s1 s2 : Sched) (d : QualData K V M) (one : K) (coords : List V) (metrics : List M) (mesh : RefineMesh) (dim : Nat)
    (cands : List Nat) : Option (List K) :=
  (midMetrics s1 d metrics (mesh.vertsOf 1) cands).bind (fun midms =>
    (parScatter s2 cands.length (fun cand => (splitQuality d one coords metrics midms mesh dim cands cand).map (fun q => [(cand, q)]))
      (Mem.alloc cands.length)).bind Mem.toArray?)

/-- `refine_ghosted` up to the choice among the good candidates: src/Omega_h_refine.cpp:19-29, on one rank. The marks of the edges that
may be split and the qualities of the edges; `some none` if there are none. -/
def refineInitial [Min K] [LE K] [DecidableLE K] (s : Nat → Sched) (d : QualData K V M) (one zero allowed : K) (coords : List V)
    (metrics : List M) (mesh : RefineMesh) (dim : Nat) (marks : List Int) : Option (Option (List Int × List K)) :=
  (collectMarked (s 0) marks).bind (fun cands => (refineQualities (s 1) (s 2) d one coords metrics mesh dim cands).bind (fun quals =>
    (mapEach (s 3) (fun q => some (b2i (decide (allowed ≤ q)))) quals).bind (fun good =>
      if (1 : Int) ∈ good then
        (mapOnto (s 4) good cands marks.length 0 1).bind (fun initial =>
          (mapOnto (s 5) quals cands marks.length zero 1).map (fun edgeQuals => some (initial, edgeQuals)))
      else some none)))

end OmegaH
