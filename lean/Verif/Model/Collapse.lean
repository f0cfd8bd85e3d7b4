import Verif.Model.Coarsen
import Verif.Model.Dist
import Verif.Model.ArrayOps
import Mathlib.Order.Defs.LinearOrder
/-!
# Choosing which edges to collapse: src/Omega_h_coarsen.cpp, src/Omega_h_check_collapse.cpp,
src/Omega_h_coarsen_overshoot.cpp, src/Omega_h_coarsen_qualities.cpp, src/Omega_h_collapse_rail.cpp

Meshes of triangles and tetrahedra. Real numbers are elements of a linear order `K` (no NaN). How the
length of an edge and the quality of an element follow from coordinates and metric is not modelled: the
two measures are functions of the vertices, `none` if they are not defined. `prevent_coarsen_flip`
(src/Omega_h_coarsen_flip.cpp), which is off by default, and meshes of dimension one are not modelled.
A collapse code is a number whose bit `i` says that end `i` of the edge may collapse onto the other one.
-/
namespace OmegaH

/-- `collapses`: src/Omega_h_collapse.hpp:18-20. -/
def collapses (code i : Nat) : Bool := code.testBit i

/-- `do_collapse`: src/Omega_h_collapse.hpp:22-24. -/
def doCollapse (code i : Nat) : Nat := code ||| 2 ^ i

/-- `dont_collapse`, `code & ~(1 << i)`: src/Omega_h_collapse.hpp:26-28. -/
def dontCollapse (code i : Nat) : Nat := code ^^^ (code &&& 2 ^ i)

/-- A kernel over the candidates that computes the code of one edge from its old code. -/
def candKernel (s : Sched) (f : Nat → Nat → Option Nat) (cands codes : List Nat) : Option (List Nat) :=
  (parScatter s cands.length (fun cand => (codes[cand]?).bind (fun code => (cands[cand]?).bind (fun e =>
    (f e code).map (fun c => [(cand, c)])))) (Mem.alloc cands.length)).bind Mem.toArray?

/-- The code of an edge in `coarsen_verts`: src/Omega_h_coarsen.cpp:172-186. -/
def vertMarksCode (vertMarks : List Int) (ev2v : List Nat) (e : Nat) : Option Nat :=
  [0, 1].foldlM (fun code eev => (ev2v[e * 2 + eev]?).bind (fun v => (vertMarks[v]?).map (fun m =>
    if m ≠ 0 then doCollapse code eev else code))) 0

/-- The kernel of `coarsen_verts`: src/Omega_h_coarsen.cpp:172-187. -/
def edgeCodesOfMarks (s : Sched) (vertMarks : List Int) (ev2v : List Nat) (nedges : Nat) : Option (List Nat) :=
  (parScatter s nedges (fun e => (vertMarksCode vertMarks ev2v e).map (fun c => [(e, c)]))
    (Mem.filled nedges 0)).bind Mem.toArray?

/-- The body of `check_collapse_class`: src/Omega_h_check_collapse.cpp:17-42. -/
def classCode (vertClass edgeClass : List Int) (ev2v : List Nat) (e code : Nat) : Option Nat := do
  let v0 ← ev2v[e * 2 + 0]?
  let v1 ← ev2v[e * 2 + 1]?
  let c0 ← vertClass[v0]?
  let c1 ← vertClass[v1]?
  let ce ← edgeClass[e]?
  if c0 = c1 then
    pure (if c0 ≠ ce then 0 else code)
  else
    let code0 := if collapses code 0 then (if c0 ≠ ce then dontCollapse code 0 else code) else code
    pure (if collapses code 1 then (if c1 ≠ ce then dontCollapse code0 1 else code0) else code0)

/-- The side opposite to the vertex that an edge collapses onto, in a cell around the edge with the code
`ecCode`: src/Omega_h_check_collapse.cpp:88-94. -/
def oppositeSide (dim : Nat) (cs2s : List Nat) (c : Nat) (ecCode : Int) (col : Nat) : Option Nat :=
  let cce := codeWhichDown ecCode
  let rot := codeRotation ecCode
  let cevOnto : Nat := rot.toNat ^^^ (1 - col)
  let ccvOnto := simplexDownTemplate dim 1 cce (cevOnto : Int)
  let ccsOpp := simplexOppositeTemplate dim 0 ccvOnto
  if 0 ≤ ccsOpp then cs2s[c * (simplexDegree dim ((dim : Int) - 1)).toNat + ccsOpp.toNat]? else none

/-- The body of `check_collapse_exposure` for one cell dimension:
src/Omega_h_check_collapse.cpp:80-101. -/
def exposureCode (dim : Nat) (e2c : Adj) (cs2s : List Nat) (cellClass sideClass : List Int) (e code : Nat) :
    Option Nat := do
  let ecCodes ← e2c.codes
  let ecs ← fanMembers e2c.a2ab e
  ecs.foldlM (fun code ec => do
    let c ← e2c.ab2b[ec]?
    let ecCode ← ecCodes[ec]?
    let cd ← cellClass[c]?
    [0, 1].foldlM (fun code col =>
      if collapses code col then do
        let s ← oppositeSide dim cs2s c ecCode col
        let sd ← sideClass[s]?
        pure (if sd ≠ cd then dontCollapse code col else code)
      else pure code) code) code

/-- What one rank holds. `classDim d`, `upEdge d` and `down d` are the dimensions of the entities of the
model that entities of dimension `d` are on, the entities of dimension `d` around the edges and their
sides. `lengthOf` and `qualityOf` are the measures of `MetricEdgeLengths` and `MetricElementQualities`. -/
structure CollapseRank (K : Type) where
  nverts : Nat
  nedges : Nat
  classDim : Nat → List Int
  ev2v : List Nat
  v2e : Adj
  upEdge : Nat → Adj
  down : Nat → List Nat
  v2c : Adj
  cv2v : List Nat
  edgeGlobals : List Int
  lengths : List K
  elemQuals : List K
  lengthOf : Nat → Nat → Option K
  qualityOf : List Nat → Option K

section
variable {K : Type} [LinearOrder K]

/-- The loop over the edges at the vertex that goes away: src/Omega_h_coarsen_overshoot.cpp:29-43. -/
def anyTooLong (m : CollapseRank K) (maxLength : K) (codes : List Int) (e vOnto : Nat) : List Nat → Option Bool
  | [] => some false
  | ve :: rest => do
    let e2 ← m.v2e.ab2b[ve]?
    if e2 = e then anyTooLong m maxLength codes e vOnto rest
    else do
      let e2Code ← codes[ve]?
      let eevIn := codeWhichDown e2Code
      let eevOut := 1 - eevIn
      if 0 ≤ eevIn ∧ 0 ≤ eevOut then do
        let vOut ← m.ev2v[e2 * 2 + eevOut.toNat]?
        let length ← (if eevIn = 0 then m.lengthOf vOnto vOut else m.lengthOf vOut vOnto)
        if maxLength ≤ length then some true else anyTooLong m maxLength codes e vOnto rest
      else none

/-- The body of `prevent_coarsen_overshoot_tmp`: src/Omega_h_coarsen_overshoot.cpp:21-46. -/
def overshootCode (m : CollapseRank K) (maxLength : K) (e code : Nat) : Option Nat :=
  [0, 1].foldlM (fun code col =>
    if collapses code col then do
      let vCol ← m.ev2v[e * 2 + col]?
      let vOnto ← m.ev2v[e * 2 + (1 - col)]?
      let codes ← m.v2e.codes
      let ves ← fanMembers m.v2e.a2ab vCol
      let long ← anyTooLong m maxLength codes e vOnto ves
      pure (if long then dontCollapse code col else code)
    else pure code) code

/-- The smallest quality of the elements after a collapse: src/Omega_h_coarsen_qualities.cpp:35-56. -/
def collapseQuality (m : CollapseRank K) (one : K) (dim vCol vOnto : Nat) : Option K := do
  let codes ← m.v2c.codes
  let vcs ← fanMembers m.v2c.a2ab vCol
  vcs.foldlM (fun minqual vc => do
    let c ← m.v2c.ab2b[vc]?
    let code ← codes[vc]?
    let ccvCol := codeWhichDown code
    let verts ← rowAt m.cv2v (dim + 1) c
    if (List.range (dim + 1)).any (fun ccv => decide ((ccv : Int) ≠ ccvCol) && decide (verts[ccv]? = some vOnto)) then
      pure minqual
    else if 0 ≤ ccvCol ∧ ccvCol < dim + 1 then do
      let qual ← m.qualityOf (verts.set ccvCol.toNat vOnto)
      pure (min minqual qual)
    else none) one

/-- The kernel of `coarsen_qualities_tmpl`: src/Omega_h_coarsen_qualities.cpp:26-59. -/
def coarsenQualities (s : Sched) (m : CollapseRank K) (one minusOne : K) (dim : Nat) (cands codes : List Nat) :
    Option (List K) :=
  (parScatter s cands.length (fun cand => do
    let e ← cands[cand]?
    let code ← codes[cand]?
    let rows ← [0, 1].mapM (fun col =>
      if collapses code col then do
        let vCol ← m.ev2v[e * 2 + col]?
        let vOnto ← m.ev2v[e * 2 + (1 - col)]?
        let q ← collapseQuality m one dim vCol vOnto
        pure [(cand * 2 + col, q)]
      else pure [])
    pure rows.flatten) (Mem.filled (cands.length * 2) minusOne)).bind Mem.toArray?

/-- `filter_coarsen_dirs`: src/Omega_h_coarsen_qualities.cpp:89-102. -/
def filterCoarsenDirs (s : Sched) (codes : List Nat) (keepDirs : List Int) : Option (List Nat) :=
  (parScatter s codes.length (fun cand => (codes[cand]?).bind (fun code =>
    ([0, 1].foldlM (fun code dir => (keepDirs[cand * 2 + dir]?).map (fun k =>
      if k = 0 then dontCollapse code dir else code)) code).map (fun c => [(cand, c)])))
    (Mem.alloc codes.length)).bind Mem.toArray?

/-- `filter_coarsen_min_qual`: src/Omega_h_coarsen_qualities.cpp:104-108. -/
def filterMinQual (s1 s2 : Sched) (codes : List Nat) (quals : List K) (minQual : K) : Option (List Nat) :=
  (mapEach s1 (fun q => some (b2i (decide (minQual ≤ q)))) quals).bind (fun keep =>
    filterCoarsenDirs s2 codes keep)

/-- `MinFunctor<Real>`: src/Omega_h_functors.hpp:30-41, with the largest number `top`. -/
def minFunctorK (top : K) : Functor K K := ⟨top, min, id, id⟩

/-- The old qualities at the vertices in `filter_coarsen_improve`:
src/Omega_h_coarsen_qualities.cpp:112-114, and `graph_reduce`: src/Omega_h_graph.cpp:61-67. -/
def vertOldQuals (s1 s2 : Sched) (top : K) (m : CollapseRank K) : Option (List K) :=
  (unmap s1 m.v2c.ab2b m.elemQuals 1).bind (fun ab => fanReduce s2 (minFunctorK top) m.v2c.a2ab ab 1)

/-- The rest of `filter_coarsen_improve`: src/Omega_h_coarsen_qualities.cpp:116-121. -/
def filterImprove (s : Nat → Sched) (m : CollapseRank K) (cands codes : List Nat) (quals vertOld : List K) :
    Option (List Nat) := do
  let edgeOld ← unmap (s 0) m.ev2v vertOld 1
  let candOld ← unmap (s 1) cands edgeOld 2
  let keep ← zipEach (s 2) (fun q o => some (b2i (decide (o < q)))) quals candOld
  filterCoarsenDirs (s 3) codes keep

/-- `filter_coarsen_candidates`: src/Omega_h_coarsen.cpp:43-50. -/
def filterCands (s : Nat → Sched) (cands codes : List Nat) : Option (List Nat × List Nat × List Nat) := do
  let keep ← mapEach (s 0) (fun c => some (b2i (decide (c ≠ 0)))) codes
  let new2old ← collectMarked (s 1) keep
  let cands' ← unmap (s 2) new2old cands 1
  let codes' ← unmap (s 3) new2old codes 1
  pure (new2old, cands', codes')

/-- What the loop of `choose_rails` carries. -/
structure RailBest (K : Type) where
  isCand : Bool
  global : Int
  length : K
  qual : K

/-- One turn of the loop of `choose_rails`: src/Omega_h_collapse_rail.cpp:36-55. -/
def railStep (m : CollapseRank K) (edges2cands : List Int) (candCodes : List Nat) (candQuals : List K)
    (veCodes : List Int) (best : RailBest K) (ve : Nat) : Option (RailBest K) := do
  let e ← m.v2e.ab2b[ve]?
  let cand ← edges2cands[e]?
  if cand = -1 then pure best
  else if 0 ≤ cand then do
    let veCode ← veCodes[ve]?
    let eev := codeWhichDown veCode
    let code ← candCodes[cand.toNat]?
    if code = 0 then none
    else if 0 ≤ eev then
      if collapses code eev.toNat then do
        let global ← m.edgeGlobals[e]?
        let length ← m.lengths[e]?
        let qual ← candQuals[cand.toNat * 2 + eev.toNat]?
        if best.global = -1 ∨ length < best.length ∨ (length = best.length ∧ best.qual < qual) then
          pure ⟨true, global, length, qual⟩
        else pure best
      else pure best
    else none
  else none

/-- The kernel of `choose_rails`: src/Omega_h_collapse_rail.cpp:17-61. The three arrays are stored at the
same indices and are modelled as one array of triples. -/
def chooseRails (s1 s2 : Sched) (m : CollapseRank K) (minusOne : K) (cands codes : List Nat) (quals : List K) :
    Option (List (Int × K × Int)) := do
  let edges2cands ← invertInjectiveMap s1 cands m.nedges
  let veCodes ← m.v2e.codes
  (parScatter s2 m.nverts (fun v => do
    let ves ← fanMembers m.v2e.a2ab v
    let best ← ves.foldlM (railStep m edges2cands codes quals veCodes) ⟨false, -1, minusOne, minusOne⟩
    if best.isCand ∧ best.global = -1 then none
    else pure [(v, (b2i best.isCand, best.qual, best.global))]) (Mem.alloc m.nverts)).bind Mem.toArray?

/-- `Mesh::sync_array`: src/Omega_h_mesh.cpp:583-588. `owners` is absent if entities of this dimension
cannot be shared. -/
def syncValues {α : Type} (s : Nat → Nat → Sched) (owners : Option (List Remotes)) (w : Nat)
    (data : List (List α)) : Option (List (List α)) :=
  match owners with
  | none => some data
  | some owners => (newDist s owners (owners.map (fun o => o.ranks.length))).bind (fun D =>
      Dist.exch (fun r k => s r (k + 10)) (D.map Dist.invert) w data)

/-- The same computation on every rank. -/
def onRanks {α β : Type} (ranks : List α) (f : Nat → α → Option β) : Option (List β) :=
  (List.range ranks.length).mapM (fun r => (ranks[r]?).bind (f r))

/-- `Mesh::sync_subset_array`: src/Omega_h_mesh.cpp:600-607. -/
def syncSubset {α : Type} (s : Nat → Nat → Sched) (owners : Option (List Remotes)) (nents : List Nat)
    (subset : List (List Nat)) (default : α) (w : Nat) (data : List (List α)) : Option (List (List α)) :=
  match owners with
  | none => some data
  | some _ => do
    let full ← onRanks nents (fun r n => (data[r]?).bind (fun d => (subset[r]?).bind (fun a2e =>
      mapOnto (s r 0) d a2e n default w)))
    let synced ← syncValues (fun r k => s r (k + 1)) owners w full
    onRanks nents (fun r _ => (synced[r]?).bind (fun d => (subset[r]?).bind (fun a2e =>
      unmap (s r 40) a2e d w)))

/-- The options that `coarsen_ghosted` uses, with the numbers 1, -1 and the largest number. -/
structure CollapseOpts (K : Type) where
  dim : Nat
  maxLength : K
  minQual : K
  improve : Bool
  one : K
  minusOne : K
  top : K

/-- The candidate edges of the ranks and their codes. -/
abbrev CandState := List (List Nat × List Nat)

/-- A kernel on the candidates of every rank, followed by `sync_subset_array`. -/
def checkCands (s : Nat → Nat → Sched) (owners : Option (List Remotes)) (ranks : List (CollapseRank K))
    (f : CollapseRank K → Nat → Nat → Option Nat) (st : CandState) : Option CandState := do
  let codes ← onRanks ranks (fun r m => (st[r]?).bind (fun c => candKernel (s r 0) (f m) c.1 c.2))
  let synced ← syncSubset (fun r k => s r (k + 1)) owners (ranks.map CollapseRank.nedges) (st.map Prod.fst) 0 1 codes
  onRanks st (fun r c => (synced[r]?).map (fun codes => (c.1, codes)))

/-- `filter_coarsen_candidates` on every rank. -/
def filterAll (s : Nat → Nat → Sched) (st : CandState) : Option CandState :=
  onRanks st (fun r c => (filterCands (s r) c.1 c.2).map (fun x => x.2))

/-- The second `check_collapse_exposure`: src/Omega_h_check_collapse.cpp:107-116. The candidates of a
rank pass through the dimensions before they are synchronised. -/
def exposureAll (dim : Nat) (m : CollapseRank K) (e code : Nat) : Option Nat :=
  (List.range' 2 (dim - 1)).foldlM (fun code d =>
    exposureCode d (m.upEdge d) (m.down d) (m.classDim d) (m.classDim (d - 1)) e code) code

/-- `coarsen_ghosted` up to the choice of the rails: src/Omega_h_coarsen.cpp:56-106. `some none`: nothing
can be collapsed and the function returns `false`. -/
def coarsenGhosted (s : Nat → Nat → Nat → Sched) (edgeOwners vertOwners : Option (List Remotes))
    (ranks : List (CollapseRank K)) (o : CollapseOpts K) (edgeCodes : List (List Nat)) :
    Option (Option (List (List (Int × K × Int)))) := do
  let start ← onRanks edgeCodes (fun r codes => do
    let marks ← mapEach (s 0 r 0) (fun c => some (b2i (decide (c ≠ 0)))) codes
    let cands ← collectMarked (s 0 r 1) marks
    let cc ← unmap (s 0 r 2) cands codes 1
    pure (cands, cc))
  let st1 ← checkCands (s 1) edgeOwners ranks (exposureAll o.dim) start
  let st2 ← filterAll (s 2) st1
  let st3 ← checkCands (s 3) edgeOwners ranks (fun m => overshootCode m o.maxLength) st2
  let st4 ← filterAll (s 4) st3
  if st4.all (fun c => c.1.isEmpty) then pure none
  else do
    let quals0 ← onRanks ranks (fun r m => (st4[r]?).bind (fun c =>
      coarsenQualities (s 5 r 0) m o.one o.minusOne o.dim c.1 c.2))
    let quals ← syncSubset (s 6) edgeOwners (ranks.map CollapseRank.nedges) (st4.map Prod.fst) o.minusOne 2 quals0
    let codes5 ← onRanks st4 (fun r c => (quals[r]?).bind (fun q => filterMinQual (s 7 r 0) (s 7 r 1) c.2 q o.minQual))
    let codes6 ← (if o.improve then do
        let old0 ← onRanks ranks (fun r m => vertOldQuals (s 8 r 0) (s 8 r 1) o.top m)
        let old ← syncValues (s 9) vertOwners 1 old0
        onRanks ranks (fun r m => (st4[r]?).bind (fun c => (codes5[r]?).bind (fun codes =>
          (quals[r]?).bind (fun q => (old[r]?).bind (fun vo =>
            filterImprove (fun k => s 10 r k) m c.1 codes q vo)))))
      else pure codes5)
    let st7 ← onRanks st4 (fun r c => (codes6[r]?).bind (fun codes => (quals[r]?).bind (fun q =>
      (filterCands (fun k => s 11 r k) c.1 codes).bind (fun x =>
        (unmap (s 11 r 9) x.1 q 2).map (fun q' => (x.2.1, x.2.2, q'))))))
    if st7.all (fun c => c.1.isEmpty) then pure none
    else do
      let rails ← onRanks ranks (fun r m => (st7[r]?).bind (fun c =>
        chooseRails (s 12 r 0) (s 12 r 1) m o.minusOne c.1 c.2.1 c.2.2))
      let synced ← syncValues (s 13) vertOwners 1 rails
      pure (some synced)

/-- One key of `find_rails`: src/Omega_h_collapse_rail.cpp:92-108. -/
def findRail (ab2b : List Nat) (veCodes edgeGlobals : List Int) (rail : Int) : List Nat → Option (Nat × Int)
  | [] => none
  | ve :: rest => do
    let e ← ab2b[ve]?
    let g ← edgeGlobals[e]?
    if g = rail then do
      let code ← veCodes[ve]?
      pure (e, codeWhichDown code)
    else findRail ab2b veCodes edgeGlobals rail rest

/-- `find_rails`: src/Omega_h_collapse_rail.cpp:80-113. The two arrays are stored at the same indices and
are modelled as one array of pairs. -/
def findRails (s : Sched) (v2e : Adj) (edgeGlobals : List Int) (keys2verts : List Nat) (verts2rail : List Int) :
    Option (List (Int × Int)) := do
  let codes ← v2e.codes
  (parScatter s keys2verts.length (fun key => do
    let v ← keys2verts[key]?
    let rail ← verts2rail[v]?
    let ves ← fanMembers v2e.a2ab v
    let x ← findRail v2e.ab2b codes edgeGlobals rail ves
    pure [(key, ((x.1 : Int), x.2))]) (Mem.filled keys2verts.length (-1, -1))).bind Mem.toArray?

end
end OmegaH
