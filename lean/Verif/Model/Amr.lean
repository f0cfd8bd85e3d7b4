import Verif.Model.Element
import Verif.Model.Graph
import Verif.Model.Map
import Verif.Model.Adj
import Verif.Model.Blocks
/-!
# Refinement of hypercube meshes: src/Omega_h_amr.hpp, src/Omega_h_amr.cpp, src/Omega_h_amr_topology.cpp
-/
namespace OmegaH

/-- src/Omega_h_amr.hpp:13 (arithmetic shift) -/
def amrWhichChild (code : Int) : Int := code / 4

/-- src/Omega_h_amr.hpp:15 -/
def amrParentDim (code : Int) : Int := code % 4

/-- src/Omega_h_amr.hpp:17-19 -/
def amrMakeCode (whichChild parentDim : Nat) : Int := wrapSigned 8 (((whichChild <<< 2) ||| parentDim : Nat) : Int)

/-- src/Omega_h_hypercube.hpp:530-533 -/
def hypercubeSplitDegree (parentDim childDim : Int) : Int := hypercubeDegree parentDim (parentDim - childDim)

/-- src/Omega_h_hypercube.hpp:535-956: dimension and number of the side of the parent whose midpoint is the given vertex of a child. -/
def hypercubeSplitTemplate (parentDim childDim whichChild whichChildVtx : Int) : Int × Int :=
  (match parentDim with
    | 1 => (match childDim with
      | 0 => (1, 0)
      | 1 => (match whichChild with
        | 0 => (match whichChildVtx with | 0 => (0, 0) | 1 => (1, 0) | _ => (-1, -1))
        | 1 => (match whichChildVtx with | 0 => (1, 0) | 1 => (0, 1) | _ => (-1, -1))
        | _ => (-1, -1))
      | _ => (-1, -1))
    | 2 => (match childDim with
      | 0 => (2, 0)
      | 1 => (match whichChildVtx with | 0 => (1, whichChild) | 1 => (2, 0) | _ => (-1, -1))
      | 2 => (match whichChild with
        | 0 => (match whichChildVtx with | 0 => (0, 0) | 1 => (1, 0) | 2 => (2, 0) | 3 => (1, 3) | _ => (-1, -1))
        | 1 => (match whichChildVtx with | 0 => (1, 0) | 1 => (0, 1) | 2 => (1, 1) | 3 => (2, 0) | _ => (-1, -1))
        | 2 => (match whichChildVtx with | 0 => (2, 0) | 1 => (1, 1) | 2 => (0, 2) | 3 => (1, 2) | _ => (-1, -1))
        | 3 => (match whichChildVtx with | 0 => (1, 3) | 1 => (2, 0) | 2 => (1, 2) | 3 => (0, 3) | _ => (-1, -1))
        | _ => (-1, -1))
      | _ => (-1, -1))
    | 3 => (match childDim with
      | 0 => (3, 0)
      | 1 => (match whichChildVtx with | 0 => (2, whichChild) | 1 => (3, 0) | _ => (-1, -1))
      | 2 => (match whichChild with
        | 0 => (match whichChildVtx with | 0 => (1, 0) | 1 => (2, 0) | 2 => (3, 0) | 3 => (2, 1) | _ => (-1, -1))
        | 1 => (match whichChildVtx with | 0 => (2, 0) | 1 => (1, 1) | 2 => (2, 2) | 3 => (3, 0) | _ => (-1, -1))
        | 2 => (match whichChildVtx with | 0 => (2, 0) | 1 => (1, 2) | 2 => (2, 3) | 3 => (3, 0) | _ => (-1, -1))
        | 3 => (match whichChildVtx with | 0 => (1, 3) | 1 => (2, 0) | 2 => (3, 0) | 3 => (2, 4) | _ => (-1, -1))
        | 4 => (match whichChildVtx with | 0 => (1, 4) | 1 => (2, 1) | 2 => (3, 0) | 3 => (2, 4) | _ => (-1, -1))
        | 5 => (match whichChildVtx with | 0 => (2, 1) | 1 => (1, 5) | 2 => (2, 2) | 3 => (3, 0) | _ => (-1, -1))
        | 6 => (match whichChildVtx with | 0 => (3, 0) | 1 => (2, 2) | 2 => (1, 6) | 3 => (2, 3) | _ => (-1, -1))
        | 7 => (match whichChildVtx with | 0 => (2, 4) | 1 => (3, 0) | 2 => (2, 3) | 3 => (1, 7) | _ => (-1, -1))
        | 8 => (match whichChildVtx with | 0 => (2, 1) | 1 => (3, 0) | 2 => (2, 5) | 3 => (1, 8) | _ => (-1, -1))
        | 9 => (match whichChildVtx with | 0 => (3, 0) | 1 => (2, 2) | 2 => (1, 9) | 3 => (2, 5) | _ => (-1, -1))
        | 10 => (match whichChildVtx with | 0 => (3, 0) | 1 => (2, 3) | 2 => (1, 10) | 3 => (2, 5) | _ => (-1, -1))
        | 11 => (match whichChildVtx with | 0 => (2, 4) | 1 => (3, 0) | 2 => (2, 5) | 3 => (1, 11) | _ => (-1, -1))
        | _ => (-1, -1))
      | 3 => (match whichChild with
        | 0 => (match whichChildVtx with | 0 => (0, 0) | 1 => (1, 0) | 2 => (2, 0) | 3 => (1, 3) | 4 => (1, 4) | 5 => (2, 1) | 6 => (3, 0) | 7 => (2, 4) | _ => (-1, -1))
        | 1 => (match whichChildVtx with | 0 => (1, 0) | 1 => (0, 1) | 2 => (1, 1) | 3 => (2, 0) | 4 => (2, 1) | 5 => (1, 5) | 6 => (2, 2) | 7 => (3, 0) | _ => (-1, -1))
        | 2 => (match whichChildVtx with | 0 => (2, 0) | 1 => (1, 1) | 2 => (0, 2) | 3 => (1, 2) | 4 => (3, 0) | 5 => (2, 2) | 6 => (1, 6) | 7 => (2, 3) | _ => (-1, -1))
        | 3 => (match whichChildVtx with | 0 => (1, 3) | 1 => (2, 0) | 2 => (1, 2) | 3 => (0, 3) | 4 => (2, 4) | 5 => (3, 0) | 6 => (2, 3) | 7 => (1, 7) | _ => (-1, -1))
        | 4 => (match whichChildVtx with | 0 => (1, 4) | 1 => (2, 1) | 2 => (3, 0) | 3 => (2, 4) | 4 => (0, 4) | 5 => (1, 8) | 6 => (2, 5) | 7 => (1, 11) | _ => (-1, -1))
        | 5 => (match whichChildVtx with | 0 => (2, 1) | 1 => (1, 5) | 2 => (2, 2) | 3 => (3, 0) | 4 => (1, 8) | 5 => (0, 5) | 6 => (1, 9) | 7 => (2, 5) | _ => (-1, -1))
        | 6 => (match whichChildVtx with | 0 => (3, 0) | 1 => (2, 2) | 2 => (1, 6) | 3 => (2, 3) | 4 => (2, 5) | 5 => (1, 9) | 6 => (0, 6) | 7 => (1, 10) | _ => (-1, -1))
        | 7 => (match whichChildVtx with | 0 => (2, 4) | 1 => (3, 0) | 2 => (2, 3) | 3 => (1, 7) | 4 => (1, 11) | 5 => (2, 5) | 6 => (1, 10) | 7 => (0, 7) | _ => (-1, -1))
        | _ => (-1, -1))
      | _ => (-1, -1))
    | _ => (-1, -1))


/-- The arrays `enforce_2to1_refine` obtains from the mesh (src/Omega_h_amr.cpp:57-66): leaf marks of elements and
bridges, bridges of each element (`nb` per element), elements of each bridge, marks of the bridges inside the domain,
and child bridges of each bridge. -/
structure AmrView where
  nb : Nat
  isElemLeaf : List Int
  isBridgeLeaf : List Int
  elems2bridges : List Nat
  bridges2elems : Graph
  isInterior : List Int
  children : Graph

/-- The innermost loop body of `should_elem_be_refined`: src/Omega_h_amr.cpp:44-51. -/
def refineChild (V : AmrView) (marked mem : List Int) (mark : Int) (c : Nat) : Option Int :=
  (V.children.ab2b[c]?).bind (fun child =>
  (V.bridges2elems.a2ab[child]?).bind (fun b =>
  (V.bridges2elems.a2ab[child + 1]?).bind (fun e =>
  if (e : Int) - b ≠ 1 then none else
  (V.bridges2elems.ab2b[b]?).bind (fun adj =>
  (marked[adj]?).bind (fun m1 =>
  (mem[adj]?).map (fun m2 =>
    let mark := if m1 ≠ 0 then 1 else mark
    if m2 ≠ 0 then 1 else mark))))))

/-- The loop body over the bridges of an element: src/Omega_h_amr.cpp:38-52. -/
def refineBridge (V : AmrView) (marked mem : List Int) (elem : Nat) (mark : Int) (b : Nat) : Option Int :=
  (V.elems2bridges[elem * V.nb + b]?).bind (fun bridge =>
  (V.isInterior[bridge]?).bind (fun inside =>
  if inside = 0 then some mark else
  (V.isBridgeLeaf[bridge]?).bind (fun leaf =>
  if leaf ≠ 0 then some mark else
  (V.children.a2ab[bridge]?).bind (fun first =>
  (V.children.a2ab[bridge + 1]?).bind (fun last =>
  (List.range' first (last - first)).foldlM (refineChild V marked mem) mark)))))

/-- `should_elem_be_refined`: src/Omega_h_amr.cpp:32-55. `mem` is the current content of `one_level_mark`. -/
def shouldRefine (V : AmrView) (marked mem : List Int) (elem : Nat) : Option Int :=
  (List.range V.nb).foldlM (refineBridge V marked mem elem) 0

/-- One iteration: src/Omega_h_amr.cpp:68-79. -/
def enforceStep (V : AmrView) (marked mem : List Int) (elem : Nat) : Option (List Int) :=
  (V.isElemLeaf[elem]?).bind (fun leaf =>
  (marked[elem]?).bind (fun m =>
  (if leaf = 0 then some 0 else if m ≠ 0 then some 1 else shouldRefine V marked mem elem).bind (fun v =>
  if elem < mem.length then some (mem.set elem v) else none)))

/-- `enforce_2to1_refine`: src/Omega_h_amr.cpp:57-81. The loop reads the array it writes, so its iterations are
executed one after another in the order of the schedule (the actual code may also overlap them). `garbage` is what
the uninitialised array contains when the loop starts. -/
def enforce2to1 (s : Sched) (V : AmrView) (nelems : Nat) (marked garbage : List Int) : Option (List Int) :=
  (s.order nelems).foldlM (enforceStep V marked) garbage

/-- The midpoint of one side of a divided entity, as the loop body of `get_refined_topology` finds it:
src/Omega_h_amr_topology.cpp:125-137. `mods2midverts`, `mds2mods` and the old child vertices are indexed by dimension;
-1 in `mds2mods` means not divided now. -/
def midVertex (mds2mods : Nat → List Int) (mods2midverts : Nat → List Nat) (childVerts : Nat → Graph)
    (old2new : List Nat) (dim low : Nat) : Option Nat :=
  ((mds2mods dim)[low]?).bind (fun adjMod =>
  if adjMod = -1 then
    ((childVerts dim).a2ab[low]?).bind (fun b =>
    ((childVerts dim).a2ab[low + 1]?).bind (fun e =>
    if (e : Int) - b ≠ 1 then none else
    ((childVerts dim).ab2b[b]?).bind (fun old => old2new[old]?)))
  else if adjMod < 0 then none else (mods2midverts dim)[adjMod.toNat]?)

/-- Vertices of the children of one divided entity: the loops of src/Omega_h_amr_topology.cpp:120-145.
`lows dim` are the sides of dimension `dim` of all entities of dimension `d`. -/
def childVertsOf (d childDim : Nat) (lows : Nat → List Nat) (mid : Nat → Nat → Option Nat) (md : Nat) : Option (List Nat) :=
  ((List.range (hypercubeSplitDegree d childDim).toNat).mapM (fun child : Nat =>
    (List.range (hypercubeDegree childDim 0).toNat).mapM (fun vert : Nat =>
      let low := hypercubeSplitTemplate d childDim child vert
      if low.1 < 0 ∨ low.2 < 0 then none else
      ((lows low.1.toNat)[md * (hypercubeDegree d low.1).toNat + low.2.toNat]?).bind (fun lowId =>
        mid low.1.toNat lowId)))).map List.flatten

/-- `get_refined_topology`: src/Omega_h_amr_topology.cpp:97-154. `lows d` are the sides of the entities of dimension
`d`. The result is one array; the loop of each `d` writes its own part, starting at `offset`. -/
def refinedTopology (s : Nat → Sched) (spatialDim childDim numChildren : Nat) (mods2mds : Nat → List Nat)
    (mds2mods : Nat → List Int) (mods2midverts : Nat → List Nat) (childVerts : Nat → Graph) (old2new : List Nat)
    (lows : Nat → Nat → List Nat) : Option (List Nat) :=
  let nv := (hypercubeDegree childDim 0).toNat
  (((List.range' childDim (spatialDim + 1 - childDim)).foldlM (fun (st : Nat × Mem Nat) (d : Nat) =>
    let nc := (hypercubeSplitDegree d childDim).toNat
    let nmods := (mods2midverts d).length
    (parScatter (s d) nmods (fun mod =>
      ((mods2mds d)[mod]?).bind (fun md =>
      (childVertsOf d childDim (lows d) (midVertex mds2mods mods2midverts childVerts old2new) md).map (fun vs =>
        blockWrites (st.1 + mod * nc * nv) vs))) st.2).map (fun m => (st.1 + nmods * nc * nv, m)))
    (0, (Mem.alloc (numChildren * nv) : Mem Nat))).bind (fun st => Mem.toArray? st.2))

end OmegaH
