import Verif.Model.Align
import Verif.Model.Element
import Verif.Model.Mem
import Verif.Model.Blocks
import Verif.Model.Refine
/-!
# Topology of edge swaps in 2D: src/Omega_h_swap2d_topology.cpp
-/
namespace OmegaH

/-- One turn of the first loop: the vertex opposite to the edge in its triangle number `i` is stored at
the position given by the rotation. `t[rot]` and `ov[rot]` have two entries.
src/Omega_h_swap2d_topology.cpp:42-50. -/
def swap2dOpposite (e2et et2t : List Nat) (codes : List Int) (tv2v : List Nat) (e : Nat)
    (ov : List Int) (i : Nat) : Option (List Int) := do
  let et0 ← e2et[e]?
  let et := et0 + i
  let code ← codes[et]?
  let tte := codeWhichDown code
  let rot := codeRotation code
  let t ← et2t[et]?
  let ttv := simplexOppositeTemplate 2 1 tte
  let v ← if 0 ≤ ttv then tv2v[t * 3 + ttv.toNat]? else none
  if rot < 2 then some (ov.set rot.toNat (v : Int)) else none

/-- The products of one key: the new edge and the two new triangles. The opposite vertices start as the
-42 the array was filled with. src/Omega_h_swap2d_topology.cpp:38-59, 72. -/
def swap2dKey (e2et et2t : List Nat) (codes : List Int) (tv2v ev2v : List Nat) (e : Nat) :
    Option (List Int × List (List Int)) := do
  let ov ← swap2dOpposite e2et et2t codes tv2v e [-42, -42] 0
  let ov ← swap2dOpposite e2et et2t codes tv2v e ov 1
  let v0 ← ev2v[e * 2 + 0]?
  let v1 ← ev2v[e * 2 + 1]?
  let o0 ← ov[0]?
  let o1 ← ov[1]?
  pure (ov, [[(v1 : Int), o0, o1], [(v0 : Int), o1, o0]])

/-- `swap2d_topology`: src/Omega_h_swap2d_topology.cpp:62-91. The loop stores into two arrays; each is
modelled as its own loop. Returns `keys2prods[EDGE]`, `keys2prods[FACE]` and the two vertex arrays. -/
def swap2dTopology (s : Sched) (keys2edges e2et et2t : List Nat) (codes : List Int)
    (tv2v ev2v : List Nat) : Option (List Int × List Int × List Int × List Int) := do
  let n := keys2edges.length
  let edges ← (parScatter s n (fun key => do
    let e ← keys2edges[key]?
    let p ← swap2dKey e2et et2t codes tv2v ev2v e
    pure (blockWrites (key * 2) p.1)) (Mem.filled (n * 1 * 2) (-42))).bind Mem.toArray?
  let tris ← (parScatter s n (fun key => do
    let e ← keys2edges[key]?
    let p ← swap2dKey e2et et2t codes tv2v ev2v e
    pure (blockWrites (key * 2 * 3) p.2.flatten)) (Mem.filled (n * 2 * 3) (-42))).bind Mem.toArray?
  pure ((List.range (n + 1)).map (fun i : Nat => 0 + (i : Int) * 1),
    (List.range (n + 1)).map (fun i : Nat => 0 + (i : Int) * 2), edges, tris)

end OmegaH
