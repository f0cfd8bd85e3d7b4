import Verif.Model.Map
import Verif.Model.Scan
import Verif.Model.Blocks
import Verif.Model.Box
import Verif.Model.Element
import Verif.Model.Adj
import Verif.Model.ArrayOps
/-!
# Splitting quadrilaterals and hexahedra into simplices
-/
namespace OmegaH

/-- `find_min`: src/Omega_h_simplify.cpp:22-32. -/
def findMin (v : List Nat) (n : Nat) : Option Nat :=
  (v[0]?).bind (fun v0 =>
    ((List.range' 1 (n - 1)).foldlM (fun (m : Nat × Nat) i =>
      (v[i]?).map (fun x => if x < m.2 then (i, x) else m)) (0, v0)).map Prod.fst)

/-- `lt`: src/Omega_h_simplify.cpp:34-36. -/
def minLt (vi vj vk vl : Nat) : Bool := decide (min vi vj < min vk vl)

/-- `rot`: src/Omega_h_simplify.cpp:38-42. `n` is the length of the array, here the length of the list. -/
def rotVerts (v : List Nat) : List Nat := v.drop (v.length - 1) ++ v.take (v.length - 1)

/-- `rot_ntimes`: src/Omega_h_simplify.cpp:44-46. -/
def rotNTimes (v : List Nat) : Nat → List Nat
  | 0 => v
  | k + 1 => rotNTimes (rotVerts v) k

/-- `rot_to_first`: src/Omega_h_simplify.cpp:48-50. -/
def rotToFirst (v : List Nat) (first : Nat) : List Nat := rotNTimes v ((v.length - first) % v.length)

/-- `qtv2qqv`: src/Omega_h_simplify.cpp:53. -/
def quadTris : List (List Nat) := [[0, 1, 2], [2, 3, 0]]

/-- `htv2hhv_0`: src/Omega_h_simplify.cpp:62-63. -/
def hexTets0 : List (List Nat) := [[0, 1, 2, 5], [0, 2, 7, 5], [0, 2, 3, 7], [0, 5, 7, 4], [2, 7, 5, 6]]
/-- `htv2hhv_1`: src/Omega_h_simplify.cpp:67-68. -/
def hexTets1 : List (List Nat) :=
  [[0, 5, 7, 4], [0, 1, 7, 5], [1, 6, 7, 5], [0, 7, 2, 3], [0, 7, 1, 2], [1, 7, 6, 2]]
/-- `htv2hhv_2`: src/Omega_h_simplify.cpp:72-73. -/
def hexTets2 : List (List Nat) :=
  [[0, 4, 5, 6], [0, 3, 7, 6], [0, 7, 4, 6], [0, 1, 2, 5], [0, 3, 6, 2], [0, 6, 5, 2]]
/-- `htv2hhv_3`: src/Omega_h_simplify.cpp:76-77. -/
def hexTets3 : List (List Nat) :=
  [[0, 2, 3, 6], [0, 3, 7, 6], [0, 7, 4, 6], [0, 5, 6, 4], [1, 5, 6, 0], [1, 6, 2, 0]]

/-- `hex_flip_pairs`: src/Omega_h_simplify.cpp:79-80. -/
def hexFlipPairs : List (Nat × Nat) := [(0, 4), (3, 5), (1, 7), (2, 6)]

/-- `swap2` on two entries of an array: src/Omega_h_scalar.hpp:116-121. -/
def swapEntries (v : List Nat) (i j : Nat) : Option (List Nat) :=
  (v[i]?).bind (fun x => (v[j]?).map (fun y => (v.set i y).set j x))

/-- `flip_hex`: src/Omega_h_simplify.cpp:82-85. -/
def flipHex (v : List Nat) : Option (List Nat) :=
  hexFlipPairs.foldlM (fun (v : List Nat) p => swapEntries v p.1 p.2) v

/-- `hex_bur_faces`: src/Omega_h_simplify.cpp:91-92. -/
def hexBurFaces : List (Nat × Nat × Nat × Nat) := [(6, 5, 1, 2), (6, 2, 3, 7), (6, 7, 4, 5)]

/-- `hex_bur_ring`: src/Omega_h_simplify.cpp:98. -/
def hexBurRing : List Nat := [1, 2, 3, 7, 5, 4]

/-- `hex_bur_rot_ntimes`: src/Omega_h_simplify.cpp:100-109. -/
def hexBurRotNTimes (v : List Nat) (ntimes : Nat) : Option (List Nat) :=
  (hexBurRing.mapM (fun i => v[i]?)).bind (fun tmp =>
    (List.range 6).foldlM (fun (v : List Nat) i =>
      (hexBurRing[i]?).bind (fun c => ((rotNTimes tmp (ntimes * 2))[i]?).bind (fun x =>
        if c < v.length then some (v.set c x) else none))) v)

/-- `hex_bur_rot_to_right`: src/Omega_h_simplify.cpp:114-116. -/
def hexBurRotToRight (v : List Nat) (newRight : Nat) : Option (List Nat) :=
  hexBurRotNTimes v ((3 - newRight) % 3)

/-- The body of the loop of `tris_from_quads` on the vertices of one quadrilateral:
src/Omega_h_simplify.cpp:124-138. -/
def trisOfQuad (v : List Nat) : Option (List (List Nat)) :=
  (findMin v 4).bind (fun m =>
    quadTris.mapM (fun t => t.mapM (fun i => (rotToFirst v m)[i]?)))

/-- `tris_from_quads`: src/Omega_h_simplify.cpp:119-142. -/
def trisFromQuads (s : Sched) (qv2v : List Nat) : Option (List Nat) :=
  (divideNoRemainder qv2v.length 4).bind (fun nq =>
    (parScatter s nq (fun q => (rowAt qv2v 4 q).bind (fun v => (trisOfQuad v).map (fun ts =>
        blockWrites (q * 2 * 3) ts.flatten)))
      (Mem.alloc (nq * 2 * 3))).bind Mem.toArray?)

/-- `tets_from_hex_1`: src/Omega_h_simplify.cpp:144-167. The second component is `diags_into`. -/
def tetsFromHex1 (v : List Nat) : Option (List Nat × List Bool) :=
  (findMin v 8).bind (fun m =>
    (if 4 ≤ m then flipHex (rotToFirst (v.take 4) (m % 4) ++ rotToFirst (v.drop 4) (m % 4))
      else some (rotToFirst (v.take 4) (m % 4) ++ rotToFirst (v.drop 4) (m % 4))).bind (fun v =>
    (hexBurFaces.mapM (fun f => (v[f.1]?).bind (fun a => (v[f.2.1]?).bind (fun b => (v[f.2.2.1]?).bind (fun c =>
      (v[f.2.2.2]?).map (fun d => minLt a c b d)))))).map (fun ds => (v, ds))))

/-- `for (i < 3) if (diags_into[i] == b) diag_face = i;`: src/Omega_h_simplify.cpp:207-209, 216-218. -/
def lastDiag (ds : List Bool) (b : Bool) : Option Nat :=
  (List.range 3).foldl (fun (r : Option Nat) i => if ds[i]? = some b then some i else r) none

/-- `fill_tets_from_hex`: src/Omega_h_simplify.cpp:169-178, the vertices. -/
def fillTets (v : List Nat) (table : List (List Nat)) : Option (List (List Nat)) :=
  table.mapM (fun t => t.mapM (fun i => v[i]?))

/-- The body of the second loop of `tets_from_hexes` on the vertices of one hexahedron:
src/Omega_h_simplify.cpp:197-225. -/
def tetsOfHex (v : List Nat) : Option (List (List Nat)) :=
  (tetsFromHex1 v).bind (fun r =>
    if r.2.countP id = 0 then fillTets r.1 hexTets0
    else if r.2.countP id = 1 then
      (lastDiag r.2 true).bind (fun f => (hexBurRotToRight r.1 f).bind (fun v => fillTets v hexTets1))
    else if r.2.countP id = 2 then
      (lastDiag r.2 false).bind (fun f => (hexBurRotToRight r.1 f).bind (fun v => fillTets v hexTets2))
    else fillTets r.1 hexTets3)

/-- `tets_from_hexes`: src/Omega_h_simplify.cpp:180-228. -/
def tetsFromHexes (s s' : Sched) (hv2v : List Nat) : Option (List Nat) :=
  (divideNoRemainder hv2v.length 8).bind (fun nh =>
    ((parScatter s nh (fun h => (rowAt hv2v 8 h).bind (fun v => (tetsFromHex1 v).map (fun r =>
        [(h, if r.2.countP id = 0 then 5 else 6)])))
      (Mem.alloc nh)).bind Mem.toArray?).bind (fun degrees =>
    let h2ht := offsetScan degrees
    (h2ht[nh]?).bind (fun nt =>
      (parScatter s' nh (fun h => (rowAt hv2v 8 h).bind (fun v => (tetsOfHex v).bind (fun ts =>
          (h2ht[h]?).map (fun t => blockWrites (t * 4) ts.flatten))))
        (Mem.alloc (nt * 4))).bind Mem.toArray?)))

/-- The loop of `tris_from_quads_symmetric`: src/Omega_h_simplify.cpp:242-254. -/
def trisFromQuadsSymmetric (s : Sched) (nverts nquads : Nat) (qv2v : List Nat) : Option (List Nat) :=
  (parScatter s nquads (fun q => (rowAt qv2v 4 q).bind (fun v =>
      ((List.range 4).mapM (fun i => (v[i]?).bind (fun v0 => (v[(i + 1) % 4]?).map (fun v1 =>
        [nverts + q, v0, v1])))).map (fun ts => blockWrites (q * 4 * 3) ts.flatten)))
    (Mem.alloc (nquads * 4 * 3))).bind Mem.toArray?

/-- One entry of `hypercube_down_template(3, 2, …)`: src/Omega_h_hypercube.hpp. -/
def hexSideVert (side k : Nat) : Option Nat :=
  let c := hypercubeDownTemplate 3 2 side k
  if c < 0 then none else some c.toNat

/-- The loop of `tets_from_hexes_symmetric`: src/Omega_h_simplify.cpp:276-294. -/
def tetsFromHexesSymmetric (s : Sched) (nverts nquads nhexes : Nat) (hv2v hq2q : List Nat) : Option (List Nat) :=
  (parScatter s nhexes (fun h => (rowAt hv2v 8 h).bind (fun v => (rowAt hq2q 6 h).bind (fun qs =>
      ((List.range 6).mapM (fun side => (qs[side]?).bind (fun q => (List.range 4).mapM (fun k =>
        (hexSideVert side k).bind (fun c0 => (hexSideVert side ((k + 1) % 4)).bind (fun c1 =>
        (v[c0]?).bind (fun v0 => (v[c1]?).map (fun v1 =>
          [nverts + q, v1, v0, nverts + nquads + h]))))))) ).map (fun ts =>
        blockWrites (h * 6 * 4 * 4) ts.flatten.flatten))))
    (Mem.alloc (nhexes * 6 * 4 * 4))).bind Mem.toArray?

section
variable {K : Type} [Field K] [LinearOrder K] [IsStrictOrderedRing K]

/-- The coordinates made by `tris_from_quads_symmetric`: src/Omega_h_simplify.cpp:233-239, 255-257. -/
def symmetricCoords2 (s : Nat → Sched) (nverts nquads : Nat) (qv2v : List Nat) (coords : List K) : Option (List K) :=
  (averageField (s 0) 2 4 qv2v coords nquads).bind (fun centers =>
    ((mapIntoRange (s 1) coords 0 nverts (Mem.alloc ((nverts + nquads) * 2)) 2).bind (fun m =>
      mapIntoRange (s 2) centers nverts (nverts + nquads) m 2)).bind Mem.toArray?)

/-- The coordinates made by `tets_from_hexes_symmetric`: src/Omega_h_simplify.cpp:264-272, 295-298. -/
def symmetricCoords3 (s : Nat → Sched) (nverts nquads nhexes : Nat) (qv2v hv2v : List Nat) (coords : List K) :
    Option (List K) :=
  (averageField (s 0) 3 4 qv2v coords nquads).bind (fun qcenters =>
  (averageField (s 1) 3 8 hv2v coords nhexes).bind (fun hcenters =>
    (((mapIntoRange (s 2) coords 0 nverts (Mem.alloc ((nverts + nquads + nhexes) * 3)) 3).bind (fun m =>
      mapIntoRange (s 3) qcenters nverts (nverts + nquads) m 3)).bind (fun m =>
      mapIntoRange (s 4) hcenters (nverts + nquads) (nverts + nquads + nhexes) m 3)).bind Mem.toArray?))
end

end OmegaH
