import Mathlib.Algebra.Field.Defs
import Mathlib.Order.Defs.LinearOrder
import Mathlib.Algebra.Order.Group.Unbundled.Abs
import Verif.Model.Graph
import Verif.Model.ArrayOps
import Verif.Model.Modify
import Verif.Model.Blocks
/-!
# Keeping track of conservation errors: src/Omega_h_conserve.cpp and src/Omega_h_graph.cpp

Real numbers are elements of a field `K` in which arithmetic is exact: rounding is not modelled. `I8` and `LO` arrays
are integers; sums over fans of `I8` are cast back to 8 bits as in the code. A failed check, an access out of range and
a data race are `none`. One process; `sync_array` is then the identity.
-/
namespace OmegaH

/-- `unmap_graph`: src/Omega_h_graph.cpp:42-59. -/
def unmapGraph (s : Nat → Sched) (a2b : List Nat) (g : Graph) : Option Graph := do
  let bDegrees ← getDegrees (s 0) g.a2ab
  let aDegrees ← unmap (s 1) a2b bDegrees 1
  let a2ac ← toIndices? (offsetScan aDegrees)
  let nac ← a2ac.getLast?
  let ac2c ← (parScatter (s 2) a2b.length (fun a => do
    let b ← a2b[a]?
    let bc ← g.a2ab[b]?
    let lo ← a2ac[a]?
    let hi ← a2ac[a + 1]?
    let l ← (List.range (hi - lo)).mapM (fun k => g.ab2b[bc + k]?)
    pure (blockWrites lo l)) (Mem.alloc nac)).bind Mem.toArray?
  pure ⟨a2ac, ac2c⟩

/-- `filter_graph_edges`: src/Omega_h_graph.cpp:95-101. The degrees are sums of `I8`. -/
def filterGraphEdges (s : Nat → Sched) (g : Graph) (keep : List Int) : Option Graph := do
  let degrees ← fanReduce (s 0) (sumFunctor 8) g.a2ab keep 1
  let offsets ← toIndices? (offsetScan degrees)
  let kept2old ← collectMarked (s 1) keep
  let edges ← unmap (s 2) kept2old g.ab2b 1
  pure ⟨offsets, edges⟩

/-- `Cavs`: src/Omega_h_conserve.cpp:44-52. -/
structure Cavs where
  keys2old : Graph
  keys2new : Graph
deriving DecidableEq, Repr

/-- `Cavs::size`: src/Omega_h_conserve.cpp:47-51. -/
def Cavs.size? (c : Cavs) : Option Nat :=
  if c.keys2old.a2ab.length - 1 = c.keys2new.a2ab.length - 1 then some (c.keys2old.a2ab.length - 1) else none

/-- The kernel of `separate_by_color_once` for the old elements: src/Omega_h_conserve.cpp:73-84. -/
def keepOldKernel (keys2old : Graph) (oldColors : List Int) (key : Nat) : Option (List (Nat × Int)) := do
  let ob ← keys2old.a2ab[key]?
  let oe ← keys2old.a2ab[key + 1]?
  if ob = oe then pure [] else do
    let first ← keys2old.ab2b[ob]?
    let color ← oldColors[first]?
    (List.range' ob (oe - ob)).mapM (fun ko => do
      let elem ← keys2old.ab2b[ko]?
      let c ← oldColors[elem]?
      pure (ko, b2i (decide (c = color))))

/-- The kernel of `separate_by_color_once` for the new elements: src/Omega_h_conserve.cpp:73-80, 85-90. -/
def keepNewKernel (keys2old keys2new : Graph) (oldColors newColors : List Int) (key : Nat) : Option (List (Nat × Int)) := do
  let ob ← keys2old.a2ab[key]?
  let oe ← keys2old.a2ab[key + 1]?
  if ob = oe then pure [] else do
    let first ← keys2old.ab2b[ob]?
    let color ← oldColors[first]?
    let nb ← keys2new.a2ab[key]?
    let ne ← keys2new.a2ab[key + 1]?
    (List.range' nb (ne - nb)).mapM (fun kn => do
      let elem ← keys2new.ab2b[kn]?
      let c ← newColors[elem]?
      pure (kn, b2i (decide (c = color))))

/-- `separate_by_color_once`: src/Omega_h_conserve.cpp:65-107. The two arrays that the kernel writes are treated one after
the other. -/
def separateByColorOnce (s : Nat → Sched) (cavs : Cavs) (oldColors newColors : List Int) : Option (Cavs × Cavs) := do
  let nkeys ← cavs.size?
  let oldKeep ← (parScatter (s 0) nkeys (keepOldKernel cavs.keys2old oldColors) (Mem.alloc cavs.keys2old.ab2b.length)).bind Mem.toArray?
  let newKeep ← (parScatter (s 0) nkeys (keepNewKernel cavs.keys2old cavs.keys2new oldColors newColors)
    (Mem.filled cavs.keys2new.ab2b.length 1)).bind Mem.toArray?
  let separatedOld ← filterGraphEdges (fun k => s (k + 1)) cavs.keys2old oldKeep
  let separatedNew ← filterGraphEdges (fun k => s (k + 4)) cavs.keys2new newKeep
  let oldDrop ← invertMarks (s 7) oldKeep
  let remainderOld ← filterGraphEdges (fun k => s (k + 8)) cavs.keys2old oldDrop
  let newDrop ← invertMarks (s 11) newKeep
  let remainderNew ← filterGraphEdges (fun k => s (k + 12)) cavs.keys2new newDrop
  if remainderOld.ab2b.length + separatedOld.ab2b.length ≠ cavs.keys2old.ab2b.length then none
  else if remainderNew.ab2b.length + separatedNew.ab2b.length ≠ cavs.keys2new.ab2b.length then none
  else pure (⟨separatedOld, separatedNew⟩, ⟨remainderOld, remainderNew⟩)

/-- `separate_by_color`: src/Omega_h_conserve.cpp:113-122. `fuel` bounds the number of rounds of the `while` loop; the
result is `none` if the loop has not ended by then. -/
def separateByColor (s : Nat → Sched) (oldColors newColors : List Int) : Nat → Cavs → Option (List Cavs)
  | 0, cavs => if cavs.keys2old.ab2b = [] ∧ cavs.keys2new.ab2b = [] then some [] else none
  | fuel + 1, cavs =>
    if cavs.keys2old.ab2b = [] ∧ cavs.keys2new.ab2b = [] then some []
    else do
      let res ← separateByColorOnce (fun k => s (16 * fuel + k)) cavs oldColors newColors
      let rest ← separateByColor s oldColors newColors fuel res.2
      pure (res.1 :: rest)

/-- `unmap_cavs`: src/Omega_h_conserve.cpp:140-143. -/
def unmapCavs (s : Nat → Sched) (a2b : List Nat) (c : Cavs) : Option Cavs := do
  let o ← unmapGraph s a2b c.keys2old
  let n ← unmapGraph (fun k => s (k + 3)) a2b c.keys2new
  pure ⟨o, n⟩

/-- What conservation reads from a mesh: elements and their vertices, classification, sizes. `classIds` is the tag
`class_id` of the elements, which may be missing. -/
structure ElemMesh (K : Type) where
  dim : Nat
  nelems : Nat
  elemVerts : List Nat
  vertClassDims : List Int
  classIds : Option (List Int)
  sizes : List K

/-- `get_elem_class_ids`: src/Omega_h_conserve.cpp:124-130. -/
def elemClassIds {K : Type} (m : ElemMesh K) : List Int := m.classIds.getD (List.replicate m.nelems 1)

/-- `get_elems_are_bdry`: src/Omega_h_conserve.cpp:132-138. The cast to `LO` does not change the marks. -/
def elemsAreBdry {K : Type} (s : Nat → Sched) (m : ElemMesh K) : Option (List Int) := do
  let vertsAreInt ← eachEqTo (s 0) m.vertClassDims m.dim
  let vertsAreBdry ← invertMarks (s 1) vertsAreInt
  markUp (s 2) m.elemVerts (m.dim + 1) m.nelems vertsAreBdry

/-- The cavities in which errors are accounted for: for each boundary status the result of `CLASS_COLOR` separation,
which is the only one of the three that is used for that. -/
structure CavsByStatus where
  notBdry : List Cavs
  touchBdry : List Cavs
  keyBdry : List Cavs

/-- `separate_cavities`: src/Omega_h_conserve.cpp:145-183, without the `CLASS_BDRY_COLOR` cavities, which nothing
uses, and without `keys2doms`. `kdClassDims` is the tag `class_dim` of the dimension of the keys. -/
def separateCavities {K : Type} (s : Nat → Sched) (fuel : Nat) (old new : ElemMesh K) (cavs : Cavs) (kdClassDims : List Int)
    (keys2kds : List Nat) : Option CavsByStatus := do
  let oldBdry ← elemsAreBdry s old
  let cavElems ← unmap (s 3) cavs.keys2old.ab2b oldBdry 1
  let nbdry ← fanReduce (s 4) (sumFunctor 32) cavs.keys2old.a2ab cavElems 1
  let areBdry ← eachGt (s 5) nbdry 0
  let arentBdry ← invertMarks (s 6) areBdry
  let int2cavs ← collectMarked (s 7) arentBdry
  let notBdry ← unmapCavs (fun k => s (k + 8)) int2cavs cavs
  let keyClassDims ← unmap (s 14) keys2kds kdClassDims 1
  let keysAreBdry ← eachLt (s 15) keyClassDims old.dim
  let bdry2cavs ← collectMarked (s 16) keysAreBdry
  let keyBdry ← unmapCavs (fun k => s (k + 17)) bdry2cavs cavs
  let keysArent ← invertMarks (s 23) keysAreBdry
  let touch ← landEach (s 24) areBdry keysArent
  let touch2cavs ← collectMarked (s 25) touch
  let touchBdry ← unmapCavs (fun k => s (k + 26)) touch2cavs cavs
  let colored ← separateByColor (fun k => s (k + 32)) (elemClassIds old) (elemClassIds new) fuel keyBdry
  pure ⟨[notBdry], [touchBdry], colored⟩

section
variable {K : Type} [Field K] [DecidableEq K]

/-- `SumFunctor<Real>`: src/Omega_h_functors.hpp:43-54. -/
def sumFunctorK : Functor K K := ⟨0, (· + ·), id, id⟩

/-- `multiply_each<Real>`: src/Omega_h_array_ops.cpp:103-118. -/
def multiplyEachK (s : Sched) (a b : List K) : Option (List K) :=
  if b.length = 0 then (if a.length = 0 then some [] else none)
  else (divideNoRemainder a.length b.length).bind (fun width => rowEach s (fun x y => some (x * y)) a b width)

/-- `divide_each<Real>`: src/Omega_h_array_ops.cpp:128-139. A division by zero is `none`. -/
def divideEachK (s : Sched) (a b : List K) : Option (List K) :=
  (divideNoRemainder a.length b.length).bind (fun width =>
    rowEach s (fun x y => if y ≠ 0 then some (x / y) else none) a b width)

/-- `divide_each_maybe_zero`: src/Omega_h_array_ops.cpp:141-162. -/
def divideMaybeZeroK (s : Sched) (a b : List K) : Option (List K) :=
  if b.length = 0 then (if a.length = 0 then some a else none)
  else (divideNoRemainder a.length b.length).bind (fun width =>
    rowEach s (fun x y => if y ≠ 0 then some (x / y) else if x = 0 then some 0 else none) a b width)

/-- `add_into`: src/Omega_h_map.cpp:12-23. Two rows that are added to the same place are a data race. -/
def addInto (s : Sched) (aData : List K) (a2b : List Nat) (bData : List K) (w : Nat) : Option (List K) :=
  if aData.length ≠ a2b.length * w then none
  else if ¬ a2b.Nodup then none
  else (parScatter s a2b.length (fun a => do
    let b ← a2b[a]?
    (List.range w).mapM (fun j => do
      let x ← bData[b * w + j]?
      let y ← aData[a * w + j]?
      pure (b * w + j, x + y))) (Mem.ofList bData)).bind Mem.toArray?

/-- The end of both error functions: `cavErrors` is spread over the new elements of each cavity in proportion to their sizes
and added to their errors. src/Omega_h_conserve.cpp:198-207 and 237-245. -/
def spreadErrors (s : Nat → Sched) (keys2new : Graph) (newCavElemSizes cavErrors : List K) (ncomps : Nat) (errors : List K) :
    Option (List K) := do
  let newCavSizes ← fanReduce (s 0) sumFunctorK keys2new.a2ab newCavElemSizes 1
  let densities ← divideMaybeZeroK (s 1) cavErrors newCavSizes
  let elemDensities ← expand (s 2) densities keys2new.a2ab ncomps
  let elemErrors ← multiplyEachK (s 3) elemDensities newCavElemSizes
  addInto (s 4) elemErrors keys2new.ab2b errors ncomps

/-- `carry_class_bdry_integ_error`: src/Omega_h_conserve.cpp:189-208. -/
def carryError (s : Nat → Sched) (new : ElemMesh K) (cavs : Cavs) (oldErrors : List K) (ncomps : Nat) (errors : List K) : Option (List K) := do
  let newCavElemSizes ← unmap (s 0) cavs.keys2new.ab2b new.sizes 1
  let oldCavElemErrors ← unmap (s 1) cavs.keys2old.ab2b oldErrors ncomps
  let oldCavErrors ← fanReduce (s 2) sumFunctorK cavs.keys2old.a2ab oldCavElemErrors ncomps
  spreadErrors (fun k => s (k + 3)) cavs.keys2new newCavElemSizes oldCavErrors ncomps errors

/-- The integrals of the cavities: src/Omega_h_conserve.cpp:222-235. -/
def cavIntegrals (s : Nat → Sched) (g : Graph) (densities sizes : List K) (ncomps : Nat) : Option (List K) := do
  let d ← unmap (s 0) g.ab2b densities ncomps
  let z ← unmap (s 1) g.ab2b sizes 1
  let i ← multiplyEachK (s 2) d z
  fanReduce (s 3) sumFunctorK g.a2ab i ncomps

/-- `introduce_class_integ_error`: src/Omega_h_conserve.cpp:213-246. -/
def introduceError (s : Nat → Sched) (old new : ElemMesh K) (cavs : Cavs) (oldDensities newDensities : List K) (errors : List K) :
    Option (List K) := do
  let ncomps ← divideNoRemainder oldDensities.length old.nelems
  let oldInts ← cavIntegrals s cavs.keys2old oldDensities old.sizes ncomps
  let newInts ← cavIntegrals (fun k => s (k + 4)) cavs.keys2new newDensities new.sizes ncomps
  let cavErrors ← zipEach (s 8) (fun x y => some (x - y)) newInts oldInts
  let newCavElemSizes ← unmap (s 9) cavs.keys2new.ab2b new.sizes 1
  spreadErrors (fun k => s (k + 10)) cavs.keys2new newCavElemSizes cavErrors ncomps errors

/-- `ConservedBools`: src/Omega_h_conserve.cpp:248-251, for one boundary status. -/
structure ConservedBools where
  thisTime : Bool
  always : Bool
deriving DecidableEq, Repr

/-- One round of the loop of `transfer_integ_error`: src/Omega_h_conserve.cpp:265-278. Both inner loops run over the cavities
that are separated by `CLASS_COLOR`. -/
def transferStatus (s : Nat → Sched) (old new : ElemMesh K) (cavs : List Cavs) (oldDensities newDensities oldErrors : List K) (ncomps : Nat)
    (flags : ConservedBools) (errors : List K) : Option (List K) := do
  let e ← if flags.thisTime then pure errors
    else cavs.foldlM (fun acc c => introduceError s old new c oldDensities newDensities acc) errors
  if flags.always then pure e
  else cavs.foldlM (fun acc c => carryError s new c oldErrors ncomps acc) e

/-- `transfer_integ_error`: src/Omega_h_conserve.cpp:253-282: the new errors. -/
def transferIntegError (s : Nat → Sched) (old new : ElemMesh K) (cavs : CavsByStatus) (oldDensities newDensities oldErrors : List K) (ncomps : Nat)
    (same2old same2new : List Nat) (notBdry touchBdry keyBdry : ConservedBools) : Option (List K) := do
  let sameErrors ← unmap (s 0) same2old oldErrors ncomps
  let e ← (mapInto (s 1) sameErrors same2new (Mem.filled (new.nelems * ncomps) 0) ncomps).bind Mem.toArray?
  let e ← transferStatus (fun k => s (k + 2)) old new cavs.notBdry oldDensities newDensities oldErrors ncomps notBdry e
  let e ← transferStatus (fun k => s (k + 20)) old new cavs.touchBdry oldDensities newDensities oldErrors ncomps touchBdry e
  transferStatus (fun k => s (k + 40)) old new cavs.keyBdry oldDensities newDensities oldErrors ncomps keyBdry e

/-- `form_initial_cavs`: src/Omega_h_conserve.cpp:363-370. -/
def formInitialCavs (s : Nat → Sched) (kds2old : Graph) (keys2kds keys2prods prods2new : List Nat) : Option Cavs := do
  let keys2old ← unmapGraph s keys2kds kds2old
  pure ⟨keys2old, ⟨keys2prods, prods2new⟩⟩

/-- The errors of one field after a modification: `form_initial_cavs`, `separate_cavities` and `transfer_integ_error` as
they are called one after the other in src/Omega_h_conserve.cpp:372-390, 457-488, 490-529 and 531-553. -/
def conserveErrors (s : Nat → Sched) (fuel : Nat) (flags : ConservedBools × ConservedBools × ConservedBools) (old new : ElemMesh K)
    (kds2old : Graph) (kdClassDims : List Int) (keys2kds keys2prods prods2new same2old same2new : List Nat)
    (oldDensities newDensities oldErrors : List K) (ncomps : Nat) : Option (List K) := do
  let init ← formInitialCavs s kds2old keys2kds keys2prods prods2new
  let cavs ← separateCavities (fun k => s (k + 3)) fuel old new init kdClassDims keys2kds
  transferIntegError (fun k => s (k + 3000)) old new cavs oldDensities newDensities oldErrors ncomps same2old same2new
    flags.1 flags.2.1 flags.2.2

end

/-- The operations that account for errors. -/
inductive ConserveOp where
  | refine | coarsen | swap | motion
deriving DecidableEq, Repr

/-- The flags for densities of `OpConservation`: src/Omega_h_conserve.cpp:326-338, 381-383, 478-480, 521-523, 545-547, in
the order of `BdryStatus`. -/
def densityFlags : ConserveOp → ConservedBools × ConservedBools × ConservedBools
  | .refine => (⟨true, true⟩, ⟨true, false⟩, ⟨true, false⟩)
  | .coarsen | .swap | .motion => (⟨true, true⟩, ⟨true, false⟩, ⟨false, false⟩)

/-- The flags for momenta: src/Omega_h_conserve.cpp:326-338, 384-386, 481-483, 524-526, 548-550. -/
def momentumFlags : ConserveOp → ConservedBools × ConservedBools × ConservedBools
  | .refine => (⟨true, false⟩, ⟨true, false⟩, ⟨true, false⟩)
  | .coarsen | .swap | .motion => (⟨false, false⟩, ⟨false, false⟩, ⟨false, false⟩)

end OmegaH
