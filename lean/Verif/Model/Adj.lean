import Verif.Model.Graph
import Verif.Model.Align
import Verif.Model.ArrayOps
import Verif.Model.Element

/-! # Adjacencies: src/Omega_h_adj.cpp -/

namespace OmegaH

/-- `Adj`: a graph plus (possibly absent) alignment codes. Models src/Omega_h_adj.hpp (`struct Adj`). -/
structure Adj where
  a2ab : List Nat
  ab2b : List Nat
  codes : Option (List Int)
  deriving DecidableEq, Repr

/-- `swap2(a[i], a[j])` on initialised cells: src/Omega_h_scalar.hpp (`swap2`). -/
def swapAt {α : Type} (a : List α) (i j : Nat) : Option (List α) :=
  match a[i]?, a[j]? with
  | some x, some y => some ((a.set i y).set j x)
  | _, _ => none

/-- The inner loop of `sort_by_high_index`: position and value of the smallest of
`lh2h[j] … lh2h[end-1]`. src/Omega_h_adj.cpp:189-197 -/
def minFrom (lh2h : List Nat) (j hi : Nat) : Option (Nat × Nat) := do
  let first ← lh2h[j]?
  (List.range' (j + 1) (hi - (j + 1))).foldlM (fun (best : Nat × Nat) k =>
    (lh2h[k]?).map (fun h => if h < best.2 then (k, h) else best)) (j, first)

/-- One step of the selection sort: src/Omega_h_adj.cpp:188-200. -/
def sortStep {γ : Type} (hi : Nat) (st : List Nat × List γ) (j : Nat) :
    Option (List Nat × List γ) := do
  let (kMin, _) ← minFrom st.1 j hi
  let lh2h ← swapAt st.1 j kMin
  let codes ← swapAt st.2 j kMin
  pure (lh2h, codes)

/-- The body of `sort_by_high_index` for the fan `lo … hi-1`: src/Omega_h_adj.cpp:185-201. -/
def sortFan {γ : Type} (lo hi : Nat) (st : List Nat × List γ) : Option (List Nat × List γ) :=
  (List.range' lo (hi - lo)).foldlM (sortStep hi) st

/-- `sort_by_high_index`: src/Omega_h_adj.cpp:180-204. Iterations work in place, each on the cells of
its own fan only, so running them one after the other in an arbitrary order covers every interleaving. -/
def sortByHighIndex {γ : Type} (s : Sched) (l2lh : List Nat) (st : List Nat × List γ) :
    Option (List Nat × List γ) :=
  (s.order (l2lh.length - 1)).foldlM (fun st l =>
    match l2lh[l]?, l2lh[l + 1]? with
    | some lo, some hi => sortFan lo hi st
    | _, _ => none) st

/-- The code of one upward entry, with or without downward codes: src/Omega_h_adj.cpp:213-218 and
src/Omega_h_adj.cpp:229-230. -/
def upCode (downCodes : Option (List Int)) (hl whichDown : Nat) : Option Int :=
  match downCodes with
  | some dc => (dc[hl]?).bind (fun c => makeCode (codeIsFlipped c) (codeRotation c) whichDown)
  | none => makeCode false 0 whichDown

/-- `separate_upward_with_codes` and `separate_upward_no_codes`: src/Omega_h_adj.cpp:206-233. The loop
writes two arrays, modelled as two loops over the same input. Division by zero is undefined. -/
def separateUpward (s1 s2 : Sched) (lh2hl : List Nat) (nlowsPerHigh : Nat)
    (downCodes : Option (List Int)) : Option (List Nat × List Int) := do
  let lh2h ← (parScatter s1 lh2hl.length (fun lh => (lh2hl[lh]?).bind (fun hl =>
      if nlowsPerHigh = 0 then none else some [(lh, hl / nlowsPerHigh)]))
    (Mem.alloc lh2hl.length)).bind Mem.toArray?
  let codes ← (parScatter s2 lh2hl.length (fun lh => (lh2hl[lh]?).bind (fun hl =>
      if nlowsPerHigh = 0 then none
      else (upCode downCodes hl (hl % nlowsPerHigh)).map (fun c => [(lh, c)])))
    (Mem.alloc lh2hl.length)).bind Mem.toArray?
  pure (lh2h, codes)

/-- `invert_adj`: src/Omega_h_adj.cpp:235-270 (array names left out). The schedules are those of the
atomic counts, the atomic fetch-adds, their stores, the two stores of the separation and the sort. -/
def invertAdj (s1 s2 s3 s4 s5 s6 : Sched) (down : Adj) (nlowsPerHigh nlows : Nat) : Option Adj := do
  let l2hl ← invertMapByAtomics s1 s2 s3 down.ab2b nlows
  let st ← separateUpward s4 s5 l2hl.ab2b nlowsPerHigh down.codes
  let (lh2h, codes) ← sortByHighIndex s6 l2hl.a2ab st
  pure ⟨l2hl.a2ab, lh2h, some codes⟩

/-- The entries `data[i*w] … data[i*w+w-1]`; reading past the end is undefined. -/
def rowAt {α : Type} (data : List α) (w i : Nat) : Option (List α) :=
  if (i + 1) * w ≤ data.length then some ((data.drop (i * w)).take w) else none

/-- `IsFlipped<deg>::is`: src/Omega_h_adj.cpp:40-65. -/
def isFlippedRow (deg : Nat) (adj : List Nat) : Option Bool :=
  if deg = 4 then
    match adj[3]?, adj[1]? with
    | some x, some y => some (decide (x < y))
    | _, _ => none
  else if deg = 3 then
    match adj[2]?, adj[1]? with
    | some x, some y => some (decide (x < y))
    | _, _ => none
  else if deg = 2 then some false
  else none

/-- The body of `get_codes_to_canonical_deg` for one row. Its search for the smallest vertex
(src/Omega_h_adj.cpp:75-84) is the same loop as `minFrom`. src/Omega_h_adj.cpp:73-90 -/
def canonCode (deg : Nat) (row : List Nat) : Option Int := do
  let (minJ, _) ← minFrom row 0 deg
  let rotation := rotationToFirst deg minJ
  let tmp ← (rotateAdj deg rotation row).bind Mem.toArray?
  let fl ← isFlippedRow deg tmp
  makeCode fl rotation 0

/-- `get_codes_to_canonical`: src/Omega_h_adj.cpp:67-104. -/
def getCodesToCanonical (s : Sched) (deg : Nat) (ev2v : List Nat) : Option (List Int) :=
  if deg = 2 ∨ deg = 3 ∨ deg = 4 then
    (divideNoRemainder ev2v.length deg).bind (fun ne =>
      (parScatter s ne (fun e => (rowAt ev2v deg e).bind (fun r =>
          (canonCode deg r).map (fun c => [(e, c)])))
        (Mem.alloc ne)).bind Mem.toArray?)
  else none

/-- `are_equal`: src/Omega_h_adj.cpp:108-116 (the loop stops at the first difference; all reads are
in range when both rows are). -/
def areEqualRows (deg : Nat) (canon : List Nat) (e0 e1 : Nat) : Option Bool :=
  match rowAt canon deg e0, rowAt canon deg e1 with
  | some a, some b => some ((List.range deg).all (fun j => a[j]? == b[j]?))
  | _, _ => none

/-- One iteration of `find_canonical_jumps`: src/Omega_h_adj.cpp:124-128. -/
def jumpKernel (deg : Nat) (canon eSorted2e : List Nat) (i : Nat) : Option (List (Nat × Int)) :=
  match eSorted2e[i]?, eSorted2e[i + 1]? with
  | some e0, some e1 => (areEqualRows deg canon e0 e1).map (fun b => if b then [] else [(i, 1)])
  | _, _ => none

/-- `find_canonical_jumps`: src/Omega_h_adj.cpp:118-132. -/
def findCanonicalJumps (s : Sched) (deg : Nat) (canon eSorted2e : List Nat) : Option (List Int) := do
  let ne := eSorted2e.length
  let jumps ← (parScatter s (ne - 1) (jumpKernel deg canon eSorted2e)
    (Mem.filled ne 0)).bind Mem.toArray?
  pure (if jumps.length = 0 then jumps else jumps.set (jumps.length - 1) 1)

/-- `find_unique_deg`: src/Omega_h_adj.cpp:134-143. -/
def findUniqueDeg (s : Sched) (deg : Nat) (uv2v : List Nat) : Option (List Nat) := do
  let codes ← getCodesToCanonical s deg uv2v
  let canon ← alignEv2v s deg uv2v codes
  let sorted2u ← sortByKeys (canon.map Int.ofNat) deg
  let jumps ← findCanonicalJumps s deg canon sorted2u
  let e2sorted ← collectMarked s jumps
  let e2u ← compoundMaps s e2sorted sorted2u
  unmap s e2u uv2v deg

/-- One side of one element, read through the template: the inner loop of `form_uses`,
src/Omega_h_adj.cpp:168-173. A template value that is not an index is undefined behaviour. -/
def sideRow (f : Family) (highDim lowDim : Nat) (hrow : List Nat) (u : Nat) : Option (List Nat) :=
  (List.range (elementDegree f lowDim 0).toNat).mapM (fun (uv : Nat) =>
    let t := elementDownTemplate f highDim lowDim u uv
    if 0 ≤ t then hrow[t.toNat]? else none)

/-- `form_uses`: src/Omega_h_adj.cpp:157-178. -/
def formUses (s : Sched) (hv2v : List Nat) (f : Family) (highDim lowDim : Nat) : Option (List Nat) :=
  let nvh := (elementDegree f highDim 0).toNat
  let nvl := (elementDegree f lowDim 0).toNat
  let nl := (elementDegree f highDim lowDim).toNat
  (divideNoRemainder hv2v.length nvh).bind (fun nhigh =>
    (parScatter s nhigh (fun h => (rowAt hv2v nvh h).bind (fun hrow =>
        ((List.range nl).mapM (fun u => (sideRow f highDim lowDim hrow u).map (fun r =>
          r.mapIdx (fun uv v => ((h * nl + u) * nvl + uv, v))))).map List.flatten))
      (Mem.alloc (nhigh * nl * nvl))).bind Mem.toArray?)

/-- `find_unique`: src/Omega_h_adj.cpp:145-155. -/
def findUnique (s : Sched) (hv2v : List Nat) (f : Family) (highDim lowDim : Nat) :
    Option (List Nat) :=
  if lowDim < highDim ∧ lowDim ≤ 2 ∧ hv2v.length % (elementDegree f highDim 0).toNat = 0 then
    (formUses s hv2v f highDim lowDim).bind (fun uv2v =>
      findUniqueDeg s (elementDegree f lowDim 0).toNat uv2v)
  else none

/-- `IsMatch<deg>::eval` on two rows, the first vertex of `a` being vertex `w` of `b`: the code, or
no match. src/Omega_h_adj.cpp:297-365. A position outside the row does not occur with codes made by
`invert_adj` and counts as undefined. -/
def isMatch (deg : Nat) (a b : List Nat) (w : Nat) : Option (Option Int) :=
  if w < deg then
    if deg = 2 then
      match a[1]?, b[1 - w]? with
      | some a1, some b1 => if a1 = b1 then (makeCode false w 0).map some else some none
      | _, _ => none
    else if deg = 3 then
      match a[1]?, a[2]?, b[(w + 1) % 3]?, b[(w + 2) % 3]? with
      | some a1, some a2, some b1, some b2 =>
        if a1 = b1 ∧ a2 = b2 then (makeCode false (rotationToFirst 3 w) 0).map some
        else if a1 = b2 ∧ a2 = b1 then (makeCode true (rotationToFirst 3 w) 0).map some
        else some none
      | _, _, _, _ => none
    else if deg = 4 then
      match a[1]?, a[2]?, a[3]?, b[(w + 1) % 4]?, b[(w + 2) % 4]?, b[(w + 3) % 4]? with
      | some a1, some a2, some a3, some b1, some b2, some b3 =>
        if a2 ≠ b2 then some none
        else if a1 = b1 ∧ a3 = b3 then (makeCode false (rotationToFirst 4 w) 0).map some
        else if a1 = b3 ∧ a3 = b1 then (makeCode true (rotationToFirst 4 w) 0).map some
        else some none
      | _, _, _, _, _, _ => none
    else none
  else none

/-- The loop over the candidates `(b, code)` around the first vertex: src/Omega_h_adj.cpp:388-402.
A second match fails the check unless duplicates are allowed, in which case the first one is kept. -/
def matchLoop (deg : Nat) (arow bv2v : List Nat) (allowDuplicates : Bool) :
    List (Nat × Int) → Option (Nat × Int) → Option (Option (Nat × Int))
  | [], found => some found
  | (b, code) :: rest, found =>
    if codeWhichDown code < 0 then none
    else (rowAt bv2v deg b).bind (fun brow =>
      (isMatch deg arow brow (codeWhichDown code).toNat).bind (fun
        | none => matchLoop deg arow bv2v allowDuplicates rest found
        | some c =>
          if found.isSome then none
          else if allowDuplicates then some (some (b, c))
          else matchLoop deg arow bv2v allowDuplicates rest (some (b, c))))

/-- The candidates `vb2b[vb], vb_codes[vb]` of the fan of `fv`: src/Omega_h_adj.cpp:385-391. -/
def fanEntries (v2b : Adj) (fv : Nat) : Option (List (Nat × Int)) :=
  v2b.codes.bind (fun codes =>
    (fanMembers v2b.a2ab fv).bind (fun vbs => vbs.mapM (fun vb =>
      match v2b.ab2b[vb]?, codes[vb]? with
      | some b, some c => some (b, c)
      | _, _ => none)))

/-- The match of item `a`; none found fails the check: src/Omega_h_adj.cpp:382-405. -/
def findMatch (deg : Nat) (a2fv av2v bv2v : List Nat) (v2b : Adj) (allowDuplicates : Bool) (a : Nat) :
    Option (Nat × Int) := do
  let fv ← a2fv[a]?
  let ents ← fanEntries v2b fv
  let arow ← rowAt av2v deg a
  let found ← matchLoop deg arow bv2v allowDuplicates ents none
  found

/-- `find_matches_ex` (`find_matches_deg`): src/Omega_h_adj.cpp:367-430. The loop writes two arrays,
modelled as two loops. -/
def findMatchesEx (s1 s2 : Sched) (deg : Nat) (a2fv av2v bv2v : List Nat) (v2b : Adj)
    (allowDuplicates : Bool) : Option (List Nat × List Int) := do
  if (deg = 2 ∨ deg = 3 ∨ deg = 4) ∧ a2fv.length * deg = av2v.length then
    let a2b ← (parScatter s1 a2fv.length (fun a =>
        (findMatch deg a2fv av2v bv2v v2b allowDuplicates a).map (fun m => [(a, m.1)]))
      (Mem.alloc a2fv.length)).bind Mem.toArray?
    let codes ← (parScatter s2 a2fv.length (fun a =>
        (findMatch deg a2fv av2v bv2v v2b allowDuplicates a).map (fun m => [(a, m.2)]))
      (Mem.alloc a2fv.length)).bind Mem.toArray?
    pure (a2b, codes)
  else none

/-- `find_matches`: src/Omega_h_adj.cpp:432-438. -/
def findMatches (s : Sched) (f : Family) (dim : Nat) (av2v bv2v : List Nat) (v2b : Adj) :
    Option (List Nat × List Int) :=
  if dim ≤ 2 then
    let deg := (elementDegree f dim 0).toNat
    (getComponent s av2v deg 0).bind (fun a2fv => findMatchesEx s s deg a2fv av2v bv2v v2b false)
  else none

/-- `reflect_down` with a given upward adjacency: src/Omega_h_adj.cpp:440-448. -/
def reflectDownWith (s : Sched) (hv2v lv2v : List Nat) (v2l : Adj) (f : Family)
    (highDim lowDim : Nat) : Option (List Nat × List Int) :=
  (formUses s hv2v f highDim lowDim).bind (fun uv2v => findMatches s f lowDim uv2v lv2v v2l)

/-- `reflect_down`: src/Omega_h_adj.cpp:450-457. -/
def reflectDown (s1 s2 s3 s : Sched) (hv2v lv2v : List Nat) (f : Family) (nv highDim lowDim : Nat) :
    Option (List Nat × List Int) :=
  (invertAdj s1 s2 s3 s s s ⟨[], lv2v, none⟩ (elementDegree f lowDim 0).toNat nv).bind (fun v2l =>
    reflectDownWith s hv2v lv2v v2l f highDim lowDim)

end OmegaH
