import Verif.Model.Refine
import Verif.Model.Graph
/-!
# Renumbering when entities are replaced: src/Omega_h_modify.cpp

`Few<LOs, 4>`, whose arrays need not exist, is a function from the dimension to an optional array. What
the code asks from the mesh is an argument. Numbers are integers without overflow.
-/
namespace OmegaH

/-- What the renumbering asks from the mesh. -/
structure ModifyMesh where
  dim : Nat
  nents : Nat → Nat
  up : Nat → Nat → Adj
  down : Nat → Nat → List Nat
  degree : Nat → Nat → Nat
  owned : Nat → List Int

/-- `mark_up`: src/Omega_h_mark.cpp:51-66. -/
def markUp (s : Sched) (hl2l : List Nat) (deg nh : Nat) (lowMarked : List Int) : Option (List Int) :=
  (parScatter s nh (fun h => do
    let rows ← (List.range deg).mapM (fun hhl => do
      let l ← hl2l[h * deg + hhl]?
      let m ← lowMarked[l]?
      pure (if m ≠ 0 then [(h, (1 : Int))] else []))
    pure rows.flatten) (Mem.filled nh 0)).bind Mem.toArray?

/-- `collect_same`: src/Omega_h_modify.cpp:141-148. -/
def collectSame (s1 s2 : Sched) (nents : Nat) (mdsAreMods : Option (List Int)) (keepMods : Bool) :
    Option (List Nat) :=
  if keepMods then some (List.range nents)
  else match mdsAreMods with
    | none => some (List.range nents)
    | some marks => (invertMarks s1 marks).bind (collectMarked s2)

/-- `get_mods2reps`: src/Omega_h_modify.cpp:163-196. -/
def getMods2Reps (s : Sched) (mesh : ModifyMesh) (entDim modDim : Nat) (mods2mds : List Nat) :
    Option (List Nat) :=
  if modDim = entDim then some mods2mds
  else if modDim < entDim then
    (parScatter s mods2mds.length (fun mod => do
      let md ← mods2mds[mod]?
      let i ← (mesh.up modDim entDim).a2ab[md]?
      let e ← (mesh.up modDim entDim).ab2b[i]?
      pure [(mod, e)]) (Mem.alloc mods2mds.length)).bind Mem.toArray?
  else
    (parScatter s mods2mds.length (fun mod => do
      let md ← mods2mds[mod]?
      let e ← (mesh.down modDim entDim)[md * mesh.degree modDim entDim]?
      pure [(mod, e)]) (Mem.alloc mods2mds.length)).bind Mem.toArray?

/-- The `atomic_add`s of one dimension, in the order in which they take effect:
src/Omega_h_modify.cpp:232-240. -/
def repAdds (countNonOwned : Bool) (owned : List Int) (mds reps : List Nat) (nprods : List Int) :
    List Nat → List Int → Option (List Int)
  | [], counts => some counts
  | mod :: rest, counts => do
    let rep ← reps[mod]?
    let n ← nprods[mod]?
    let counted ← (if countNonOwned then some true else
      (mds[mod]?).bind (fun md => (owned[md]?).map (fun o => decide (o ≠ 0))))
    if counted then
      let c ← counts[rep]?
      repAdds countNonOwned owned mds reps nprods rest (counts.set rep (c + n))
    else repAdds countNonOwned owned mds reps nprods rest counts

/-- One turn of the loop over the dimensions of modified entities in `get_rep_counts`:
src/Omega_h_modify.cpp:223-241. -/
def repCountsDim (s : Sched) (mesh : ModifyMesh) (countNonOwned : Bool) (mods2mds mods2reps : Nat → Option (List Nat))
    (mods2nprods : Nat → Option (List Int)) (counts : List Int) (d : Nat) : Option (List Int) :=
  match mods2reps d with
  | none => some counts
  | some reps => do
    let nprods ← mods2nprods d
    let mds ← mods2mds d
    if reps.length = nprods.length then
      repAdds countNonOwned (mesh.owned d) mds reps nprods (s.order reps.length) counts
    else none

/-- `get_rep_counts`: src/Omega_h_modify.cpp:210-243. `s 0` orders the first loop, `s (d + 1)` the
atomic additions of dimension `d`. -/
def getRepCounts (s : Nat → Sched) (mesh : ModifyMesh) (entDim : Nat) (mods2mds mods2reps : Nat → Option (List Nat))
    (mods2nprods : Nat → Option (List Int)) (same : List Nat) (countNonOwned : Bool) : Option (List Int) := do
  if (mesh.owned entDim).length = mesh.nents entDim then
    let counts ← (parScatter (s 0) same.length (fun i => do
      let ent ← same[i]?
      let counted ← (if countNonOwned then some true else
        ((mesh.owned entDim)[ent]?).map (fun o => decide (o ≠ 0)))
      pure (if counted then [(ent, (1 : Int))] else []))
      (Mem.filled (mesh.nents entDim) 0)).bind Mem.toArray?
    (List.range (mesh.dim + 1)).foldlM (fun counts d =>
      repCountsDim (s (d + 1)) mesh countNonOwned mods2mds mods2reps mods2nprods counts d) counts
  else none

/-- The modified entities of dimension `d` that `rep` represents, in upward order, as
`(dimension, entity, products)`: src/Omega_h_modify.cpp:315-329. -/
def repModsDim (mesh : ModifyMesh) (repDim : Nat) (mds2mods nprods : Nat → Option (List Int)) (rep d : Nat) :
    Option (List (Nat × Nat × Int)) := do
  let codes ← (mesh.up repDim d).codes
  let fan ← fanMembers (mesh.up repDim d).a2ab rep
  let rows ← fan.mapM (fun i => do
    let md ← (mesh.up repDim d).ab2b[i]?
    let mods ← mds2mods d
    let mod ← mods[md]?
    if 0 ≤ mod then
      let code ← codes[i]?
      if codeWhichDown code = 0 then
        let ns ← nprods d
        let n ← ns[mod.toNat]?
        pure [(d, md, n)]
      else pure []
    else pure [])
  pure rows.flatten

/-- The running offsets that the functor of `get_rep2md_order` stores:
src/Omega_h_modify.cpp:325-326. -/
def runOffsets (offset : Int) : List (Nat × Nat × Int) → List (Nat × Nat × Int)
  | [] => []
  | (d, md, n) :: rest => (d, md, offset) :: runOffsets (offset + n) rest

/-- The stores of the functor of `get_rep2md_order` for one representative, as
`(dimension, entity, order)`: src/Omega_h_modify.cpp:307-331. -/
def repOrders (mesh : ModifyMesh) (repDim : Nat) (mds2mods nprods : Nat → Option (List Int))
    (have_ : Nat → Bool) (rep : Nat) : Option (List (Nat × Nat × Int)) := do
  let offset ← (if have_ repDim then do
      let mods ← mds2mods repDim
      let mod ← mods[rep]?
      if 0 ≤ mod then
        let ns ← nprods repDim
        ns[mod.toNat]?
      else some 0
    else some 0)
  let rows ← ((List.range' (repDim + 1) (mesh.dim - repDim)).filter have_).mapM
    (repModsDim mesh repDim mds2mods nprods rep)
  pure (runOffsets offset rows.flatten)

/-- `get_rep2md_order`, the array of dimension `d`: src/Omega_h_modify.cpp:283-338. The functor stores
into one array per dimension; each is modelled as its own loop. -/
def getRep2mdOrder (s : Nat → Sched) (mesh : ModifyMesh) (repDim : Nat) (mods2mds : Nat → Option (List Nat))
    (nprods : Nat → Option (List Int)) (have_ : Nat → Bool) (d : Nat) : Option (List Int) :=
  (parScatter (s 0) (mesh.nents repDim) (fun rep =>
    (repOrders mesh repDim (fun d => (mods2mds d).bind (fun l => invertInjectiveMap (s (d + 1)) l (mesh.nents d)))
      nprods have_ rep).map (fun ws => (ws.filter (fun w => w.1 = d)).map (fun w => (w.2.1, w.2.2))))
    (Mem.filled (mesh.nents d) (-1))).bind Mem.toArray?

/-- The offset of a modified entity within its representative, in the upward case if `order` exists:
src/Omega_h_modify.cpp:382-390. -/
def modOrder (mds : List Nat) (order : Option (List Int)) (mod : Nat) : Option Int :=
  match order with
  | none => some 0
  | some ord => (mds[mod]?).bind (fun md => (ord[md]?).bind (fun o => if 0 ≤ o then some o else none))

/-- The stores for the products of one modified entity, in the upward case if `order` exists:
src/Omega_h_modify.cpp:382-401. -/
def prodNumbers (mds prods : List Nat) (newOffsets : List Int) (order : Option (List Int)) (selfCount : Int)
    (mod : Nat) : Option (List (Nat × Int)) := do
  let base ← newOffsets[mod]?
  let ord ← modOrder mds order mod
  let lo ← prods[mod]?
  let hi ← prods[mod + 1]?
  pure (blockWrites lo ((List.range (hi - lo)).map (fun (j : Nat) => base + ord + selfCount + (j : Int))))

/-- One turn of the loop over dimensions in `assign_new_numbering`: src/Omega_h_modify.cpp:359-402. -/
def assignDim (s1 s2 : Sched) (numbers : List Int) (mods2mds mods2reps mods2prods : Nat → Option (List Nat))
    (order : Nat → Option (List Int)) (keepMods : Bool) (m : Mem Int) (d : Nat) : Option (Mem Int) :=
  match mods2prods d with
  | none => some m
  | some prods => do
    let reps ← mods2reps d
    let mds ← mods2mds d
    let newOffsets ← unmap s1 reps numbers 1
    if reps.length + 1 = prods.length then
      let selfCount : Int := if keepMods then 1 else if (order d).isSome then 1 else 0
      parScatter s2 reps.length (prodNumbers mds prods newOffsets (order d) selfCount) m
    else none

/-- The number of products: the end of the last dimension that has an array,
src/Omega_h_modify.cpp:355-358. -/
def countProducts (mods2prods : Nat → Option (List Nat)) : Option Nat :=
  (List.range 4).foldlM (fun n d => match mods2prods d with
    | none => some n
    | some prods => prods.getLast?) 0

/-- `assign_new_numbering`: src/Omega_h_modify.cpp:347-404. The numbers of the entities that stay and
of the products. -/
def assignNewNumbering (s : Nat → Sched) (numbers : List Int) (same : List Nat)
    (mods2mds mods2reps mods2prods : Nat → Option (List Nat)) (order : Nat → Option (List Int)) (keepMods : Bool) :
    Option (List Int × List Int) := do
  let same2new ← unmap (s 0) same numbers 1
  let nprods ← countProducts mods2prods
  let m ← (List.range 4).foldlM (fun m d =>
    assignDim (s (2 * d + 1)) (s (2 * d + 2)) numbers mods2mds mods2reps mods2prods order keepMods m d)
    (Mem.alloc nprods)
  let prods2new ← m.toArray?
  pure (same2new, prods2new)

/-- Arrays for the dimensions below `n` that are to exist; the computation of one that fails is a
failure of the whole. -/
def perDim {α : Type} (n : Nat) (exists_ : Nat → Bool) (f : Nat → Option α) : Option (Nat → Option α) :=
  ((List.range n).mapM (fun d => if exists_ d then (f d).map some else some none)).map
    (fun l d => (l[d]?).join)

/-- The local numbers that `modify_ents` computes: src/Omega_h_modify.cpp:474-499. -/
structure NewNumbers where
  same : List Nat
  same2new : List Int
  prods2new : List Int
  old2new : List Int
  nnew : Int

/-- `modify_ents` up to the local numbers: src/Omega_h_modify.cpp:474-501. `have_` tells which
dimensions have products. -/
def modifyNumbers (s : Nat → Nat → Sched) (mesh : ModifyMesh) (entDim : Nat) (mods2mds : Nat → Option (List Nat))
    (mdsAreMods : Nat → Option (List Int)) (mods2prods : Nat → Option (List Nat)) (keepMods : Bool) :
    Option NewNumbers := do
  let same ← collectSame (s 0 0) (s 0 1) (mesh.nents entDim) (mdsAreMods entDim) keepMods
  let reps ← perDim (mesh.dim + 1) (fun d => (mods2prods d).isSome) (fun d => do
    let prods ← mods2prods d
    let mds ← mods2mds d
    if prods.length = mds.length + 1 then getMods2Reps (s 1 d) mesh entDim d mds else none)
  let nprods ← perDim (mesh.dim + 1) (fun d => (mods2prods d).isSome) (fun d =>
    (mods2prods d).bind (getDegrees (s 2 d)))
  let counts ← getRepCounts (s 3) mesh entDim mods2mds reps nprods same true
  let offsets := offsetScan counts
  let nnew ← offsets.getLast?
  let have_ := fun d => (mods2prods d).isSome
  let order ← perDim (mesh.dim + 1) (fun d => decide (entDim < d) && have_ d)
    (getRep2mdOrder (s 4) mesh entDim mods2mds nprods have_)
  let (same2new, prods2new) ← assignNewNumbering (s 5) offsets same mods2mds reps mods2prods order keepMods
  let old2new ← mapOnto (s 6 0) same2new same (mesh.nents entDim) (-1) 1
  pure ⟨same, same2new, prods2new, old2new, nnew⟩

/-- The arrays that `modify_ents_adapt` hands to `modify_ents`: which entities are modified, as marks
and as lists, src/Omega_h_modify.cpp:452-460. -/
def adaptMods (s : Nat → Nat → Sched) (mesh : ModifyMesh) (K : Nat) (keys2kds : List Nat) :
    Option ((Nat → Option (List Int)) × (Nat → Option (List Nat))) := do
  let marks ← markImage (s 0 0) keys2kds (mesh.nents K)
  let mdsAreMods ← perDim (mesh.dim + 1) (fun d => decide (K ≤ d)) (fun d =>
    if d = K then some marks
    else markUp (s 1 d) (mesh.down d K) (mesh.degree d K) (mesh.nents d) marks)
  let mods2mds ← perDim (mesh.dim + 1) (fun d => decide (K ≤ d)) (fun d =>
    if d = K then some keys2kds else (mdsAreMods d).bind (collectMarked (s 2 d)))
  pure (mdsAreMods, mods2mds)

/-- `modify_ents_adapt` up to the local numbers: src/Omega_h_modify.cpp:446-466. -/
def modifyNumbersAdapt (s s' : Nat → Nat → Sched) (mesh : ModifyMesh) (E K : Nat) (keys2kds keys2prods : List Nat) :
    Option NewNumbers := do
  let (mdsAreMods, mods2mds) ← adaptMods s mesh K keys2kds
  modifyNumbers s' mesh E mods2mds mdsAreMods (fun d => if d = K then some keys2prods else none) false

end OmegaH
