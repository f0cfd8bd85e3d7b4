import Verif.Model.Modify
import Verif.Model.Owners
import Verif.Model.UnmapMesh
import Verif.Model.Collapse
/-!
# Global numbers and owners when entities are replaced: src/Omega_h_modify.cpp

A value that every rank has is a list over the ranks. Global numbers are integers without overflow; counts
of entities are 32 bits wide where they are summed over the ranks.
-/
namespace OmegaH

/-- What one rank hands to `modify_ents`, and what it asks from its mesh: the old global numbers of the
entities of the dimension in question, and for each dimension the tag `rep_…2md_order`. -/
structure ModifyRank where
  mesh : ModifyMesh
  mods2mds : Nat → Option (List Nat)
  mdsAreMods : Nat → Option (List Int)
  mods2prods : Nat → Option (List Nat)
  globals : List Int
  order : Nat → Option (List Int)

/-- The numbers of new entities of the entities that represent them, with what is counted by its owner
only: src/Omega_h_modify.cpp:476-485 and 512-513. The first two arrays are those that `modifyNumbers`
computes. -/
def globalRepCounts (s : Nat → Nat → Sched) (E : Nat) (m : ModifyRank) (same : List Nat) :
    Option ((Nat → Option (List Nat)) × List Int) :=
  (perDim (m.mesh.dim + 1) (fun d => (m.mods2prods d).isSome) (fun d => do
    let prods ← m.mods2prods d
    let mds ← m.mods2mds d
    if prods.length = mds.length + 1 then getMods2Reps (s 1 d) m.mesh E d mds else none)).bind (fun reps =>
  (perDim (m.mesh.dim + 1) (fun d => (m.mods2prods d).isSome) (fun d =>
    (m.mods2prods d).bind (getDegrees (s 2 d)))).bind (fun nprods =>
  (getRepCounts (s 7) m.mesh E m.mods2mds reps nprods same false).map (fun counts => (reps, counts))))

/-- The two `map_into`s that put together what stays and what is produced:
src/Omega_h_modify.cpp:131-136 and 440-442. -/
def placeNew (s : Nat → Sched) (l : NewNumbers) (sameVals prodVals : List Int) : Option (List Int) :=
  (toIndices? l.same2new).bind (fun same2new =>
  (toIndices? l.prods2new).bind (fun prods2new =>
  (mapInto (s 0) sameVals same2new (Mem.alloc (l.same.length + l.prods2new.length)) 1).bind (fun mem =>
  (mapInto (s 1) prodVals prods2new mem 1).bind Mem.toArray?)))

/-- `modify_globals` on one rank, from the new numbers of the old entities: src/Omega_h_modify.cpp:411-412
and 424-443. -/
def newGlobalsOf (s : Nat → Nat → Sched) (E : Nat) (keepMods : Bool) (m : ModifyRank) (l : NewNumbers)
    (reps : Nat → Option (List Nat)) (old2newGlobals : List Int) : Option (List Int) :=
  if l.same.length = l.same2new.length then
    (perDim (m.mesh.dim + 1) (fun d => decide (E < d) && (m.mods2prods d).isSome) m.order).bind (fun order =>
    (assignNewNumbering (s 8) old2newGlobals l.same m.mods2mds reps m.mods2prods order keepMods).bind (fun out =>
    if l.nnew = ((l.same.length + l.prods2new.length : Nat) : Int) then placeNew (s 9) l out.1 out.2 else none))
  else none

/-- `modify_globals`: src/Omega_h_modify.cpp:406-444, with the counts that it is handed. -/
def modifyGlobals (s : Nat → Nat → Nat → Sched) (E : Nat) (keepMods : Bool) (ranks : List ModifyRank)
    (locals : List NewNumbers) : Option (List (List Int)) :=
  (onRanks ranks (fun r m => (locals[r]?).bind (fun l => globalRepCounts (s r) E m l.same))).bind (fun rc =>
  (copiesToLinearOwners (fun r => s r 10) (ranks.map ModifyRank.globals)).bind (fun D =>
  (Dist.exchReduce (fun r => s r 11) (sumFunctor 32) D 1 (rc.map Prod.snd)).bind (fun linCounts =>
  if D.map (fun d => d.rev.roots2items.map (fun fan => fan.length - 1)) = linCounts.map (fun c => some c.length) then
    (rescanGlobals (fun r => s r 12 0) linCounts).bind (fun linGlobals =>
    (Dist.exch (fun r => s r 13) (D.map Dist.invert) 1 linGlobals).bind (fun old2new =>
    onRanks ranks (fun r m => (locals[r]?).bind (fun l => (rc[r]?).bind (fun x => (old2new[r]?).bind (fun o =>
      newGlobalsOf (s r) E keepMods m l x.1 o))))))
  else none)))

/-- `modify_owners` where modified entities are not shared: src/Omega_h_modify.cpp:111-139. -/
def modifyOwners (s : Nat → Nat → Nat → Sched) (level : MeshLevel) (locals : List NewNumbers) :
    Option (Option (List (List Int) × List (List Int))) :=
  (unmapOwners (fun r => s r 14) level (locals.map NewNumbers.same) (locals.map NewNumbers.old2new)).bind (fun o =>
  match o with
  | none => some none
  | some (sameRanks, sameIdxs) =>
    (onRanks locals (fun r l => (sameRanks[r]?).bind (fun a =>
      placeNew (s r 15) l a (List.replicate l.prods2new.length (r : Int))))).bind (fun ranks =>
    (onRanks locals (fun r l => (sameIdxs[r]?).bind (fun a => placeNew (s r 16) l a l.prods2new))).map (fun idxs =>
      some (ranks, idxs))))

/-- The numbers and owners that `modify_ents` gives to new entities that are not shared products:
src/Omega_h_modify.cpp:468-517. Owners are not set on one rank. -/
structure ModifiedEnts where
  locals : List NewNumbers
  owners : Option (List (List Int) × List (List Int))
  globals : List (List Int)

/-- `modify_ents` without connectivity, where modified entities are not shared:
src/Omega_h_modify.cpp:468-517. -/
def modifyEnts (s : Nat → Nat → Nat → Sched) (E : Nat) (keepMods : Bool) (ranks : List ModifyRank) (level : MeshLevel) :
    Option ModifiedEnts :=
  (onRanks ranks (fun r m => modifyNumbers (s r) m.mesh E m.mods2mds m.mdsAreMods m.mods2prods keepMods)).bind (fun locals =>
  (modifyOwners s level locals).bind (fun owners =>
  (modifyGlobals s E keepMods ranks locals).map (fun globals => ⟨locals, owners, globals⟩)))

/-- `get_rep2md_order_adapt` on one rank: src/Omega_h_modify.cpp:269-281. -/
def getRep2mdOrderAdapt (s : Nat → Sched) (mesh : ModifyMesh) (keyDim repDim : Nat) (kdsAreKeys : List Int) :
    Option (List Int) :=
  (collectMarked (s 4) kdsAreKeys).bind (fun keys =>
  getRep2mdOrder s mesh repDim (fun d => if d = keyDim then some keys else none)
    (fun d => if d = keyDim then some (List.replicate keys.length 1) else none) (fun d => decide (d = keyDim)) keyDim)

/-- The functor of `set_owners_by_indset` on one rank: src/Omega_h_modify.cpp:529-539. -/
def keyElemRanks (s : Sched) (keys : List Nat) (kds2elems : Graph) (kdRanks : List Nat) (elemRanks : List Nat) :
    Option (List Int) :=
  (parScatter s keys.length (fun key =>
    (keys[key]?).bind (fun kd => (kdRanks[kd]?).bind (fun q => (fanMembers kds2elems.a2ab kd).bind (fun fan =>
      fan.mapM (fun i => (kds2elems.ab2b[i]?).map (fun e => (e, (q : Int)))))))
    ) (Mem.ofList (elemRanks.map (fun q : Nat => (q : Int))))).bind Mem.toArray?

/-- `set_owners_by_indset`: src/Omega_h_modify.cpp:519-542, on more than one rank. -/
def setOwnersByIndset (s : Nat → Nat → Sched) (keys : List (List Nat)) (kds2elems : List Graph)
    (kdOwners elemOwners : List Remotes) : Option (List (List Int) × List (List Int)) :=
  (newDist s elemOwners (elemOwners.map (fun o => o.ranks.length))).bind (fun D =>
  (onRanks keys (fun r k => (kds2elems[r]?).bind (fun g => (kdOwners[r]?).bind (fun ko => (elemOwners[r]?).bind (fun eo =>
    keyElemRanks (s r 20) k g ko.ranks eo.ranks))))).bind (fun newRanks =>
  updateOwnership (fun r k => s r (k + 21)) D (some newRanks)))

end OmegaH
