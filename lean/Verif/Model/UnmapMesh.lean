import Verif.Model.Migrate
import Verif.Model.Adj
import Verif.Model.Map

/-! # Extraction of a part of a mesh: src/Omega_h_unmap_mesh.cpp, and the children of parents: src/Omega_h_adj.cpp:265-292

As in `Model/Migrate.lean`, a level holds what all ranks have for one dimension. -/

namespace OmegaH

/-- One dimension of the new mesh: connectivity (there is none for vertices), codes, tags, and owners unless there is one rank. -/
structure UnmappedLevel where
  conn : Option (List (List Int))
  codes : Option (List (List Int))
  tags : List (Nat × List (List Int))
  owners : Option (List (List Int) × List (List Int))
  deriving DecidableEq, Repr

/-- `unmap` of an array that every rank holds. -/
def unmapRanks {α : Type} (s : Nat → Sched) (kept : List (List Nat)) (data : List (List α)) (w : Nat) : Option (List (List α)) :=
  (List.range kept.length).mapM (fun r => (kept[r]?).bind (fun k => (data[r]?).bind (fun d => unmap (s r) k d w)))

/-- `unmap_down`, connectivity: src/Omega_h_unmap_mesh.cpp:32-46. An entity that was not kept is -1. -/
def unmapDown (s : Nat → Nat → Sched) (deg : Nat) (level : MeshLevel) (kept : List (List Nat)) (oldLows2newLows : List (List Int)) :
    Option (List (List Int)) :=
  (unmapRanks (fun r => s r 0) kept level.lows deg).bind (fun nel2ol =>
  (List.range kept.length).mapM (fun r => (nel2ol[r]?).bind (fun a => (oldLows2newLows[r]?).bind (fun b => compoundMaps (s r 1) a b))))

/-- `unmap_down`, codes: src/Omega_h_unmap_mesh.cpp:42-45. -/
def unmapCodes (s : Nat → Sched) (deg : Nat) (level : MeshLevel) (kept : List (List Nat)) : Option (Option (List (List Int))) :=
  match level.codes with
  | none => some none
  | some c => (unmapRanks s kept c deg).map some

/-- `unmap_tags`: src/Omega_h_unmap_mesh.cpp:12-30. -/
def unmapTags (s : Nat → Sched) (kept : List (List Nat)) (tags : List (Nat × List (List Int))) : Option (List (Nat × List (List Int))) :=
  tags.mapM (fun t => (unmapRanks s kept t.2 t.1).map (fun d => (t.1, d)))

/-- `invert_injective_map` on every rank: src/Omega_h_unmap_mesh.cpp:124-125. -/
def keptIndices (s : Nat → Sched) (kept : List (List Nat)) (nents : List Nat) : Option (List (List Int)) :=
  (List.range kept.length).mapM (fun r => (kept[r]?).bind (fun k => (nents[r]?).bind (fun n => invertInjectiveMap (s r) k n)))

/-- `unmap_owners`: src/Omega_h_unmap_mesh.cpp:48-68. On one rank owners are not set. -/
def unmapOwners (s : Nat → Nat → Sched) (level : MeshLevel) (kept : List (List Nat)) (oldEnts2newEnts : List (List Int)) :
    Option (Option (List (List Int) × List (List Int))) :=
  if kept.length = 1 then some none
  else
    (newDist s level.owners level.nents).bind (fun D =>
    (Dist.exch (fun r k => s r (k + 10)) (D.map Dist.invert) 1 oldEnts2newEnts).bind (fun oldCopies2newOwners =>
    (unmapRanks (fun r => s r 20) kept oldCopies2newOwners 1).bind (fun idxs =>
    (unmapRanks (fun r => s r 21) kept (level.owners.map (fun o => o.ranks.map (fun x : Nat => (x : Int)))) 1).map (fun ranks =>
      some (ranks, idxs)))))

/-- The body of the loop of `unmap_mesh`: src/Omega_h_unmap_mesh.cpp:118-130. Also returns the new indices of the old entities. -/
def unmapLevel (s : Nat → Nat → Sched) (deg : Nat) (level : MeshLevel) (kept : List (List Nat)) (oldLows2newLows : Option (List (List Int))) :
    Option (UnmappedLevel × List (List Int)) :=
  (match oldLows2newLows with
    | none => some (none, none)
    | some lows => (unmapDown s deg level kept lows).bind (fun conn =>
        (unmapCodes (fun r => s r 2) deg level kept).map (fun codes => (some conn, codes)))).bind (fun (conn, codes) =>
  (unmapTags (fun r => s r 3) kept level.tags).bind (fun tags =>
  (keptIndices (fun r => s r 4) kept level.nents).bind (fun oldEnts2newEnts =>
  (unmapOwners (fun r k => s r (k + 5)) level kept oldEnts2newEnts).map (fun owners =>
    (⟨conn, codes, tags, owners⟩, oldEnts2newEnts)))))

/-- The loop of `unmap_mesh` up to dimension `d`: src/Omega_h_unmap_mesh.cpp:109-130. The lists of all dimensions exist. -/
def unmapUpTo (s : Nat → Nat → Nat → Sched) (deg : Nat → Nat) (mesh : Nat → MeshLevel) (kept : Nat → List (List Nat)) :
    Nat → Option (List UnmappedLevel × List (List (List Int)))
  | 0 => (unmapLevel (s 0) 0 (mesh 0) (kept 0) none).map (fun (l, m) => ([l], [m]))
  | d + 1 => (unmapUpTo s deg mesh kept d).bind (fun (ls, ms) => (ms[d]?).bind (fun lows =>
      (unmapLevel (s (d + 1)) (deg (d + 1)) (mesh (d + 1)) (kept (d + 1)) (some lows)).map (fun (l, m) => (ls ++ [l], ms ++ [m]))))

/-- `amr::code_parent_dim`, `code & 3`: src/Omega_h_amr.hpp:15. -/
def codeParentDim (code : Int) : Nat := (code % 4).toNat

/-- `unmap_parents`, on one rank and for one dimension: src/Omega_h_unmap_mesh.cpp:70-95. `maps d` are the new indices of the old
entities of dimension `d` of this rank. The loop writes two arrays; here it writes pairs of an index and a code. -/
def unmapParents (s : Sched) (kept : List Nat) (parentIdx codes : List Int) (maps : List (List Int)) : Option (List (Int × Int)) :=
  (parScatter s kept.length (fun i =>
    ((kept[i]?).bind (fun old => (parentIdx[old]?).bind (fun p => (codes[old]?).bind (fun c =>
      if p > -1 then (maps[codeParentDim c]?).bind (fun m => (m[p.toNat]?).map (fun x => if x > -1 then (x, c) else (x, 0)))
      else some ((-1 : Int), (0 : Int)))))).map (fun v => [(i, v)]))
    (Mem.alloc kept.length)).bind Mem.toArray?

/-- The parents of a rank for every dimension after `unmap_mesh`: src/Omega_h_unmap_mesh.cpp:70-95, 131-134. The loop begins at
dimension 1; for dimension 0 nothing is set. -/
def unmapAllParents (s : Nat → Sched) (dim : Nat) (kept : Nat → List Nat) (parents : Nat → List Int × List Int) (maps : List (List Int)) :
    Option (List (Option (List (Int × Int)))) :=
  (List.range (dim + 1)).mapM (fun d =>
    if d = 0 then some none else (unmapParents (s d) (kept d) (parents d).1 (parents d).2 maps).map some)

/-- `Mesh::ask_parents`: src/Omega_h_mesh.cpp:416-425. -/
def askParents (nents : Nat) (parents : Option (List (Int × Int))) : List (Int × Int) :=
  match parents with
  | some p => p
  | none => List.replicate nents (-1, 0)

/-- `filter_parents`: src/Omega_h_adj.cpp:265-277. -/
def filterParents (s : Sched) (codes : List Int) (parentDim : Nat) : Option (List Int) :=
  (parScatter s codes.length (fun i => ((codes[i]?).map (fun c => if codeParentDim c = parentDim then (1 : Int) else 0)).map
    (fun v => [(i, v)])) (Mem.alloc codes.length)).bind Mem.toArray?

/-- `invert_parents`: src/Omega_h_adj.cpp:279-292. A negative index of a parent is undefined behavior in `invert_map_by_atomics`, which
would count at that index. -/
def invertParents (s : Nat → Sched) (parentIdx codes : List Int) (parentDim nparents : Nat) : Option (Adj) :=
  (filterParents (s 0) codes parentDim).bind (fun filter =>
  (collectMarked (s 1) filter).bind (fun rc2c =>
  (unmap (s 2) rc2c parentIdx 1).bind (fun rc2p =>
  (toIndices? rc2p).bind (fun rc2p =>
  (invertMapByAtomics (s 3) (s 4) (s 5) rc2p nparents).bind (fun p2rc =>
  (unmap (s 6) p2rc.ab2b rc2c 1).bind (fun pc2c =>
  (unmap (s 7) pc2c codes 1).bind (fun pcodes =>
  (sortByHighIndex (s 8) p2rc.a2ab (pc2c, pcodes)).map (fun (pc2c, pcodes) => ⟨p2rc.a2ab, pc2c, some pcodes⟩))))))))

/-- `unmap_leaves` on one rank and for one dimension: src/Omega_h_unmap_mesh.cpp:97-111. -/
def unmapLeaves (s : Sched) (leaf : List Int) (children : Adj) : Option (List Int) :=
  (parScatter s leaf.length (fun i =>
    ((leaf[i]?).bind (fun l => (children.a2ab[i + 1]?).bind (fun hi => (children.a2ab[i]?).map (fun lo =>
      if hi = lo ∧ l = 0 then (1 : Int) else l)))).map (fun v => [(i, v)]))
    (Mem.alloc leaf.length)).bind Mem.toArray?

end OmegaH
