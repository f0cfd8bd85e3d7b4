import Verif.Model.Owners

/-! # Migration: src/Omega_h_migrate.cpp

What the ranks hold for one dimension is a structure of lists over the ranks. -/

namespace OmegaH

/-- Exchange of remotes: src/Omega_h_dist.cpp:208-212. -/
def exchRemotes (s : Nat → Nat → Sched) (D : List Dist) (w : Nat) (data : List Remotes) : Option (List Remotes) :=
  (Dist.exch s D w (data.map Remotes.ranks)).bind (fun ranks =>
  (Dist.exch (fun r k => s r (k + 4)) D w (data.map Remotes.idxs)).map (fun idxs =>
    (ranks.zip idxs).map (fun (a, b) => (⟨a, b⟩ : Remotes))))

/-- `unmap` of remotes: src/Omega_h_remotes.cpp:11-13. -/
def unmapRemotes (s1 s2 : Sched) (a2b : List Nat) (b2c : Remotes) : Option Remotes :=
  (unmap s1 a2b b2c.ranks 1).bind (fun ranks => (unmap s2 a2b b2c.idxs 1).map (fun idxs => ⟨ranks, idxs⟩))

/-- The nested loops over the uses of one old owner, given the ranks of these uses: src/Omega_h_migrate.cpp:33-43. The state is the
part of `keep_w` for these uses and `degree`. The innermost loop sets cells of its own, so it is a map. -/
def uniqLoop (ranks : List Nat) : List Int × Nat :=
  (List.range ranks.length).foldl (fun st i =>
    if st.1[i]? = some 0 then st
    else (st.1.mapIdx (fun j k => if i < j ∧ ranks[j]? = ranks[i]? then 0 else k), st.2 + 1))
    (List.replicate ranks.length 1, 0)

/-- The ranks of the uses of one old owner. -/
def useRanks (fan ranks : List Nat) (a : Nat) : Option (List Nat) :=
  (fanMembers fan a).bind (fun bs => bs.mapM (fun b => ranks[b]?))

/-- The local part of `get_old_owners2uniq_uses` on one rank: src/Omega_h_migrate.cpp:21-50. Result: the destination ranks of the
uses that are kept, and their offsets. The loop writes two arrays: two loops here; the final values of `keep_w` are written once. -/
def uniqLocal (s : Nat → Sched) (fan ranks : List Nat) : Option (List Nat × List Nat) :=
  ((parScatter (s 0) (fan.length - 1) (fun a => (fan[a]?).bind (fun b => (useRanks fan ranks a).map (fun rs =>
    blockWrites b (uniqLoop rs).1))) (Mem.filled ranks.length 1)).bind Mem.toArray?).bind (fun keep =>
  ((parScatter (s 1) (fan.length - 1) (fun a => ((useRanks fan ranks a).map (fun rs => (uniqLoop rs).2)).map (fun d => [(a, d)]))
    (Mem.alloc (fan.length - 1))).bind Mem.toArray?).bind (fun degrees =>
  (collectMarked (s 2) keep).bind (fun uniq =>
  (unmap (s 3) uniq ranks 1).map (fun uniqRanks => (uniqRanks, offsetScan degrees)))))

/-- `get_old_owners2uniq_uses`: src/Omega_h_migrate.cpp:21-57. -/
def oldOwners2uniqUses (s : Nat → Nat → Sched) (uses2oldOwners : List Dist) : Option (List Dist) :=
  ((List.range uses2oldOwners.length).mapM (fun r => (uses2oldOwners[r]?).bind (fun d =>
    (d.invert.items2ranks (s r 0) (s r 1) (s r 2)).bind (fun ranks => (d.rev.roots2items).bind (fun fan =>
    uniqLocal (fun k => s r (k + 3)) fan ranks))))).bind (fun parts =>
  (setDestRanks (fun r k => s r (k + 7)) (parts.map Prod.fst)).map (fun D =>
    (D.zip (parts.map Prod.snd)).map (fun (d, fan) => d.setRoots2items fan)))

/-- `get_new_copies2old_owners`: src/Omega_h_migrate.cpp:59-65. -/
def newCopies2oldOwners (s : Nat → Nat → Sched) (uses2oldOwners : List Dist) (globals : List (List Int)) : Option (List Dist) :=
  (oldOwners2uniqUses s uses2oldOwners).bind (fun D =>
  (setDestGlobals (fun r k => s r (k + 9)) D globals).map (fun D => D.map Dist.invert))

/-- The loop that looks for the copy on the rank of a use: src/Omega_h_migrate.cpp:88-94. -/
def findCopy (entRanks entIdxs : List Nat) (rank : Nat) : List Nat → Option Int
  | [] => some (-1)
  | e :: rest => (entRanks[e]?).bind (fun q => if q = rank then (entIdxs[e]?).map Int.ofNat else findCopy entRanks entIdxs rank rest)

/-- The loop of `form_new_conn` on one rank: src/Omega_h_migrate.cpp:80-98. -/
def connLocal (s : Sched) (fanE fanU entRanks entIdxs useRanks : List Nat) : Option (List Int) :=
  (parScatter s (fanE.length - 1) (fun a => (fanMembers fanE a).bind (fun es => (fanMembers fanU a).bind (fun us =>
    us.mapM (fun u => (useRanks[u]?).bind (fun rank => (findCopy entRanks entIdxs rank es).map (fun v => (u, v)))))))
    (Mem.alloc useRanks.length)).bind Mem.toArray?

/-- `form_new_conn`: src/Omega_h_migrate.cpp:67-101. The number of uses is the length of the array of their ranks. -/
def formNewConn (s : Nat → Nat → Sched) (newEnts2oldOwners oldOwners2newUses : List Dist) : Option (List (List Int)) :=
  (newEnts2oldOwners.mapM (fun d : Dist => d.nitems.map List.range)).bind (fun iotas =>
  (Dist.exch s newEnts2oldOwners 1 iotas).bind (fun entIdxs =>
  ((List.range newEnts2oldOwners.length).mapM (fun r =>
    (newEnts2oldOwners[r]?).bind (fun d => (oldOwners2newUses[r]?).bind (fun u => (entIdxs[r]?).bind (fun ix =>
    (d.invert.items2ranks (s r 4) (s r 5) (s r 6)).bind (fun entRanks =>
    (u.items2ranks (s r 7) (s r 8) (s r 9)).bind (fun useRanks =>
    (u.fwd.roots2items).bind (fun fanU => (d.rev.roots2items).bind (fun fanE =>
      connLocal (s r 10) fanE fanU entRanks ix useRanks))))))))).bind (fun uses2newIdxs =>
  Dist.exch (fun r k => s r (k + 11)) (oldOwners2newUses.map (fun d => ⟨{ d.fwd with roots2items := none }, d.rev⟩)) 1 uses2newIdxs)))

/-- What the ranks hold for one dimension of the mesh: the numbers of entities, their owners and global numbers, the entities of the
next lower dimension that they use (with codes unless these are vertices), and the tags with their numbers of components. The values
of tags are not looked at; they are numbers here. -/
structure MeshLevel where
  nents : List Nat
  owners : List Remotes
  globals : List (List Int)
  lows : List (List Nat)
  codes : Option (List (List Int))
  tags : List (Nat × List (List Int))
  deriving DecidableEq, Repr, Inhabited

/-- `form_down_use_owners`: src/Omega_h_migrate.cpp:15-19. -/
def downUseOwners (s : Nat → Nat → Sched) (high low : MeshLevel) : Option (List Remotes) :=
  (List.range high.lows.length).mapM (fun r => (high.lows[r]?).bind (fun l => (low.owners[r]?).bind (fun o =>
    unmapRemotes (s r 0) (s r 1) l o)))

/-- The result of `push_down`: connectivity and codes of the new entities, and the pattern from the old owners of the low entities to
their new copies. -/
structure Pushed where
  conn : List (List Int)
  codes : Option (List (List Int))
  lows : List Dist
  deriving DecidableEq, Repr, Inhabited

/-- The codes of the new entities: src/Omega_h_migrate.cpp:118-122. -/
def pushCodes (s : Nat → Nat → Sched) (deg : Nat) (oldOwners2newEnts : List Dist) :
    Option (List (List Int)) → Option (Option (List (List Int)))
  | some codes => (Dist.exch s oldOwners2newEnts deg codes).map some
  | none => some none

/-- `push_down`: src/Omega_h_migrate.cpp:103-123. -/
def pushDown (s : Nat → Nat → Sched) (deg : Nat) (high low : MeshLevel) (oldOwners2newEnts : List Dist) : Option Pushed :=
  (downUseOwners s high low).bind (fun oldUseOwners =>
  (exchRemotes (fun r k => s r (k + 2)) oldOwners2newEnts deg oldUseOwners).bind (fun newUseOwners =>
  (newDist (fun r k => s r (k + 10)) newUseOwners low.nents).bind (fun lowUses2oldOwners =>
  (newCopies2oldOwners (fun r k => s r (k + 20)) lowUses2oldOwners low.globals).bind (fun newLows2oldOwners =>
  (formNewConn (fun r k => s r (k + 40)) newLows2oldOwners (lowUses2oldOwners.map Dist.invert)).bind (fun conn =>
  (pushCodes (fun r k => s r (k + 60)) deg oldOwners2newEnts high.codes).map (fun codes =>
    ⟨conn, codes, newLows2oldOwners.map Dist.invert⟩))))))

/-- What the ranks hold for one dimension of the new mesh. -/
structure NewLevel where
  conn : List (List Int)
  codes : Option (List (List Int))
  tags : List (Nat × List (List Int))
  ownRanks : List (List Int)
  ownIdxs : List (List Int)
  deriving DecidableEq, Repr, Inhabited

/-- `push_tags`: src/Omega_h_migrate.cpp:125-151. The check of line 128 holds by the type of patterns here; the global numbers are one
of the tags. -/
def pushTags (s : Nat → Nat → Sched) (oldOwners2newEnts : List Dist) (tags : List (Nat × List (List Int))) :
    Option (List (Nat × List (List Int))) :=
  tags.mapM (fun (w, data) => (Dist.exch s oldOwners2newEnts w data).map (fun x => (w, x)))

/-- The suggested ranks: src/Omega_h_migrate.cpp:156-166. -/
def pushRanks (s : Nat → Nat → Sched) (keep : Bool) (oldOwners2newEnts : List Dist) (owners : List Remotes) :
    Option (Option (List (List Int))) :=
  if keep then
    (Dist.exch s oldOwners2newEnts 1 (owners.map (fun o => o.ranks.map Int.ofNat))).map some
  else some none

/-- `push_ents` with the connectivity that `set_ents` has stored: src/Omega_h_migrate.cpp:153-169. -/
def pushEnts (s : Nat → Nat → Sched) (keep : Bool) (level : MeshLevel) (conn : List (List Int)) (codes : Option (List (List Int)))
    (oldOwners2newEnts : List Dist) : Option NewLevel :=
  (pushTags s oldOwners2newEnts level.tags).bind (fun tags =>
  (pushRanks (fun r k => s r (k + 4)) keep oldOwners2newEnts level.owners).bind (fun ownRanks =>
  (updateOwnership (fun r k => s r (k + 8)) (oldOwners2newEnts.map Dist.invert) ownRanks).map (fun (ranks, idxs) =>
    ⟨conn, codes, tags, ranks, idxs⟩)))

/-- `Omega_h_Parting`. -/
inductive Parting where
  | elemBased | ghosted | vertBased
  deriving DecidableEq, Repr

/-- Whether the owners' ranks are kept: src/Omega_h_migrate.cpp:163-164. -/
def keepsRanks (mode : Parting) (d : Nat) : Bool := mode == .ghosted || (mode == .vertBased && d == 0)

/-- The loop of `migrate_mesh` from dimension `d` down, and the vertices: src/Omega_h_migrate.cpp:204-224. `s d` are the schedules used
at dimension `d`. Returns the levels `d, d-1, … 0`. -/
def migrateFrom (s : Nat → Nat → Nat → Sched) (mode : Parting) (deg : Nat → Nat) (mesh : Nat → MeshLevel) :
    Nat → List Dist → Option (List NewLevel)
  | 0, oldOwners2newEnts =>
    (pushEnts (s 0) (keepsRanks mode 0) (mesh 0) [] none oldOwners2newEnts).map (fun l => [l])
  | d + 1, oldOwners2newEnts =>
    (pushDown (s (d + 1)) (deg (d + 1)) (mesh (d + 1)) (mesh d) oldOwners2newEnts).bind (fun p =>
    (pushEnts (fun r k => s (d + 1) r (k + 100)) (keepsRanks mode (d + 1)) (mesh (d + 1)) p.conn p.codes oldOwners2newEnts).bind (fun l =>
    (migrateFrom s mode deg mesh d p.lows).map (fun rest => l :: rest)))

/-- `migrate_mesh`: src/Omega_h_migrate.cpp:193-229. -/
def migrateMesh (s : Nat → Nat → Nat → Sched) (mode : Parting) (deg : Nat → Nat) (mesh : Nat → MeshLevel) (dim : Nat)
    (newElems2oldOwners : List Dist) : Option (List NewLevel) :=
  migrateFrom s mode deg mesh dim (newElems2oldOwners.map Dist.invert)

end OmegaH
