import Verif.Model.Map

/-! # Linear partitions: src/Omega_h_linpart.cpp, src/Omega_h_build.cpp:289-301

C++ `/` and `%` truncate towards zero (`Int.tdiv`, `Int.tmod`); division by zero is undefined (`none`).
`GO` arithmetic is unbounded here; the narrowing casts to 32 bits wrap (`wrapSigned 32`). -/

namespace OmegaH

/-- C++ integer division and remainder. -/
def cdiv (a b : Int) : Option Int := if b = 0 then none else some (a.tdiv b)
def cmod (a b : Int) : Option Int := if b = 0 then none else some (a.tmod b)

/-- Body of the loop in `globals_to_linear_owners`: src/Omega_h_linpart.cpp:15-24. -/
def linearOwner (quot rem split g : Int) : Option (Int × Int) :=
  if g < split then do
    let r ← cdiv g (quot + 1)
    let i ← cmod g (quot + 1)
    pure (wrapSigned 32 r, wrapSigned 32 i)
  else do
    let g' := g - split
    let r ← cdiv g' quot
    let i ← cmod g' quot
    pure (wrapSigned 32 (r + rem), wrapSigned 32 i)

/-- `globals_to_linear_owners`: src/Omega_h_linpart.cpp:8-27. The remotes are returned as pairs. -/
def globalsToLinearOwners (s : Sched) (globals : List Int) (total commSize : Int) :
    Option (List (Int × Int)) := do
  let quot ← cdiv total commSize
  let rem ← cmod total commSize
  let split := (quot + 1) * rem
  let m ← parScatter s globals.length
    (fun i => (globals[i]?).bind (fun g => (linearOwner quot rem split g).map (fun o => [(i, o)])))
    (Mem.alloc globals.length)
  m.toArray?

/-- `linear_partition_size`: src/Omega_h_linpart.cpp:29-37. -/
def linearPartitionSize (total commSize commRank : Int) : Option Int := do
  let quot ← cdiv total commSize
  let rem ← cmod total commSize
  if commRank < wrapSigned 32 rem then pure (wrapSigned 32 (quot + 1)) else pure (wrapSigned 32 quot)

/-- `get_max(comm, globals)` with the identity `lowest` of the maximum reduction:
src/Omega_h_array_ops.cpp:47-58, 72-76. One list per rank. -/
def commMax (lowest : Int) (globals : List (List Int)) : Int :=
  (globals.map (fun l => l.foldl max lowest)).foldl max lowest

/-- `find_total_globals`: src/Omega_h_linpart.cpp:47-51. -/
def findTotalGlobals (globals : List (List Int)) : Int :=
  let a := commMax (-2 ^ 63) globals
  if a < 0 then 0 else a + 1

/-- `suggest_slices`: src/Omega_h_build.cpp:289-301. -/
def suggestSlices (total commSize commRank : Int) : Option (Int × Int) := do
  let quot ← cdiv total commSize
  let rem ← cmod total commSize
  if commRank < rem then
    let b := quot * commRank + commRank
    pure (b, b + quot + 1)
  else
    let b := quot * commRank + rem
    pure (b, b + quot)

end OmegaH
