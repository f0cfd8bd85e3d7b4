import Verif.Model.Sort

/-! # Graphs and inversion of maps: src/Omega_h_map.cpp:229-261, src/Omega_h_graph.hpp -/

namespace OmegaH

/-- `Graph`: offsets and targets. Models src/Omega_h_graph.hpp (`struct Graph`). -/
structure Graph where
  a2ab : List Nat
  ab2b : List Nat
  deriving DecidableEq, Repr

/-- Using an `LO` array as indices: a negative entry is undefined behaviour at its first use. -/
def toIndices? (l : List Int) : Option (List Nat) := l.mapM Int.toNat?

/-- `atomic_increment(&degrees[a2b[a]])` for the items in the order in which the atomics take effect.
Models src/Omega_h_map.cpp:243-247. -/
def atomicCounts (a2b : List Nat) : List Nat → List Nat → Option (List Nat)
  | [], degrees => some degrees
  | a :: rest, degrees =>
    match a2b[a]? with
    | none => none
    | some b =>
      match degrees[b]? with
      | none => none
      | some d => atomicCounts a2b rest (degrees.set b (d + 1))

/-- `j = atomic_fetch_add(&positions[b], 1)` for the items in the order in which the atomics take
effect; the result lists the pairs `(first + j, a)` to be stored in `write_ba2a`.
Models src/Omega_h_map.cpp:252-256. -/
def fetchAdds (a2b b2ba : List Nat) : List Nat → List Nat → Option (List (Nat × Nat))
  | [], _ => some []
  | a :: rest, positions =>
    match a2b[a]? with
    | none => none
    | some b =>
      match b2ba[b]?, positions[b]? with
      | some first, some j =>
        (fetchAdds a2b b2ba rest (positions.set b (j + 1))).map (fun ws => (first + j, a) :: ws)
      | _, _ => none

/-- `invert_map_by_atomics`: src/Omega_h_map.cpp:238-261. `s1` and `s2` order the atomic operations of
the two loops, `s3` the plain stores of the second loop: those touch a different array, so every real
interleaving is equivalent to performing the fetch-adds first. -/
def invertMapByAtomics (s1 s2 s3 : Sched) (a2b : List Nat) (nb : Nat) : Option Graph := do
  let degrees ← atomicCounts a2b (s1.order a2b.length) (List.replicate nb 0)
  let b2ba := offsetScan degrees
  let nba ← b2ba[nb]?
  let ws ← fetchAdds a2b b2ba (s2.order a2b.length) (List.replicate nb 0)
  let m ← (Mem.alloc nba : Mem Nat).writes (s3.permute ws)
  let ba2a ← m.toArray?
  pure ⟨b2ba, ba2a⟩

/-- `invert_map_by_sorting`: src/Omega_h_map.cpp:229-236. -/
def invertMapBySorting (s : Sched) (a2b : List Nat) (nb : Nat) : Option Graph := do
  let ba2ab ← sortByKeys (a2b.map Int.ofNat) 1
  let ba2b ← unmap s ba2ab a2b 1
  let b2ba ← invertFunnel s ba2b nb
  let b2ba ← toIndices? b2ba
  pure ⟨b2ba, ba2ab⟩

end OmegaH
