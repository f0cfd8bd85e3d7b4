import Verif.Model.Collapse
import Verif.Model.Graph
/-!
# Deriving classification: src/Omega_h_class.cpp

The tags `class_dim` and `class_id` of the entities of one dimension are arrays of the same length that are read and
written at the same indices; where both exist they are modelled as one array of pairs (dimension, number).
-/
namespace OmegaH

/-- `best_dim`, `best_id`, `nadj`. -/
structure ProjState where
  dim : Int
  id : Int
  nadj : Int
  deriving DecidableEq, Repr

/-- The body of the loop over the entities around one: src/Omega_h_class.cpp:113-135. -/
def projStep (relaxed : Bool) (st : ProjState) (h : Int × Int) : ProjState :=
  if h.1 < st.dim then ⟨h.1, h.2, 1⟩
  else if h.1 = st.dim then
    if h.2 ≠ st.id ∧ (relaxed = false ∨ h.2 ≠ -1) then
      if st.id = -1 then ⟨st.dim, h.2, st.nadj + 1⟩ else ⟨st.dim - 1, -1, 0⟩
    else ⟨st.dim, st.id, st.nadj + 1⟩
  else st

/-- The end of the kernel: src/Omega_h_class.cpp:136-142. -/
def projEnd (entDim : Nat) (st : ProjState) : Int × Int :=
  if (st.nadj ≠ 2 ∧ st.dim = entDim + 1) ∨ (st.nadj < 2 ∧ st.dim > entDim + 1) then (wrapSigned 8 entDim, -1)
  else (wrapSigned 8 st.dim, st.id)

/-- The kernel of `project_classification` at entity `l`: src/Omega_h_class.cpp:109-143. -/
def projectOne (entDim : Nat) (relaxed : Bool) (up : Graph) (high : List (Int × Int)) (c : Int × Int) (l : Nat) :
    Option (Int × Int) :=
  (up.a2ab[l]?).bind (fun lo => (up.a2ab[l + 1]?).bind (fun hi =>
    ((List.range' lo (hi - lo)).foldlM (fun st lh => (up.ab2b[lh]?).bind (fun h => (high[h]?).map (projStep relaxed st)))
      (⟨c.1, c.2, 0⟩ : ProjState)).map (projEnd entDim)))

/-- `project_classification`, changing the arrays in place: src/Omega_h_class.cpp:102-145. An entity reads and writes its own
entries only, so the values read are those before the loop. -/
def projectClassification (s : Sched) (entDim nents : Nat) (relaxed : Bool) (up : Graph) (high low : List (Int × Int)) :
    Option (List (Int × Int)) :=
  (parScatter s nents (fun l => (low[l]?).bind (fun c => (projectOne entDim relaxed up high c l).map (fun x => [(l, x)])))
    (Mem.ofList low)).bind Mem.toArray?

/-- What one rank holds: numbers of entities, entities of one dimension more around the entities, and the tags. -/
structure ClassRank where
  nents : Nat → Nat
  up : Nat → Graph
  classDim : Nat → Option (List Int)
  classId : Nat → Option (List Int)

/-- `copy_and_remove_or_default`: src/Omega_h_class.cpp:90-100. -/
def tagOrDefault (tag : Option (List Int)) (n : Nat) (def_val : Int) : List Int :=
  match tag with
  | some a => a
  | none => List.replicate n def_val

/-- Both tags at the start of a round: src/Omega_h_class.cpp:161-164. -/
def classStart (dim : Nat) (m : ClassRank) (d : Nat) : Option (List (Int × Int)) :=
  let dims := tagOrDefault (m.classDim d) (m.nents d) (wrapSigned 8 dim)
  let ids := tagOrDefault (m.classId d) (m.nents d) (-1)
  if dims.length = ids.length then some (dims.zip ids) else none

/-- One round of the loop in `finalize_classification`, below the dimension of the mesh: src/Omega_h_class.cpp:161-171. -/
def finalizeBelow (s : Nat → Nat → Nat → Sched) (dim : Nat) (owners : Nat → Option (List Remotes)) (ranks : List ClassRank) (d : Nat)
    (above : List (List (Int × Int))) : Option (List (List (Int × Int))) := do
  let start ← onRanks ranks (fun _ m => classStart dim m d)
  let new ← onRanks ranks (fun r m => (start[r]?).bind (fun low => (above[r]?).bind (fun high =>
    projectClassification (s d r 0) d (m.nents d) false (m.up d) high low)))
  syncValues (fun r k => s d r (k + 1)) (owners d) 1 new

/-- The rounds for the dimensions `dim`, `dim - 1`, …, `dim - k`, the last one first. -/
def finalizeRounds (s : Nat → Nat → Nat → Sched) (dim : Nat) (owners : Nat → Option (List Remotes)) (ranks : List ClassRank) :
    Nat → Option (List (List (List (Int × Int))))
  | 0 => (onRanks ranks (fun _ m => classStart dim m dim)).bind (fun start =>
      (syncValues (fun r k => s dim r (k + 1)) (owners dim) 1 start).map (fun x => [x]))
  | k + 1 => (finalizeRounds s dim owners ranks k).bind (fun done => (done[0]?).bind (fun above =>
      (finalizeBelow s dim owners ranks (dim - (k + 1)) above).map (fun x => x :: done)))

/-- `has_any_ids`: src/Omega_h_class.cpp:76-81. -/
def hasAnyIds (dim : Nat) (m : ClassRank) : Bool := (List.range (dim + 1)).any (fun d => (m.classId d).isSome)

/-- The tags of one rank afterwards: src/Omega_h_class.cpp:170-173. `remove_all_ids`: src/Omega_h_class.cpp:83-87. -/
def classTags (dim : Nat) (m : ClassRank) (classes : List (List (Int × Int))) : List (List Int × Option (List Int)) :=
  classes.map (fun a => (a.map Prod.fst, if hasAnyIds dim m then some (a.map Prod.snd) else none))

/-- `finalize_classification`: src/Omega_h_class.cpp:157-174. `allUpward` is `have_all_upward` (src/Omega_h_mesh.cpp:713-720): in
the first round the check on `owners_have_all_upward` needs it unless the mesh has dimension 0. The result gives for every rank
the tags by dimension. -/
def finalizeClassification (s : Nat → Nat → Nat → Sched) (allUpward : Bool) (dim : Nat) (owners : Nat → Option (List Remotes))
    (ranks : List ClassRank) : Option (List (List (List Int × Option (List Int)))) :=
  if allUpward then
    (finalizeRounds s dim owners ranks dim).bind (fun classes => onRanks ranks (fun r m =>
      (classes.mapM (fun a => a[r]?)).map (classTags dim m)))
  else none

end OmegaH
