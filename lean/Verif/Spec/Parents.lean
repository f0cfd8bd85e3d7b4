import Verif.Spec.Graph
import Verif.Spec.UnmapMesh

/-! # Specification of parents and children -/

namespace OmegaH.Spec

/-- The dimension of the parent is in the two lowest bits of the code. -/
def ParentDim (code : Int) (d : Nat) : Prop := code % 4 = d

/-- Entity `c` is a child of the entity `p` of dimension `d`. -/
def IsChild (parentIdx codes : List Int) (d p c : Nat) : Prop :=
  (∃ code, codes[c]? = some code ∧ ParentDim code d) ∧ parentIdx[c]? = some (p : Int)

/-- Every entity that claims a parent of dimension `d` names one of the `nparents` entities of that dimension. -/
def ParentsExist (parentIdx codes : List Int) (d nparents : Nat) : Prop :=
  ∀ (c : Nat) code, codes[c]? = some code → ParentDim code d → ∃ p : Nat, p < nparents ∧ parentIdx[c]? = some (p : Int)

/-- Offsets, entities and codes list the children of every entity of dimension `d`, each once and in ascending order, with their codes. -/
structure IsChildren (parentIdx codes : List Int) (d nparents : Nat) (offsets vals : List Nat) (ccodes : List Int) : Prop where
  len : offsets.length = nparents + 1
  fan : IsFan offsets
  last : offsets.getLast? = some vals.length
  codesLen : ccodes.length = vals.length
  child : ∀ p c, (∃ k : Nat, InFan offsets p k ∧ vals[k]? = some c) ↔ p < nparents ∧ IsChild parentIdx codes d p c
  code : ∀ k c : Nat, vals[k]? = some c → ccodes[k]? = codes[c]?
  ascend : FansAscend offsets vals

/-- The parent of a kept entity is the new copy of the old parent; the code is kept if the parent was kept. An entity that had no parent, or
whose parent was not kept, has index -1 and code 0. -/
structure ParentsKept (kept : List Nat) (keptOf : Nat → List Nat) (parentIdx codes : List Int) (new : List (Int × Int)) : Prop where
  len : new.length = kept.length
  root : ∀ i e : Nat, kept[i]? = some e → ∀ x, parentIdx[e]? = some x → x < 0 → new[i]? = some (-1, 0)
  orphan : ∀ i e p d : Nat, ∀ code, kept[i]? = some e → parentIdx[e]? = some (p : Int) → codes[e]? = some code → ParentDim code d →
    p ∉ keptOf d → new[i]? = some (-1, 0)
  keep : ∀ i e p d k : Nat, ∀ code, kept[i]? = some e → parentIdx[e]? = some (p : Int) → codes[e]? = some code → ParentDim code d →
    (keptOf d)[k]? = some p → new[i]? = some ((k : Int), code)

end OmegaH.Spec
