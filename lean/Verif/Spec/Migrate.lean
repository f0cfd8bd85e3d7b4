import Verif.Spec.Owners
import Mathlib.Data.List.Forall2

/-! # Specification of migration

An entity of the old mesh is named by a rank and an index on that rank. -/

namespace OmegaH.Spec

/-- What the ranks hold for one dimension of a mesh. `lows r` lists, `deg` for every entity, the entities of the next lower
dimension; a tag is its number of components and its values. -/
structure OldLevel where
  nents : Nat → Nat
  ownRanks : Nat → List Nat
  ownIdxs : Nat → List Nat
  globals : Nat → List Int
  lows : Nat → List Nat
  codes : Option (Nat → List Int)
  tags : List (Nat × (Nat → List Int))

/-- The owner of an entity. -/
def OldLevel.owner (o : OldLevel) (e : Nat × Nat) : Option (Nat × Nat) :=
  ((o.ownRanks e.1)[e.2]?).bind (fun p => ((o.ownIdxs e.1)[e.2]?).map (fun x => (p, x)))

/-- The global number of an entity. -/
def OldLevel.global (o : OldLevel) (e : Nat × Nat) : Option Int := (o.globals e.1)[e.2]?

/-- The owner of the `j`-th lower entity of `f`. -/
def lowOwner (high low : OldLevel) (deg : Nat) (f : Nat × Nat) (j : Nat) : Option (Nat × Nat) :=
  (entry (high.lows f.1) deg f.2 j).bind (fun l => low.owner (f.1, l))

/-- Sizes fit, and owners exist. -/
structure OldLevel.Ok (n : Nat) (o : OldLevel) : Prop where
  ranksLen : ∀ r, r < n → (o.ownRanks r).length = o.nents r
  idxsLen : ∀ r, r < n → (o.ownIdxs r).length = o.nents r
  ownerOk : ∀ r i p x, r < n → o.owner (r, i) = some (p, x) → p < n ∧ x < o.nents p
  globalsLen : ∀ r, r < n → (o.globals r).length = o.nents r
  tagsOk : ∀ t ∈ o.tags, 0 < t.1 ∧ ∀ r, r < n → (t.2 r).length = o.nents r * t.1

/-- The lower entities exist. -/
structure LowsOk (n deg : Nat) (high low : OldLevel) : Prop where
  pos : 0 < deg
  len : ∀ r, r < n → (high.lows r).length = high.nents r * deg
  idx : ∀ r, r < n → ∀ l ∈ high.lows r, l < low.nents r
  codesLen : ∀ c, high.codes = some c → ∀ r, r < n → (c r).length = high.nents r * deg

/-- What the ranks hold for one dimension of the new mesh. -/
structure NewData where
  conn : Option (Nat → List Int)
  codes : Option (Nat → List Int)
  tags : List (Nat × (Nat → List Int))
  ownRanks : Nat → List Int
  ownIdxs : Nat → List Int

/-- `new` holds, for every entity in `copies`, the row that its rank has for it in `old`. -/
def Carried {α : Type} (n w : Nat) (copies : Nat → List (Nat × Nat)) (old new : Nat → List α) : Prop :=
  ∀ r, r < n → (new r).length = (copies r).length * w ∧
    ∀ (i p x : Nat), (copies r)[i]? = some (p, x) → ∀ j, j < w → entry (new r) w i j = entry (old p) w x j

/-- `low` are exactly the entities that are used by `high`, each once, by global number. -/
structure UsedOnce (n deg : Nat) (A B : OldLevel) (high low : Nat → List (Nat × Nat)) : Prop where
  once : ∀ r, r < n → (low r).Nodup
  used : ∀ r e, r < n → (e ∈ low r ↔ ∃ f ∈ high r, ∃ j, j < deg ∧ lowOwner A B deg f j = some e)
  sorted : ∀ r, r < n → (low r).Pairwise (fun e e' => ∀ a b, B.global e = some a → B.global e' = some b → a ≤ b)

/-- The lower entities of a new entity are the copies of those of the old one, in the same order. -/
def ConnOk (n deg : Nat) (A B : OldLevel) (high low : Nat → List (Nat × Nat)) (conn : Nat → List Int) : Prop :=
  ∀ r, r < n → (conn r).length = (high r).length * deg ∧
    ∀ (i : Nat) f, (high r)[i]? = some f → ∀ j, j < deg → ∃ (k : Nat) (e : Nat × Nat), entry (conn r) deg i j = some (k : Int) ∧
      (low r)[k]? = some e ∧ lowOwner A B deg f j = some e

/-- The copies keep the owner's rank; if that rank has a copy, its copy is the owner. -/
def OwnersKept (n : Nat) (A : OldLevel) (copies : Nat → List (Nat × Nat)) (ranks idxs : Nat → List Int) : Prop :=
  ∀ (r i : Nat) (e : Nat × Nat) (q : Nat), r < n → (copies r)[i]? = some e → (A.ownRanks e.1)[e.2]? = some q →
    (ranks r)[i]? = some (q : Int) ∧
    (e ∈ copies q → ∃ k : Nat, (copies q)[k]? = some e ∧
      ∀ r' i' : Nat, r' < n → (copies r')[i']? = some e → (idxs r')[i']? = some (k : Int)) ∧
    (e ∉ copies q → (idxs r)[i]? = some (-1))

end OmegaH.Spec
