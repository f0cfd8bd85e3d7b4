import Verif.Spec.Map

/-! # Specification of upward adjacencies -/

namespace OmegaH.Spec

/-- The cells `lo … hi-1` of an array. -/
def segment {α : Type} (a : List α) (lo hi : Nat) : List α := (a.take hi).drop lo

/-- One use of a low entity: by which high entity, at which local position, with which relative
orientation. -/
structure Use where
  high : Nat
  which : Int
  flipped : Bool
  rotation : Int
  deriving DecidableEq, Repr

/-- All uses of the low entity `l` by the high entities, in the order of the downward table
`hl2l`, whose rows have `n` entries; `orient hl` is the orientation recorded at entry `hl`. -/
def usesOf (hl2l : List Nat) (orient : Nat → Bool × Int) (n l : Nat) : List Use :=
  ((List.range hl2l.length).filter (fun hl => hl2l[hl]? = some l)).map
    (fun hl => ⟨hl / n, (hl % n : Nat), (orient hl).1, (orient hl).2⟩)

/-- No high entity uses the same low entity at two local positions. -/
def NoRepeats (hl2l : List Nat) (n : Nat) : Prop :=
  ∀ p q l : Nat, hl2l[p]? = some l → hl2l[q]? = some l → p / n = q / n → p = q

end OmegaH.Spec
