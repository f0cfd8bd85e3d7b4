import Verif.Spec.Map

/-! # Specification of communication patterns (independent of the model) -/

namespace OmegaH.Spec

/-- What the ranks `0 … n-1` hold, as a list. -/
def world {α : Type} (n : Nat) (f : Nat → α) : List α := (List.range n).map f

/-- The items with destination rank `p`, as pairs of source rank and item, in increasing order. `dest r` lists the
destination ranks of the items of rank `r`. -/
def arrivals (n : Nat) (dest : Nat → List Nat) (p : Nat) : List (Nat × Nat) :=
  (List.range n).flatMap (fun r =>
    ((List.range (dest r).length).filter (fun i => (dest r)[i]? == some p)).map (fun i => (r, i)))

/-- The items with destination rank `p` and destination index `x`. -/
def addressed (n : Nat) (dest idxs : Nat → List Nat) (p x : Nat) : List (Nat × Nat) :=
  (arrivals n dest p).filter (fun a => (idxs a.1)[a.2]? == some x)

/-- Entry `j` of the rows that a list of (rank, item) pairs names, in that order. -/
def rowsOf {α : Type} (data : Nat → List α) (w j : Nat) (items : List (Nat × Nat)) : List α :=
  items.filterMap (fun a => entry (data a.1) w a.2 j)

/-- Row `k` of `out` is the row of the data of the item `order[k]`. -/
def Delivers {α : Type} (data : Nat → List α) (w : Nat) (order : List (Nat × Nat)) (out : List α) : Prop :=
  out.length = order.length * w ∧
  ∀ k r i : Nat, order[k]? = some (r, i) → ∀ j, j < w → entry out w k j = entry (data r) w i j

end OmegaH.Spec
