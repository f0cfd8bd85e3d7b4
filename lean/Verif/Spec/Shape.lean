import Verif.Model.Shape

/-! # What sizes and coordinates of a simplex are to be -/

namespace OmegaH.Spec
open OmegaH

variable {K : Type} [Field K] {n k : Nat}

/-- The simplex with one corner moved to `x`. -/
def moved (p : Fin (n + 1) → Vec K k) (v : Fin (n + 1)) (x : Vec K k) : Fin (n + 1) → Vec K k :=
  fun i => if i = v then x else p i

/-- Two corners exchanged. -/
def exchanged (p : Fin (n + 1) → Vec K k) (a b : Fin (n + 1)) : Fin (n + 1) → Vec K k :=
  fun i => if i = a then p b else if i = b then p a else p i

/-- The point with weight `w v` at each corner `v`. -/
def weighted (w : Vec K (n + 1)) (p : Fin (n + 1) → Vec K k) : Vec K k :=
  fun i => ∑ v, w v * p v i

/-- Weights that add up to one and give the point `x`. -/
def Weights (w : Vec K (n + 1)) (p : Fin (n + 1) → Vec K k) (x : Vec K k) : Prop :=
  ∑ v, w v = 1 ∧ weighted w p = x

/-- The point a fraction `t` of the way from `a` to `b`. -/
def between (a b : Vec K k) (t : K) : Vec K k := fun i => a i + t * (b i - a i)

end OmegaH.Spec
