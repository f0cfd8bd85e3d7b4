import Verif.Model.Shape

/-! # Distances between boundaries that are close to each other

Squares of distances in place of distances, so that no square root is needed; `none` is -1, and
whatever is divided by zero is not a number and fails the comparison that follows.
src/Omega_h_confined.cpp -/

namespace OmegaH

section
variable {K : Type} [Field K] [LinearOrder K] {k : Nat}

/-- `find_bridge_edges`, one edge. src/Omega_h_confined.cpp:25-30 -/
def isBridge (edim vdim0 vdim1 : Int) : Bool := edim != vdim0 && edim != vdim1

/-- One corner in `get_tri_pad_dists`: the corner and the ends of the side opposite to it.
src/Omega_h_confined.cpp:64-75 -/
def triCornerPad (o a b : Vec K (k + 1)) : Option K :=
  let oa := vsub a o
  let ab := vsub b a
  let nabsq := vdot ab ab
  if nabsq = 0 then none
  else
    let proj := vscale ab (vdot ab oa / nabsq)
    let d := vsub oa proj
    let lambda := (vdot ab d - vdot ab oa) / nabsq
    if 0 ≤ lambda ∧ lambda ≤ 1 then some (vdot d d) else none

/-- `get_tri_pad_dists`, one triangle: the corners one after the other, each overwriting what was
there. src/Omega_h_confined.cpp:57-77 -/
def triPad (x : Fin 3 → Vec K (k + 1)) (bridge : Fin 3 → Bool) : Option K :=
  [(0 : Fin 3), 1, 2].foldl (fun (out : Option K) (ttv : Fin 3) =>
    if bridge ttv && bridge (ttv + 2) then
      match triCornerPad (x ttv) (x (ttv + 1)) (x (ttv + 2)) with
      | some h => some h
      | none => out
    else out) none

/-- One corner in `get_tet_pad_dists`: the corner and the three corners of the side opposite to it.
The normal is not made a unit vector; the vector from the corner to the plane is the same.
src/Omega_h_confined.cpp:133-154 -/
def tetCornerPad (o a b c : Vec K 3) : Option K :=
  let ab := vsub b a
  let ac := vsub c a
  let n := cross3 ab ac
  if vdot n n = 0 then none
  else
    let oa := vsub a o
    let od := vscale n (vdot n oa / vdot n n)
    let xi := baryFromGlobal (pinvTall invert2) od ![a, b, c]
    if isBaryInside xi then some (vdot od od) else none

/-- The least of what the corners give, as in the loop over the corners whose three edges are all
bridges. src/Omega_h_confined.cpp:120-157 -/
def leastPad (pads : List (Option K)) : Option K :=
  pads.foldl (fun h p =>
    match p with
    | none => h
    | some p => match h with
      | none => some p
      | some h => some (min h p)) none
end
end OmegaH
