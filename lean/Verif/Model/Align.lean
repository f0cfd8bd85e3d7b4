import Verif.Model.Map

/-! # Alignment codes: src/Omega_h_align.hpp, src/Omega_h_align.cpp

`I8` codes are integers; `code >> k` is the arithmetic shift (floor division). Shifting a negative
number to the left is undefined in the C++ standards the library supports (`none`). -/

namespace OmegaH

/-- src/Omega_h_align.hpp:41 -/
def codeIsFlipped (code : Int) : Bool := code % 2 == 1

/-- src/Omega_h_align.hpp:43 -/
def codeRotation (code : Int) : Int := code / 2 % 4

/-- src/Omega_h_align.hpp:45 -/
def codeWhichDown (code : Int) : Int := code / 8

/-- src/Omega_h_align.hpp:47-50 -/
def makeCode (isFlipped : Bool) (rotation whichDown : Int) : Option Int :=
  if 0 ≤ rotation ∧ 0 ≤ whichDown then
    some (wrapSigned 8
      (((whichDown.toNat <<< 3) ||| (rotation.toNat <<< 1) ||| (if isFlipped then 1 else 0) : Nat) : Int))
  else none

/-- src/Omega_h_align.hpp:52-55 (`%` truncates; no caller passes `nverts_per_ent = 0`). -/
def rotateIndex (n index rotation : Int) : Int := (index + rotation).tmod n

/-- src/Omega_h_align.hpp:59-61 -/
def invertRotation (n rotation : Int) : Int := (n - rotation).tmod n

/-- src/Omega_h_align.hpp:66 -/
def reverseIndex (n i : Int) : Int := n - 1 - i

/-- src/Omega_h_align.hpp:68-70 -/
def flipVertIndex (n i : Int) : Int := if i = 0 then 0 else 1 + reverseIndex (n - 1) (i - 1)

/-- src/Omega_h_align.hpp:72-74 -/
def flipEdgeIndex (n i : Int) : Int := reverseIndex n i

/-- src/Omega_h_align.hpp:76-82 -/
def alignVertIndex (n index code : Int) : Int :=
  if codeIsFlipped code then flipVertIndex n (rotateIndex n index (codeRotation code))
  else rotateIndex n index (codeRotation code)

/-- src/Omega_h_align.hpp:84-90 -/
def alignEdgeIndex (n index code : Int) : Int :=
  if codeIsFlipped code then flipEdgeIndex n (rotateIndex n index (codeRotation code))
  else rotateIndex n index (codeRotation code)

/-- src/Omega_h_align.hpp:92-96 -/
def alignIndex (n indexDim index code : Int) : Int :=
  if indexDim = 0 then alignVertIndex n index code else alignEdgeIndex n index code

/-- src/Omega_h_align.hpp:98-101 -/
def rotationToFirst (n newFirst : Int) : Int := invertRotation n newFirst

/-- src/Omega_h_align.hpp:103-109 -/
def invertAlignment (n code : Int) : Option Int :=
  if codeIsFlipped code then some code
  else makeCode false (invertRotation n (codeRotation code)) 0

/-- src/Omega_h_align.hpp:114-126 -/
def compoundAlignmentsT (n code1 code2 : Int) : Option Int :=
  let oldFirst := alignVertIndex n (alignVertIndex n 0 code1) code2
  let rotation := rotationToFirst n oldFirst
  let isFlipped := codeIsFlipped code1 != codeIsFlipped code2
  (makeCode isFlipped rotation 0).bind (invertAlignment n)

/-- src/Omega_h_align.hpp:128-132: degrees other than 2 and 3 abort. -/
def compoundAlignments (deg code1 code2 : Int) : Option Int :=
  if deg = 3 then compoundAlignmentsT 3 code1 code2
  else if deg = 2 then compoundAlignmentsT 2 code1 code2
  else none

/-- `rotate_adj` on one row: src/Omega_h_align.hpp:134-141. -/
def rotateAdj {α : Type} (n : Nat) (rotation : Int) (row : List α) : Option (Mem α) := do
  let ws ← (List.range n).mapM (fun (j : Nat) =>
    (row[j]?).map (fun v => ((rotateIndex n j rotation).toNat, v)))
  (Mem.alloc n : Mem α).writes ws

/-- `swap2(adj[i], adj[j])`: src/Omega_h_scalar.hpp. -/
def swapCells {α : Type} (m : Mem α) (i j : Nat) : Option (Mem α) :=
  match m[i]?, m[j]? with
  | some x, some y => some ((m.set i y).set j x)
  | _, _ => none

/-- `flip_adj`: src/Omega_h_align.hpp:143-171. -/
def flipAdj {α : Type} (deg : Nat) (m : Mem α) : Option (Mem α) :=
  if deg = 4 then swapCells m 1 3
  else if deg = 3 then swapCells m 1 2
  else if deg = 2 then some m
  else none

/-- `align_adj` on one row: src/Omega_h_align.hpp:173-179. -/
def alignAdj {α : Type} (n : Nat) (code : Int) (row : List α) : Option (List α) := do
  let m ← rotateAdj n (codeRotation code) row
  let m' ← if codeIsFlipped code then flipAdj n m else some m
  m'.toArray?

/-- `align_ev2v`: src/Omega_h_align.cpp:7-25. Every iteration works on its own row of the result, so
its intermediate stores are invisible to the others and only the final row is stored here. -/
def alignEv2v {α : Type} (s : Sched) (deg : Nat) (ev2v : List α) (codes : List Int) :
    Option (List α) :=
  if deg = 2 ∨ deg = 3 ∨ deg = 4 then
    if ev2v.length = codes.length * deg then
      (parScatter s codes.length
        (fun e => (codes[e]?).bind (fun code =>
          (alignAdj deg code ((ev2v.drop (e * deg)).take deg)).map (fun row =>
            row.mapIdx (fun j v => (e * deg + j, v)))))
        (Mem.alloc ev2v.length)).bind Mem.toArray?
    else none
  else none

end OmegaH
