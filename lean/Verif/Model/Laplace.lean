import Mathlib.Algebra.Field.Defs
import Mathlib.Algebra.BigOperators.Group.List.Basic

/-! # Averaging over neighbours until nothing changes

One process and one component; a value that is not a number is `none`. src/Omega_h_laplace.cpp -/

namespace OmegaH

section
variable {K : Type} [Field K] {n : Nat}

/-- `graph_weighted_average` at one vertex with weights one: zero divided by zero if there are no
neighbours. src/Omega_h_graph.cpp:69-87 -/
def starAverage (state : Fin n → Option K) (nbrs : List (Fin n)) : Option K :=
  (nbrs.mapM state).bind fun xs =>
    if nbrs.length = 0 then none
    else some ((xs.foldl (fun s x => s + x * 1) 0) / (nbrs.foldl (fun s _ => s + 1) 0))

/-- One round of `solve_laplacian`: averages everywhere, then the values given on the boundary.
src/Omega_h_laplace.cpp:28-31 -/
def laplaceRound (star : Fin n → List (Fin n)) (interior : Fin n → Bool) (initial : Fin n → K)
    (state : Fin n → Option K) (v : Fin n) : Option K :=
  if interior v then starAverage state (star v) else some (initial v)

/-- `are_close` of two arrays; `close` compares two numbers, and nothing is close to what is not a
number. src/Omega_h_laplace.cpp:33 -/
def statesClose (close : K → K → Bool) (a b : Fin n → Option K) : Bool :=
  (List.finRange n).all fun v =>
    match a v, b v with
    | some x, some y => close x y
    | _, _ => false

/-- The loop, for at most so many rounds; `none` if it has not ended by then.
src/Omega_h_laplace.cpp:27-37 -/
def laplaceLoop (close : K → K → Bool) (star : Fin n → List (Fin n)) (interior : Fin n → Bool)
    (initial : Fin n → K) : Nat → (Fin n → Option K) → Option (Fin n → Option K)
  | 0, _ => none
  | rounds + 1, state =>
    let next := laplaceRound star interior initial state
    if statesClose close state next then some next
    else laplaceLoop close star interior initial rounds next

/-- `solve_laplacian`. src/Omega_h_laplace.cpp:13-42 -/
def solveLaplacian (close : K → K → Bool) (star : Fin n → List (Fin n)) (interior : Fin n → Bool)
    (initial : Fin n → K) (rounds : Nat) : Option (Fin n → Option K) :=
  laplaceLoop close star interior initial rounds fun v => some (initial v)
end
end OmegaH
