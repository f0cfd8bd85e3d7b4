/-!
# Oriented simplices and their boundaries

A collection of oriented simplices, each given by its vertices in order, is characterised by what it
adds up to under every alternating function of the vertices: exchanging two neighbouring vertices of
a simplex reverses it. Two collections with the same sums for all such functions are the same formal
sum of oriented simplices.
-/
namespace OmegaH.Spec

/-- Exchanging two neighbouring vertices changes the sign. -/
def Alternating (φ : List Nat → Int) : Prop :=
  ∀ l a b r, φ (l ++ a :: b :: r) = - φ (l ++ b :: a :: r)

/-- The boundary of an oriented simplex: its sides with alternating signs. -/
def boundary (φ : List Nat → Int) (σ : List Nat) : Int :=
  ((List.range σ.length).map (fun i => (-1) ^ i * φ (σ.eraseIdx i))).sum

/-- The same formal sum of oriented simplices. -/
def SameChain (A B : List (List Nat)) : Prop :=
  ∀ φ, Alternating φ → (A.map φ).sum = (B.map φ).sum

/-- The same oriented boundary. -/
def SameBoundary (A B : List (List Nat)) : Prop :=
  ∀ φ, Alternating φ → (A.map (boundary φ)).sum = (B.map (boundary φ)).sum

/-- The edges of the closed loop through the listed vertices. -/
def cycleEdges (l : List Nat) : List (Nat × Nat) :=
  match l with
  | [] => []
  | a :: r => (a :: r).zip (r ++ [a])

/-- `σ` with `m` in the place of `a`. -/
def substVert (a m : Nat) (σ : List Nat) : List Nat := σ.map (fun v => if v = a then m else v)

/-- Splitting the edge between `a` and `b` at the new vertex `m`: a simplex that has the edge becomes
two, in which `m` replaces `a` or `b`; others stay. -/
def subdivide (a b m : Nat) (σ : List Nat) : List (List Nat) :=
  if a ∈ σ ∧ b ∈ σ then [substVert a m σ, substVert b m σ] else [σ]

/-- The boundary of the collection `A` is the boundary of `σ` with the edge `a b` of its sides
split at `m`. -/
def SubdividedBoundary (a b m : Nat) (A : List (List Nat)) (σ : List Nat) : Prop :=
  ∀ φ, Alternating φ →
    (A.map (boundary φ)).sum = boundary (fun τ => ((subdivide a b m τ).map φ).sum) σ

end OmegaH.Spec
