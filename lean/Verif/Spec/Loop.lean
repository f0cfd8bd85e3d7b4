import Verif.Spec.Chain
import Verif.Spec.Map
import Mathlib.Data.List.Forall2
/-!
# Tets around an edge
-/
namespace OmegaH.Spec

/-- Number of pairs listed out of order. -/
def inversions : List Nat → Nat
  | [] => 0
  | a :: l => l.countP (· < a) + inversions l

/-- The same four vertices, listed in an order with the same orientation. -/
def SameTet (row tet : List Nat) : Prop :=
  ∃ o : List Nat, o.Perm [0, 1, 2, 3] ∧ inversions o % 2 = 0 ∧ tet.length = 4 ∧
    row.length = 4 ∧ ∀ i j : Nat, o[i]? = some j → row[i]? = tet[j]?

/-- The tets `rows`, in any order and each listed in any order of its vertices with positive
orientation, are those of the closed fan around the edge from `p` to `q` whose outer vertices are `l`
in the direction of the curl. -/
def Surrounds (p q : Nat) (l : List Nat) (rows : List (List Nat)) : Prop :=
  (p :: q :: l).Nodup ∧ 3 ≤ l.length ∧ ∃ es : List (Nat × Nat), es.Perm (cycleEdges l) ∧
    List.Forall₂ (fun row e => SameTet row [p, q, e.1, e.2]) rows es

/-- All vertices of `t` are vertices of `q`. -/
def HasAll (t q : List Nat) : Prop := ∀ v ∈ t, v ∈ q

instance (t q : List Nat) : Decidable (HasAll t q) := by unfold HasAll; infer_instance

/-- Every listed triangle lies between two of the tets `Q`, and none is listed twice. -/
def TrisListed (T Q : List (List Nat)) : Prop :=
  (∀ t ∈ T, t.length = 3 ∧ t.Nodup ∧ Q.countP (fun q => decide (HasAll t q)) = 2) ∧
  T.Pairwise (fun t t' => ¬ HasAll t t')

/-- Every face of a tet of `Q` is a listed triangle, or else belongs to just one tet of `Q` and just one
of the old tets. -/
def FacesAccounted (old T Q : List (List Nat)) : Prop :=
  ∀ q ∈ Q, q.length = 4 ∧ q.Nodup ∧ ∀ i ∈ List.range 4, (∃ t ∈ T, HasAll (q.eraseIdx i) t) ∨
    (Q.countP (fun r => decide (HasAll (q.eraseIdx i) r)) = 1 ∧
     old.countP (fun r => decide (HasAll (q.eraseIdx i) r)) = 1)

/-- The listed edges are, each once, the edges of `Q` that no old tet has. -/
def EdgesListed (old E Q : List (List Nat)) : Prop :=
  (∀ e ∈ E, e.length = 2 ∧ e.Nodup ∧ (∃ q ∈ Q, HasAll e q) ∧ ∀ r ∈ old, ¬ HasAll e r) ∧
  E.Pairwise (fun e e' => ¬ HasAll e e') ∧
  ∀ q ∈ Q, ∀ a ∈ q, ∀ b ∈ q, a = b ∨ (∃ e ∈ E, HasAll [a, b] e) ∨ ∃ r ∈ old, HasAll [a, b] r

instance (T Q : List (List Nat)) : Decidable (TrisListed T Q) := by unfold TrisListed; infer_instance
instance (old T Q : List (List Nat)) : Decidable (FacesAccounted old T Q) := by
  unfold FacesAccounted; infer_instance
instance (old E Q : List (List Nat)) : Decidable (EdgesListed old E Q) := by
  unfold EdgesListed; infer_instance

end OmegaH.Spec
