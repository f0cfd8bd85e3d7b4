import Verif.Model.Adj
/-!
# Reading an adjacency
-/
namespace OmegaH.Spec

/-- The neighbours of `a` in the adjacency, each with its code, in the order they are stored. -/
def AdjRow (adj : Adj) (a : Nat) (L : List (Nat × Int)) : Prop :=
  ∃ (codes : List Int) (lo hi : Nat), adj.codes = some codes ∧ adj.a2ab[a]? = some lo ∧ adj.a2ab[a + 1]? = some hi ∧
    lo + L.length = hi ∧
    ∀ (j : Nat) (x : Nat × Int), L[j]? = some x → adj.ab2b[lo + j]? = some x.1 ∧ codes[lo + j]? = some x.2

end OmegaH.Spec
