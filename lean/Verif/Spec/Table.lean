import Verif.Model.Graph
import Verif.Model.Scan
/-!
# Arrays and graphs by their rows
-/
namespace OmegaH.Spec

/-- The array of rows of width `w` with one row `F b 0 … F b (w-1)` for each member `b` of `l`. -/
def tableOf {β K : Type} (l : List β) (w : Nat) (F : β → Nat → K) : List K := l.flatMap (fun b => (List.range w).map (F b))

/-- The graph with one node for each key; the edges of key `k` lead to `R k`. -/
def graphOn {κ : Type} (keys : List κ) (R : κ → List Nat) : Graph :=
  ⟨offsetScan (keys.map (fun k => (R k).length)), keys.flatMap R⟩

/-- The edges of such a graph: pairs of a key and where its edge leads. -/
def edgesOn {κ : Type} (keys : List κ) (R : κ → List Nat) : List (κ × Nat) := keys.flatMap (fun k => (R k).map (fun e => (k, e)))

end OmegaH.Spec
