import Verif.Model.RefineQual
import Verif.Props.C36
/-!
# What splitting an edge makes, as seen by someone who measures the new mesh
-/
namespace OmegaH.Spec

variable {K V M : Type}

/-- Edge `e` with its ends and the cells around it, in a mesh of `nverts` vertices. -/
def SplittableEdge (mesh : RefineMesh) (dim nverts e : Nat) : Prop :=
  ∃ a b lo hi : Nat, (mesh.vertsOf 1)[e * 2]? = some a ∧ (mesh.vertsOf 1)[e * 2 + 1]? = some b ∧ a < nverts ∧ b < nverts ∧
    (mesh.upOffsets dim)[e]? = some lo ∧ (mesh.upOffsets dim)[e + 1]? = some hi ∧ lo ≤ hi ∧
    ∀ ed, lo ≤ ed → ed < hi → ∃ dom code, ∃ N : List Nat, (mesh.upEnts dim)[ed]? = some dom ∧ (mesh.upCodes dim)[ed]? = some code ∧
      N.length = dim + 1 ∧ (∀ v ∈ N, v < nverts) ∧ (∀ i, i < dim + 1 → (mesh.vertsOf dim)[dom * (dim + 1) + i]? = N[i]?) ∧
      EdgeCodeIn dim code N a b

/-- Points and metrics of the new mesh: old vertices keep theirs, a new vertex has the middle of the points and the average of the metrics
at the ends of its edge. -/
structure SplitCarried (d : QualData K V M) (coords : List V) (metrics : List M) (mesh : RefineMesh) (keys2edges keys2mids old2new : List Nat)
    (newCoords : List V) (newMetrics : List M) : Prop where
  kept : ∀ v n : Nat, old2new[v]? = some n → newCoords[n]? = coords[v]? ∧ newMetrics[n]? = metrics[v]?
  made : ∀ (k e m a b : Nat) (p q : V) (x y : M), keys2edges[k]? = some e → keys2mids[k]? = some m → (mesh.vertsOf 1)[e * 2]? = some a →
    (mesh.vertsOf 1)[e * 2 + 1]? = some b → coords[a]? = some p → coords[b]? = some q → metrics[a]? = some x → metrics[b]? = some y →
    newCoords[m]? = some (d.mid p q) ∧ newMetrics[m]? = some (d.avg x y)

/-- `x` is the smallest of `one` and the values `qs`. -/
def LeastOf [LE K] (one : K) (qs : List K) (x : K) : Prop := x ≤ one ∧ (∀ q ∈ qs, x ≤ q) ∧ (x = one ∨ x ∈ qs)

/-- `qs` are the qualities, in the new mesh, of the cells that splitting edge `e` alone makes; its new vertex comes after all others. -/
def SplitAlone (d : QualData K V M) (coords : List V) (metrics : List M) (mesh : RefineMesh) (dim e : Nat) (qs : List K) : Prop :=
  ∃ (a b : Nat) (p q : V) (x y : M) (out : List Int × List Nat) (cells : List (List Nat)),
    (mesh.vertsOf 1)[e * 2]? = some a ∧ (mesh.vertsOf 1)[e * 2 + 1]? = some b ∧ coords[a]? = some p ∧ coords[b]? = some q ∧
    metrics[a]? = some x ∧ metrics[b]? = some y ∧
    refineProducts (fun _ => .serial) mesh dim dim [e] [coords.length] (List.range coords.length) = some out ∧
    out.2 = cells.flatten ∧ (∀ c ∈ cells, c.length = dim + 1) ∧
    cells.mapM (measureQuality d (coords ++ [d.mid p q]) (metrics ++ [d.avg x y])) = some qs

end OmegaH.Spec
