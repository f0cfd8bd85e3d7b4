import Verif.Spec.Collapse
/-!
# Collapsing several vertices together

`R d x` lists the vertices of entity `x` of dimension `d`, `nents d` is the number of these entities.
-/
namespace OmegaH.Spec

/-- Vertices collapsed together: key `k` collapses `col k`, end `dirs[k]` of edge `rails[k]`, onto the other end `onto k`; no two of
these vertices are in one edge or one element; vertices that stay have the new numbers `N`. -/
structure CollapseKeys (D : Nat) (nents : Nat → Nat) (R : Nat → Nat → List Nat) (rails dirs keys2verts keys2onto old2new : List Nat)
    (col onto N : Nat → Nat) : Prop where
  dirsLen : dirs.length = rails.length
  verts : keys2verts = (List.range rails.length).map col
  ontos : keys2onto = (List.range rails.length).map onto
  ends : ∀ k, k < rails.length → ∃ e i, rails[k]? = some e ∧ dirs[k]? = some i ∧ i ≤ 1 ∧ e < nents 1 ∧ (R 1 e)[i]? = some (col k) ∧
    (R 1 e)[1 - i]? = some (onto k)
  apart : ∀ k l d x, k < rails.length → l < rails.length → d = 1 ∨ d = D → x < nents d → col k ∈ R d x → col l ∈ R d x → k = l
  stay : ∀ v, v < nents 0 → (∀ k, k < rails.length → v ≠ col k) → old2new[v]? = some (N v)
  different : ∀ u v, old2new[u]? = some (N u) → old2new[v]? = some (N v) → N u = N v → u = v

/-- The measures of the new mesh: elements and edges among vertices that stay measure what they did under the old numbers. -/
structure MeasuresKept {K : Type} (m : CollapseRank K) (nents : Nat → Nat) (nkeys : Nat) (col N : Nat → Nat) (newQuality : List Nat → Option K)
    (newLength : Nat → Nat → Option K) : Prop where
  quality : ∀ l, (∀ v ∈ l, v < nents 0 ∧ ∀ k, k < nkeys → v ≠ col k) → newQuality (l.map N) = m.qualityOf l
  length : ∀ a b, a < nents 0 → b < nents 0 → (∀ k, k < nkeys → a ≠ col k ∧ b ≠ col k) → newLength (N a) (N b) = m.lengthOf a b

end OmegaH.Spec
