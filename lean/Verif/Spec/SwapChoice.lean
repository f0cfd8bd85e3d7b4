import Verif.Model.SwapChoice
import Verif.Spec.Collapse
import Verif.Spec.Loop
import Verif.Props.C35
import Verif.Props.C38
/-!
# Which edges are swapped, and how
-/
namespace OmegaH.Spec
variable {K : Type} [Ring K] [LinearOrder K]

/-- `q` is the smallest of the qualities of the elements `Q`, or 1 if they are all better. -/
def WorstOf (quality : List Nat → Option K) (Q : List (List Nat)) (q : K) : Prop :=
  (q = 1 ∨ ∃ t ∈ Q, quality t = some q) ∧ q ≤ 1 ∧ ∀ t ∈ Q, ∃ x, quality t = some x ∧ q ≤ x

/-- None of the edges `E` is longer than the limit. -/
def ShortEdges (length : List Nat → Option K) (maxLength : K) (E : List (List Nat)) : Prop :=
  ∀ e ∈ E, ∃ x, length e = some x ∧ x ≤ maxLength

/-- Swapping edge `e` in configuration `c` makes the edges `E` and the tets `Q`. -/
def Makes3 (m : SwapRank K) (e c : Nat) (E Q : List (List Nat)) : Prop :=
  ∃ codes T, m.up.codes = some codes ∧
    swap3dKeyProds m.up.a2ab m.up.ab2b codes m.ev2v m.cv2v [e] (List.replicate (e + 1) c) 0 = some (E, T, Q)

/-- Configuration `c` of edge `e` is allowed: it makes elements of positive quality, the smallest being `q`,
and no edge that is too long. -/
def Allowed3 (maxLength : K) (m : SwapRank K) (e c : Nat) (q : K) : Prop :=
  ∃ E Q, Makes3 m e c E Q ∧ ShortEdges m.lengthOf maxLength E ∧ WorstOf m.qualityOf Q q ∧ 0 < q

/-- Configuration `c` is the best allowed one, the first of several equally good ones. -/
def Best3 (maxLength : K) (m : SwapRank K) (e : Nat) (c : Int) (q : K) : Prop :=
  ∃ k : Nat, c = k ∧ Allowed3 maxLength m e k q ∧
    ∀ k' q', Allowed3 maxLength m e k' q' → q' < q ∨ (q' = q ∧ k ≤ k')

/-- Edge `e` is inside the mesh: tets go all the way around it. The measures are defined at the vertices of these tets. -/
def Inside3 (m : SwapRank K) (e : Nat) : Prop :=
  ∃ p q l L, AdjRow m.up e L ∧ rowAt m.ev2v 2 e = some [p, q] ∧
    (∀ x ∈ L, EdgeCode x.2 (row m.cv2v 4 x.1) p q) ∧
    Surrounds p q l (L.map (fun x => row m.cv2v 4 x.1)) ∧
    (∀ t : List Nat, t.length = 4 → (∀ v ∈ t, v ∈ p :: q :: l) → (m.qualityOf t).isSome) ∧
    (∀ t : List Nat, t.length = 2 → (∀ v ∈ t, v ∈ p :: q :: l) → (m.lengthOf t).isSome)

/-- Swapping edge `e` of a mesh of triangles makes the edge `E` and the triangles `Q`. -/
def Makes2 (m : SwapRank K) (e : Nat) (E : List Nat) (Q : List (List Nat)) : Prop :=
  ∃ codes, m.up.codes = some codes ∧
    swap2dKey m.up.a2ab m.up.ab2b codes m.cv2v m.ev2v e =
      some (E.map Int.ofNat, Q.map (fun t => t.map Int.ofNat))

/-- Swapping edge `e` makes triangles whose smallest quality is `q` and an edge that is not too long. There is one
configuration, numbered 0. -/
def Best2 (maxLength : K) (m : SwapRank K) (e : Nat) (c : Int) (q : K) : Prop :=
  c = 0 ∧ ∃ E Q, Makes2 m e E Q ∧ ShortEdges m.lengthOf maxLength [E] ∧ WorstOf m.qualityOf Q q

/-- Edge `e` is inside a mesh of triangles: it has one on each side. -/
def Inside2 (m : SwapRank K) (e : Nat) : Prop :=
  ∃ a b o0 o1 t0 t1 w0 r0 w1 r1 : Nat, AdjRow m.up e [(t0, 8 * (w0 : Int) + 2 * (r0 : Int)), (t1, 8 * (w1 : Int) + 2 * (r1 : Int))] ∧
    TriOnEdge (row m.cv2v 3 t0) w0 r0 a b o0 ∧ TriOnEdge (row m.cv2v 3 t1) w1 r1 a b o1 ∧ r0 ≠ r1 ∧
    m.ev2v[e * 2]? = some a ∧ m.ev2v[e * 2 + 1]? = some b ∧
    (∀ t : List Nat, t.length = 3 → (∀ v ∈ t, v ∈ [a, b, o0, o1]) → (m.qualityOf t).isSome) ∧
    (∀ t : List Nat, t.length = 2 → (∀ v ∈ t, v ∈ [a, b, o0, o1]) → (m.lengthOf t).isSome)

/-- `x` is the quality of an element around edge `e`. -/
def OldQuality (m : SwapRank K) (e : Nat) (x : K) : Prop :=
  ∃ L y, AdjRow m.up e L ∧ y ∈ L ∧ m.elemQuals[y.1]? = some x

/-- Meshes on `n` ranks with the owners of their edges and marks of the edges that are offered. -/
structure SwapWorld (K : Type) where
  rank : Nat → SwapRank K
  owner : Nat → Nat → Nat × Nat
  ncells : Nat → Nat
  marks : Nat → List Int

/-- Edge `e` of rank `r` is offered. -/
def SwapWorld.B (W : SwapWorld K) (r e : Nat) : Prop := (W.marks r)[e]? = some 1

/-- The arrays describe meshes, and the copies of an edge are offered together. `inside` says what the edges that are offered
have to be like where they are owned. -/
structure SwapWorld.Ok (W : SwapWorld K) (n : Nat) (shared : Bool) (inside : SwapRank K → Nat → Prop) : Prop where
  size : n ≤ 2147483648
  owners : OwnersFine n shared (fun r => (W.rank r).nedges) W.owner
  ownerRanks : ∀ r, r < n → (W.rank r).ownerRanks = (List.range (W.rank r).nedges).map (fun e => (W.owner r e).1)
  fan : ∀ r, r < n → IsFan (W.rank r).up.a2ab ∧ (W.rank r).up.a2ab.length = (W.rank r).nedges + 1 ∧
    (W.rank r).up.a2ab.getLast? = some (W.rank r).up.ab2b.length ∧ (∀ c ∈ (W.rank r).up.ab2b, c < W.ncells r) ∧
    (W.rank r).elemQuals.length = W.ncells r
  marked : ∀ r, r < n → (W.marks r).length = (W.rank r).nedges ∧ ∀ x ∈ W.marks r, x = 0 ∨ x = 1
  agree : ∀ r e, r < n → e < (W.rank r).nedges → (W.B r e ↔ W.B (W.owner r e).1 (W.owner r e).2)
  inside : ∀ r e, r < n → e < (W.rank r).nedges → W.B r e → (W.owner r e).1 = r → inside (W.rank r) e

/-- Edge `e` of rank `r` is to be swapped, in configuration `c` and with quality `q`: it is offered and, where it is owned,
this is the best allowed configuration and better than the worst element around the edge. -/
def SwapWorld.Swaps (W : SwapWorld K) (best : SwapRank K → Nat → Int → K → Prop) (r e : Nat) (c : Int) (q : K) : Prop :=
  W.B r e ∧ best (W.rank (W.owner r e).1) (W.owner r e).2 c q ∧
    ∃ old, OldQuality (W.rank (W.owner r e).1) (W.owner r e).2 old ∧ old < q

end OmegaH.Spec
