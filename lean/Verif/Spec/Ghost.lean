import Verif.Spec.Migrate

/-! # Specification of ghost layers

`A` are the elements, `B` the vertices, `deg` is the number of vertices of an element. Elements and vertices are named by their
owners (rank, index). -/

namespace OmegaH.Spec

/-- `e` is an element of the mesh. -/
def IsElem (n : Nat) (A : OldLevel) (e : Nat × Nat) : Prop := ∃ r i, r < n ∧ A.owner (r, i) = some e

/-- The vertex `v` is a vertex of the element `f`. -/
def Touches (deg : Nat) (A B : OldLevel) (v f : Nat × Nat) : Prop := ∃ j, j < deg ∧ lowOwner A B deg f j = some v

/-- `e` is within `k` hops over shared vertices of an element that rank `r` has. -/
inductive Within (n deg : Nat) (A B : OldLevel) (r : Nat) : Nat → Nat × Nat → Prop
  | here (i e) : A.owner (r, i) = some e → Within n deg A B r 0 e
  | hop (k e f v) : Within n deg A B r k e → Touches deg A B v e → IsElem n A f → Touches deg A B v f → Within n deg A B r (k + 1) f

/-- The mesh that the ranks hold together is consistent: a copy of an element has the vertices that its owner has, vertices have
elements on their rank, and `ask_up` inverts `ask_down`. -/
structure GhostOk (n deg : Nat) (A B : OldLevel) (fans upElems : Nat → List Nat) : Prop where
  copies : ∀ r i e, r < n → A.owner (r, i) = some e → ∀ j, j < deg → lowOwner A B deg (r, i) j = lowOwner A B deg e j
  used : ∀ r v, r < n → v < B.nents r → ∃ i j, i < A.nents r ∧ j < deg ∧ entry (A.lows r) deg i j = some v
  isFan : ∀ r, r < n → IsFan (fans r) ∧ (fans r).length = B.nents r + 1 ∧ (fans r).getLast? = some (upElems r).length
  up : ∀ r v i, r < n → ((∃ k, InFan (fans r) v k ∧ (upElems r)[k]? = some i) ↔
    i < A.nents r ∧ ∃ j, j < deg ∧ entry (A.lows r) deg i j = some v)

/-- `copies r` are the elements satisfying `P r`, each once, by global number. -/
structure ElemsAre (n : Nat) (A : OldLevel) (P : Nat → Nat × Nat → Prop) (copies : Nat → List (Nat × Nat)) : Prop where
  once : ∀ r, r < n → (copies r).Nodup
  mem : ∀ r e, r < n → (e ∈ copies r ↔ P r e)
  sorted : ∀ r, r < n → (copies r).Pairwise (fun e e' => ∀ a b, A.global e = some a → A.global e' = some b → a ≤ b)

end OmegaH.Spec

namespace OmegaH.Spec

/-- Elements of a mesh as sets: which elements a rank has, which rank owns an element, which rank owns a vertex. -/
structure Held (El Ve : Type) where
  has : Nat → El → Prop
  ownEl : El → Nat
  ownVe : Ve → Nat

/-- Within `k` hops over shared vertices of a set of elements. -/
inductive Hops {El Ve : Type} (touches : Ve → El → Prop) (S : El → Prop) : Nat → El → Prop
  | here (e) : S e → Hops touches S 0 e
  | hop (k e f v) : Hops touches S k e → touches v e → touches v f → Hops touches S (k + 1) f

end OmegaH.Spec
