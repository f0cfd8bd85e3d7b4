/-! # Specification of the array helpers -/

namespace OmegaH.Spec

/-- `c` is the array with `c[i] = f(a[i])`. -/
def Elementwise {α β : Type} (f : α → β) (a : List α) (c : List β) : Prop :=
  c.length = a.length ∧ ∀ (i : Nat) (x : α), a[i]? = some x → c[i]? = some (f x)

/-- `c` is the array with `c[i] = f(a[i], b[i])`; the arrays have equal length. -/
def Elementwise2 {α β γ : Type} (f : α → β → γ) (a : List α) (b : List β) (c : List γ) : Prop :=
  c.length = a.length ∧ b.length = a.length ∧
  ∀ (i : Nat) (x : α) (y : β), a[i]? = some x → b[i]? = some y → c[i]? = some (f x y)

/-- `c` is the array of rows of `w` components whose component `j` of row `i` is
`f(a[i*w+j], b[i])`. -/
def Rowwise {α β γ : Type} (f : α → β → γ) (w : Nat) (a : List α) (b : List β) (c : List γ) : Prop :=
  a.length = b.length * w ∧ c.length = a.length ∧
  ∀ (i j : Nat) (x : α) (y : β), j < w → a[i * w + j]? = some x → b[i]? = some y →
    c[i * w + j]? = some (f x y)

/-- Ascending (not necessarily strictly). -/
def Ascending (a : List Int) : Prop :=
  ∀ (i j : Nat) (x y : Int), i < j → a[i]? = some x → a[j]? = some y → x ≤ y

/-- 1 for a true statement and 0 for a false one. -/
def flag (p : Prop) [Decidable p] : Int := if p then 1 else 0

end OmegaH.Spec
