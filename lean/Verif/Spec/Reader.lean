import Verif.Spec.Automaton
import Verif.Model.Reader

/-! # Specification of longest-match tokens -/

namespace OmegaH.Spec

/-- The automaton reports the token for the text. -/
def TextAccepts (lexer : FA) (u : List Nat) (token : Int) : Prop := ∃ v, u.mapM getSymbol = some v ∧ Accepts lexer v token

/-- `w` is cut into nonempty texts, each of which is the longest beginning of what is left that has a token. -/
inductive LongestMatch (lexer : FA) : List Nat → List (Int × List Nat) → Prop
  | nil : LongestMatch lexer [] []
  | cons {u r : List Nat} {token : Int} {toks : List (Int × List Nat)} : u ≠ [] → TextAccepts lexer u token →
      (∀ x y t, r = x ++ y → x ≠ [] → ¬ TextAccepts lexer (u ++ x) t) → LongestMatch lexer r toks → LongestMatch lexer (u ++ r) ((token, u) :: toks)

/-- Some run of the automaton reads the whole text. -/
def CanRead (lexer : FA) (u : List Nat) : Prop := ∃ v q, u.mapM getSymbol = some v ∧ Walk (Edge lexer) 0 v q

/-- A cut in which the automaton stops before the end of the input at every token but the last. -/
inductive StopsInTime (lexer : FA) : List Nat → List (Int × List Nat) → Prop
  | nil : StopsInTime lexer [] []
  | cons {u r : List Nat} {token : Int} {toks : List (Int × List Nat)} : (r ≠ [] → ¬ CanRead lexer (u ++ r)) → StopsInTime lexer r toks →
      StopsInTime lexer (u ++ r) ((token, u) :: toks)

end OmegaH.Spec
