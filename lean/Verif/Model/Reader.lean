import Verif.Model.Res
import Verif.Model.Determinise
import Verif.Model.Indset

/-!
# The reader's tokens: src/Omega_h_reader.cpp

Texts are lists of character codes. Positions (`line`, `column`, `line_text`) only enter error messages and are left out. The tokens go to the
parser one by one; the parser does not change the state of the lexer, except that it may throw, which ends the reading.
-/

namespace OmegaH

/-- The stream from its position on, and `lexer_text`, `lexer_state`, `lexer_token`, `last_lexer_accept` of a reader:
src/Omega_h_reader.hpp:34-42. The constructor does not initialise `last_lexer_accept`: `none`. -/
structure LexState where
  rest : List Nat
  text : List Nat
  state : Nat
  token : Int
  last : Option Nat
deriving DecidableEq, Repr

/-- `at_lexer_end` with `backtrack_to_last_accept` and `reset_lexer_state`: the token with its text, and the state after it. Characters beyond the last
accepted one go back to the stream one by one: src/Omega_h_reader.cpp:177-216. -/
def lexerEnd (s : LexState) : Res ((Int × List Nat) × LexState) :=
  if s.token = -1 then .fail
  else match s.last with
    | none => .ub
    | some n => .ok ((s.token, s.text.take n), ⟨s.text.drop n ++ s.rest, [], 0, -1, s.last⟩)

/-- One pass of the loop of `read_stream` over a character `c`, taken from the stream: src/Omega_h_reader.cpp:271-295. -/
def lexChar (lexer : FA) (s : LexState) (c : Nat) (rest : List Nat) : Res (Option (Int × List Nat) × LexState) :=
  match getSymbol c with
  | none => .fail
  | some symbol =>
    match faStep lexer s.state symbol with
    | none => .fail
    | some next =>
      if next = -1 then
        match lexerEnd { s with rest := rest, text := s.text ++ [c] } with
        | .ok (t, s') => .ok (some t, s')
        | .fail => .fail
        | .ub => .ub
      else
        match faAccepts lexer next.toNat with
        | none => .fail
        | some token =>
          if token ≠ -1 then .ok (none, ⟨rest, s.text ++ [c], next.toNat, token, some (s.text.length + 1)⟩)
          else .ok (none, ⟨rest, s.text ++ [c], next.toNat, s.token, s.last⟩)

/-- The loop of `read_stream` for a number of passes, and the end of the stream: src/Omega_h_reader.cpp:270-305. -/
def lexLoop (lexer : FA) : Nat → LexState → List (Int × List Nat) → Outcome (List (Int × List Nat))
  | fuel, s, acc =>
    match s.rest with
    | [] =>
      match s.last with
      | none => .ub
      | some n =>
        if n < s.text.length then .fail
        else match lexerEnd s with
          | .ok (t, _) => .done (acc ++ [t])
          | .fail => .fail
          | .ub => .ub
    | c :: rest =>
      match fuel with
      | 0 => .running
      | fuel + 1 =>
        match lexChar lexer s c rest with
        | .ok (none, s') => lexLoop lexer fuel s' acc
        | .ok (some t, s') => lexLoop lexer fuel s' (acc ++ [t])
        | .fail => .fail
        | .ub => .ub

/-- The tokens that `read_stream` passes on, before the one for the end of the stream. `last` is what the previous use of the reader left in
`last_lexer_accept`, if there was one: src/Omega_h_reader.cpp:248-305. -/
def readTokens (lexer : FA) (fuel : Nat) (last : Option Nat) (w : List Nat) : Outcome (List (Int × List Nat)) :=
  lexLoop lexer fuel ⟨w, [], 0, -1, last⟩ []

end OmegaH
