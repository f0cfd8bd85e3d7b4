import Verif.Model.Parser

/-!
# Indentation: `Reader::at_token_indent`, src/Omega_h_reader.cpp:124-175

The lexer's tokens come with their texts. The tokens delivered to the parser are collected in a list; the parser sees them in this order, and what it does with
them does not change the indentation.
-/

namespace OmegaH

/-- `IndentInfo` of an indentation-sensitive language: src/Omega_h_reader_tables.hpp:10-15. -/
structure IndentInfo where
  indent : Nat
  dedent : Nat
  newline : Nat
deriving DecidableEq, Repr

/-- `indent_text`, and `indent_stack` with the top first: for every entry `start_length` and `end_length`: src/Omega_h_reader.hpp:52-61. -/
structure IndentState where
  text : List Nat
  stack : List (Nat × Nat)
deriving DecidableEq, Repr

/-- How `at_token_indent` ends: it returns, it throws `ParserFail`, or a check fails. -/
inductive IndentEnd where
  | ok (s : IndentState)
  | reject
  | fail
deriving DecidableEq, Repr

/-- The characters behind the last newline character, if there is one: src/Omega_h_reader.cpp:140-145. -/
def afterNewline (text : List Nat) : Option (List Nat) :=
  if 10 ∈ text then some (text.reverse.takeWhile (fun c => decide (c ≠ 10))).reverse else none

/-- `indent_mismatch`: src/Omega_h_reader.cpp:124-133. -/
def indentMismatch (s : IndentState) : IndentEnd := if s.stack = [] then .fail else .reject

/-- The loop that pops indentations: the number popped and those left: src/Omega_h_reader.cpp:162-168. -/
def popIndents (minlen : Nat) : List (Nat × Nat) → Nat × List (Nat × Nat)
  | [] => (0, [])
  | top :: rest => if top.2 ≤ minlen then (0, top :: rest) else ((popIndents minlen rest).1 + 1, (popIndents minlen rest).2)

/-- What follows a newline with the indentation `ind`: src/Omega_h_reader.cpp:149-174. -/
def atIndent (info : IndentInfo) (s : IndentState) (ind : List Nat) : List Nat × IndentEnd :=
  if ind.length > s.text.length then
    if ind.take s.text.length ≠ s.text then ([], indentMismatch s)
    else ([info.indent], .ok ⟨ind, (s.text.length, ind.length) :: s.stack⟩)
  else if ind.length < s.text.length then
    if s.text.take ind.length ≠ ind then ([], indentMismatch s)
    else
      let p := popIndents (min ind.length s.text.length) s.stack
      (List.replicate p.1 info.dedent, .ok ⟨ind, p.2⟩)
  else if ind ≠ s.text then ([], indentMismatch s)
  else ([], .ok s)

/-- `at_token_indent`: the tokens delivered, and how it ends: src/Omega_h_reader.cpp:135-175. -/
def atTokenIndent (info : IndentInfo) (s : IndentState) (tok : Nat × List Nat) : List Nat × IndentEnd :=
  if tok.1 ≠ info.newline then ([tok.1], .ok s)
  else match afterNewline tok.2 with
    | none => ([], .fail)
    | some ind => (info.newline :: (atIndent info s ind).1, (atIndent info s ind).2)

/-- The tokens of a text one after the other. -/
def deliver (info : IndentInfo) : IndentState → List (Nat × List Nat) → List Nat × IndentEnd
  | s, [] => ([], .ok s)
  | s, tok :: toks =>
    match (atTokenIndent info s tok).2 with
    | .ok s' => ((atTokenIndent info s tok).1 ++ (deliver info s' toks).1, (deliver info s' toks).2)
    | e => ((atTokenIndent info s tok).1, e)

/-- Reading the tokens of a text in an indentation-sensitive language: src/Omega_h_reader.cpp:256-316. -/
def readIndented (p : LRParser) (info : IndentInfo) (fuel : Nat) (toks : List (Nat × List Nat)) : ParseOut (CallTree × List Nat) :=
  match (deliver info ⟨[], []⟩ toks).2 with
  | .ok _ => p.parse fuel (deliver info ⟨[], []⟩ toks).1
  | e =>
    match p.atTokens fuel ⟨[0], [], false, []⟩ (deliver info ⟨[], []⟩ toks).1 with
    | .done _ => match e with
      | .reject => .reject
      | _ => .fail
    | .running => .running
    | .reject => .reject
    | .fail => .fail
    | .ub => .ub

/-- `at_token` in an indentation-sensitive language, with the size of `symbol_indentation_stack`. For an empty right-hand side it copies the top entry, which is
undefined if there is none: src/Omega_h_reader.cpp:76-79, 108-116. `read_stream` does not clear this stack. -/
def LRParser.atTokenSized (p : LRParser) : Nat → ParseState × Nat → Nat → ParseOut (ParseState × Nat)
  | 0, _, _ => .running
  | fuel + 1, (s, size), t =>
    match s.stack with
    | [] => .fail
    | q :: _ =>
      match p.action q t with
      | none => .fail
      | some .none => .reject
      | some (.shift next) => .done (⟨(next : Int) :: s.stack, .leaf t :: s.values, s.accepted, s.reductions⟩, size + 1)
      | some (.reduce k) =>
        if k + 1 = p.g.prods.length then .done ({ s with accepted := true }, size)
        else match p.g.prods[k]? with
          | none => .fail
          | some (_, rhs) =>
            if rhs = [] ∧ size = 0 then .ub
            else match p.reduce s k with
              | .ok s' => p.atTokenSized fuel (s', size + 1 - rhs.length) t
              | .fail => .fail
              | .ub => .ub

end OmegaH
