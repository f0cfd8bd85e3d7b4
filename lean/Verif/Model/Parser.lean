import Verif.Model.Res
import Verif.Model.Grammar
import Verif.Model.Indset

/-!
# The table-driven parser: src/Omega_h_parser.cpp and `Reader::at_token`

The value of a token or of a reduction is whatever the callbacks `at_shift` and `at_reduce` of a reader make of it. The model keeps the tree of the calls, of
which every such value is a function. Callbacks that throw end the reading and are left out.
-/

namespace OmegaH

/-- `Action`: src/Omega_h_parser.hpp:12-24. -/
inductive PAction where
  | none
  | shift (next : Nat)
  | reduce (prod : Nat)
deriving DecidableEq, Repr

/-- `Parser`: src/Omega_h_parser.hpp:26-34. -/
structure LRParser where
  g : Grammar
  terminals : List (List PAction)
  nonterminals : List (List Int)
deriving DecidableEq, Repr

/-- A call of `at_shift` for a token, or of `at_reduce` for a production with the values of its right-hand side. -/
inductive CallTree where
  | leaf (token : Nat)
  | node (prod : Nat) (children : List CallTree)

/-- `parser_stack` and `value_stack`, both with the top first, `did_accept`, and the productions reduced so far, the last one first:
src/Omega_h_reader.hpp:43-48. The top of `parser_stack` is `parser_state`. -/
structure ParseState where
  stack : List Int
  values : List CallTree
  accepted : Bool
  reductions : List Nat

/-- `get_action`, with the checks of `at`: src/Omega_h_parser.cpp:48-50, src/Omega_h_table.hpp:49-56. -/
def LRParser.action (p : LRParser) (state : Int) (t : Nat) : Option PAction :=
  if state < 0 then none else (p.terminals[state.toNat]?).bind (fun row => row[t]?)

/-- The entry of the table of nonterminals: src/Omega_h_parser.cpp:60-66. -/
def LRParser.goto (p : LRParser) (state : Int) (lhs : Nat) : Option Int :=
  if state < 0 ∨ lhs < p.g.nterminals then none else (p.nonterminals[state.toNat]?).bind (fun row => row[lhs - p.g.nterminals]?)

/-- A reduction by a production other than the accepting one. Popping from an empty vector is undefined:
src/Omega_h_reader.cpp:89-120, src/Omega_h_parser.cpp:52-68. -/
def LRParser.reduce (p : LRParser) (s : ParseState) (k : Nat) : Res ParseState :=
  match p.g.prods[k]? with
  | none => .fail
  | some (lhs, rhs) =>
    if s.values.length < rhs.length then .fail
    else if s.stack.length < rhs.length then .ub
    else match s.stack.drop rhs.length with
      | [] => .fail
      | q :: below =>
        match p.goto q lhs with
        | none => .fail
        | some next => .ok ⟨next :: q :: below, .node k (s.values.take rhs.length).reverse :: s.values.drop rhs.length, s.accepted, k :: s.reductions⟩

/-- How reading ends: with a result, not within the number of passes given, with the exception `ParserFail`, with a failed check or with undefined behaviour. -/
inductive ParseOut (α : Type) where
  | done (a : α)
  | running
  | reject
  | fail
  | ub

/-- `Reader::at_token`, for a number of passes of its loop: src/Omega_h_reader.cpp:43-122. -/
def LRParser.atToken (p : LRParser) : Nat → ParseState → Nat → ParseOut ParseState
  | 0, _, _ => .running
  | fuel + 1, s, t =>
    match s.stack with
    | [] => .fail
    | q :: _ =>
      match p.action q t with
      | none => .fail
      | some .none => .reject
      | some (.shift next) => .done ⟨(next : Int) :: s.stack, .leaf t :: s.values, s.accepted, s.reductions⟩
      | some (.reduce k) =>
        if k + 1 = p.g.prods.length then .done { s with accepted := true }
        else match p.reduce s k with
          | .ok s' => p.atToken fuel s' t
          | .fail => .fail
          | .ub => .ub

/-- The tokens of a text one after the other. -/
def LRParser.atTokens (p : LRParser) (fuel : Nat) (s : ParseState) : List Nat → ParseOut ParseState
  | [] => .done s
  | t :: ts =>
    match p.atToken fuel s t with
    | .done s' => p.atTokens fuel s' ts
    | .running => .running
    | .reject => .reject
    | .fail => .fail
    | .ub => .ub

/-- What `read_stream` does with the tokens of a text: the tokens, the end terminal, and the checks at the end; the value and the reductions, the last one
first: src/Omega_h_reader.cpp:256-260, 305-316. -/
def LRParser.parse (p : LRParser) (fuel : Nat) (tokens : List Nat) : ParseOut (CallTree × List Nat) :=
  match p.atTokens fuel ⟨[0], [], false, []⟩ tokens with
  | .running => .running
  | .reject => .reject
  | .fail => .fail
  | .ub => .ub
  | .done s =>
    match p.atToken fuel s (p.g.nterminals - 1) with
    | .running => .running
    | .reject => .reject
    | .fail => .fail
    | .ub => .ub
    | .done s =>
      if s.accepted then
        match s.values with
        | [v] => .done (v, s.reductions)
        | _ => .fail
      else .fail

end OmegaH
