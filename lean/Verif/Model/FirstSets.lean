import Verif.Model.Grammar
import Verif.Model.Indset

/-!
# FIRST sets of a grammar: src/Omega_h_build_parser.cpp:195-350

A `std::set<int>` is the list of its elements in the order of iteration. The queue of events is a list from which the position of the next event is
chosen by a function; the code always takes the first one.
-/

namespace OmegaH

/-- `FIRST_NULL`: src/Omega_h_build_parser.cpp:233. -/
def firstNull : Int := -425

/-- `std::set<int>::insert`. -/
def intInsert (x : Int) : List Int → List Int
  | [] => [x]
  | y :: l => if x < y then x :: y :: l else if x = y then y :: l else y :: intInsert x l

/-- The productions of a symbol, in their order: `get_productions_by_lhs`: src/Omega_h_build_parser.cpp:195-203. -/
def Grammar.prodsOf (g : Grammar) (s : Nat) : List (Nat × List Nat) := g.prods.filter (fun p => p.1 = s)

/-- A row of the transpose of the graph of symbols: the left-hand sides of the productions in which a symbol appears: `get_symbol_graph`,
src/Omega_h_build_parser.cpp:205-225, and `make_transpose`, src/Omega_h_parser_graph.cpp:21-30. -/
def Grammar.dependers (g : Grammar) (s : Nat) : List Nat :=
  (List.range g.nsymbols).filter (fun l => (g.prodsOf l).any (fun p => decide (s ∈ p.2)))

/-- `get_first_set_of_string` from a position on: src/Omega_h_build_parser.cpp:254-273. -/
def firstOfStringFrom (sets : List (List Int)) : List Nat → List Int → Option (List Int)
  | [], out => some (intInsert firstNull out)
  | s :: rest, out => (sets[s]?).bind (fun fs =>
      let out' := fs.foldl (fun o x => if x = firstNull then o else intInsert x o) out
      if firstNull ∈ fs then firstOfStringFrom sets rest out' else some out')

def firstOfString (sets : List (List Int)) (string : List Nat) : Option (List Int) := firstOfStringFrom sets string []

/-- The events in the queue at the start: src/Omega_h_build_parser.cpp:289-302. -/
def Grammar.initEvents (g : Grammar) : List (Int × Nat) :=
  ((List.range g.nsymbols).map (fun s =>
    if g.isTerminal s then [((s : Int), s)]
    else if (g.prodsOf s).any (fun p => p.2.isEmpty) then [(firstNull, s)] else [])).flatten

/-- The events for one production of a depender: src/Omega_h_build_parser.cpp:319-326. -/
def eventsOfProd (sets : List (List Int)) (depender : Nat) (p : Nat × List Nat) : Option (List (Int × Nat)) :=
  (sets[depender]?).bind (fun fs => (firstOfString sets p.2).map (fun rhs => (rhs.filter (fun x => x ∉ fs)).map (fun x => (x, depender))))

/-- The events for one depender, after the check that it is not a terminal: src/Omega_h_build_parser.cpp:315-327. -/
def Grammar.eventsOfDepender (g : Grammar) (sets : List (List Int)) (depender : Nat) : Option (List (Int × Nat)) :=
  if g.isTerminal depender then none else ((g.prodsOf depender).mapM (eventsOfProd sets depender)).map List.flatten

/-- The events pushed after an insertion: src/Omega_h_build_parser.cpp:314-327. -/
def Grammar.newEvents (g : Grammar) (sets : List (List Int)) (dependee : Nat) : Option (List (Int × Nat)) :=
  ((g.dependers dependee).mapM (g.eventsOfDepender sets)).map List.flatten

/-- The loop over events, for a number of passes: src/Omega_h_build_parser.cpp:305-328. -/
def Grammar.firstLoop (g : Grammar) (pick : List (Int × Nat) → Nat) : Nat → List (Int × Nat) → List (List Int) → Outcome (List (List Int))
  | _, [], sets => .done sets
  | 0, _ :: _, _ => .running
  | fuel + 1, e :: queue, sets =>
    match (e :: queue)[pick (e :: queue) % (e :: queue).length]? with
    | none => .fail
    | some (added, dependee) =>
      let queue' := (e :: queue).eraseIdx (pick (e :: queue) % (e :: queue).length)
      match sets[dependee]? with
      | none => .fail
      | some fs =>
        if added ∈ fs then g.firstLoop pick fuel queue' sets
        else
          let sets' := sets.set dependee (intInsert added fs)
          match g.newEvents sets' dependee with
          | none => .fail
          | some new => g.firstLoop pick fuel (queue' ++ new) sets'

/-- `compute_first_sets`. Building the graphs checks that the symbols of productions are in range: src/Omega_h_build_parser.cpp:278-350. -/
def Grammar.firstSets (g : Grammar) (pick : List (Int × Nat) → Nat) (fuel : Nat) : Outcome (List (List Int)) :=
  if g.prods.all (fun p => decide (p.1 < g.nsymbols) && p.2.all (fun s => decide (s < g.nsymbols))) then
    g.firstLoop pick fuel g.initEvents (List.replicate g.nsymbols [])
  else .fail

end OmegaH
