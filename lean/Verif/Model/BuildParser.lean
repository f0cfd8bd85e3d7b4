import Verif.Model.Parser
import Verif.Model.Regex

/-!
# The LR(0) machine and the tables: src/Omega_h_build_parser.cpp

The sets of look-ahead terminals of reductions, which `compute_context_set` computes, are not modelled: they are a parameter of `acceptParser`. Only that of the
accepting production is fixed; the code sets it to the end terminal and marks it complete before it computes the others (lines 1046-1057), and a complete set is
not changed.
-/

namespace OmegaH

/-- `make_configs`: a production with a position in its right-hand side: src/Omega_h_build_parser.cpp:30-39. -/
def Grammar.configs (g : Grammar) : List (Nat × Nat) :=
  ((List.range g.prods.length).map (fun i => match g.prods[i]? with
    | none => []
    | some p => (List.range (p.2.length + 1)).map (fun j => (i, j)))).flatten

/-- A row of `get_left_hand_sides_to_start_configs`: src/Omega_h_build_parser.cpp:41-52. -/
def Grammar.startConfigs (g : Grammar) (x : Nat) : List Nat :=
  (List.range g.configs.length).filter (fun c => match g.configs[c]? with
    | none => false
    | some (i, d) => decide (d = 0) && (match g.prods[i]? with
      | none => false
      | some p => decide (p.1 = x)))

/-- The production of a configuration and the symbol after the position, if the position is not at the end. -/
def Grammar.afterDot (g : Grammar) (c : Nat) : Option (Nat × Option Nat) :=
  (g.configs[c]?).bind (fun cfg => (g.prods[cfg.1]?).map (fun p => (cfg.1, p.2[cfg.2]?)))

/-- One new start configuration in `close`: src/Omega_h_build_parser.cpp:82-85. -/
def closeAdd (qs : List Nat × List Nat) (c : Nat) : List Nat × List Nat := if c ∈ qs.2 then qs else (qs.1 ++ [c], setInsert c qs.2)

/-- The loop of `close` over its queue: src/Omega_h_build_parser.cpp:72-87. -/
def Grammar.closeLoop (g : Grammar) : Nat → List Nat → List Nat → Outcome (List Nat)
  | _, [], set => .done set
  | 0, _ :: _, _ => .running
  | fuel + 1, c :: queue, set =>
    match g.afterDot c with
    | none => .fail
    | some (_, none) => g.closeLoop fuel queue set
    | some (_, some x) =>
      if g.isTerminal x then g.closeLoop fuel queue set
      else
        let qs := (g.startConfigs x).foldl closeAdd (queue, set)
        g.closeLoop fuel qs.1 qs.2

/-- `close`, after the check that the configurations are distinct. Every configuration enters the queue once: src/Omega_h_build_parser.cpp:63-89. -/
def Grammar.close (g : Grammar) (kernel : List Nat) : Outcome (List Nat) :=
  if kernel.Nodup then g.closeLoop g.configs.length kernel (kernel.foldl (fun s c => setInsert c s) []) else .fail

/-- `StateInProgress`, with the transitions: the symbol and the next state: src/Omega_h_build_parser.hpp:24-34. -/
structure LRState where
  configs : List Nat
  shifts : List (Nat × Nat)
deriving DecidableEq, Repr

/-- The symbols after the positions of the configurations: src/Omega_h_build_parser.cpp:150-158. -/
def Grammar.transitionSymbols (g : Grammar) (configs : List Nat) : Option (List Nat) :=
  configs.foldlM (fun (s : List Nat) c => (g.afterDot c).map (fun a => match a.2 with
    | none => s
    | some x => setInsert x s)) []

/-- The configurations behind a symbol: src/Omega_h_build_parser.cpp:160-171. -/
def Grammar.kernel (g : Grammar) (configs : List Nat) (x : Nat) : List Nat :=
  (configs.filter (fun c => (g.afterDot c).any (fun a => decide (a.2 = some x)))).map (· + 1)

/-- One transition of state `i`: a state with the same configurations is used again: src/Omega_h_build_parser.cpp:172-187. -/
def Grammar.addShift (g : Grammar) (i : Nat) (configs : List Nat) (states : List LRState) (x : Nat) : Outcome (List LRState) :=
  match g.close (g.kernel configs x) with
  | .running => .running
  | .fail => .fail
  | .ub => .ub
  | .done next =>
    match (states.map LRState.configs).idxOf? next with
    | some j => .done (states.modify i (fun s => { s with shifts := s.shifts ++ [(x, j)] }))
    | none => .done ((states.modify i (fun s => { s with shifts := s.shifts ++ [(x, states.length)] })) ++ [⟨next, []⟩])

def Grammar.addShifts (g : Grammar) (i : Nat) (configs : List Nat) : List LRState → List Nat → Outcome (List LRState)
  | states, [] => .done states
  | states, x :: xs =>
    match g.addShift i configs states x with
    | .running => .running
    | .fail => .fail
    | .ub => .ub
    | .done states' => g.addShifts i configs states' xs

/-- The loop over states. They enter the queue in the order of their numbers, so that the queue holds the states from `i` on:
src/Omega_h_build_parser.cpp:146-189. -/
def Grammar.lrLoop (g : Grammar) : Nat → Nat → List LRState → Outcome (List LRState)
  | fuel, i, states =>
    match states[i]? with
    | none => .done states
    | some state =>
      match fuel with
      | 0 => .running
      | fuel + 1 =>
        match g.transitionSymbols state.configs with
        | none => .fail
        | some xs =>
          match g.addShifts i state.configs states xs with
          | .running => .running
          | .fail => .fail
          | .ub => .ub
          | .done states' => g.lrLoop fuel (i + 1) states'

/-- `build_lr0_parser` without the reductions. `front` of an empty vector is undefined: src/Omega_h_build_parser.cpp:129-193. -/
def Grammar.lr0 (g : Grammar) (fuel : Nat) : Outcome (List LRState) :=
  match (g.startConfigs (g.nsymbols - 1)).head? with
  | none => .ub
  | some c =>
    match g.close [c] with
    | .running => .running
    | .fail => .fail
    | .ub => .ub
    | .done configs => g.lrLoop fuel 0 [⟨configs, []⟩]

/-- The productions of a state's configurations at their ends: `add_reduction_actions`: src/Omega_h_build_parser.cpp:96-111. -/
def Grammar.reductions (g : Grammar) (configs : List Nat) : Option (List Nat) :=
  configs.foldlM (fun (l : List Nat) c => (g.afterDot c).map (fun a => if a.2 = none then l ++ [a.1] else l)) []

/-- `add_terminal_action`: src/Omega_h_parser.cpp:26-38. -/
def LRParser.addTerminal (p : LRParser) (state t : Nat) (a : PAction) : Option LRParser :=
  match (p.terminals[state]?).bind (fun row => row[t]?) with
  | some .none =>
    if (match a with
        | .none => false
        | .shift q => decide (q < p.terminals.length)
        | .reduce k => decide (k < p.g.prods.length)) then
      some { p with terminals := p.terminals.modify state (fun row => row.set t a) }
    else none
  | _ => none

/-- `add_nonterminal_action`: src/Omega_h_parser.cpp:40-46. -/
def LRParser.addNonterminal (p : LRParser) (state nt next : Nat) : Option LRParser :=
  if next < p.terminals.length then
    if (p.nonterminals[state]?).bind (fun row => row[nt]?) = some (-1) then
      some { p with nonterminals := p.nonterminals.modify state (fun row => row.set nt (next : Int)) }
    else none
  else none

/-- One action of a state with its look-ahead terminals: src/Omega_h_build_parser.cpp:1119-1128. -/
def LRParser.addShiftAction (p : LRParser) (state : Nat) (xq : Nat × Nat) : Option LRParser :=
  if p.g.isTerminal xq.1 then p.addTerminal state xq.1 (.shift xq.2) else p.addNonterminal state (xq.1 - p.g.nterminals) xq.2

def LRParser.addReduceAction (p : LRParser) (state k : Nat) (context : List Nat) : Option LRParser :=
  context.foldlM (fun (p : LRParser) t => if p.g.isTerminal t then p.addTerminal state t (.reduce k) else none) p

/-- The look-ahead terminals of a reduction in a state: the end terminal for the accepting production, else those given. -/
def Grammar.context (g : Grammar) (ctx : Nat → Nat → List Nat) (state k : Nat) : List Nat :=
  if k + 1 = g.prods.length then [g.nterminals - 1] else ctx state k

/-- The actions of one state: src/Omega_h_build_parser.cpp:1117-1129. -/
def LRParser.addState (p : LRParser) (ctx : Nat → Nat → List Nat) (i : Nat) (state : LRState) : Option LRParser :=
  (state.shifts.foldlM (fun (p : LRParser) xq => p.addShiftAction i xq) p).bind (fun p =>
    (p.g.reductions state.configs).bind (fun ks => ks.foldlM (fun (p : LRParser) k => p.addReduceAction i k (p.g.context ctx i k)) p))

/-- `accept_parser`: src/Omega_h_build_parser.cpp:1109-1132. -/
def Grammar.acceptParser (g : Grammar) (ctx : Nat → Nat → List Nat) (states : List LRState) : Option LRParser :=
  (List.range states.length).foldlM (fun (p : LRParser) i => (states[i]?).bind (fun s => p.addState ctx i s))
    ⟨g, List.replicate states.length (List.replicate g.nterminals .none), List.replicate states.length (List.replicate (g.nsymbols - g.nterminals) (-1))⟩

end OmegaH
