import Verif.Model.Regex

/-!
# Determinisation and simplification of automata: src/Omega_h_finite_automaton.cpp:223-382, src/Omega_h_language.cpp:92-105

`none` is a failed `OMEGA_H_CHECK`; loops whose end is not visible in the code take a number of rounds, and `none` is also running out of them.
The theorems show that they do not.
-/

namespace OmegaH

/-- `step` of a set of states: src/Omega_h_finite_automaton.cpp:225-233. Entries other than -1 are states. -/
def stepSet (fa : FA) (ss : List Nat) (symbol : Nat) : Option (List Nat) :=
  ss.foldlM (fun out s => (faStep fa s symbol).map (fun t => if t ≠ -1 then setInsert t.toNat out else out)) []

/-- One pass of the inner loop of `get_epsilon_closure` over the queue and the set: src/Omega_h_finite_automaton.cpp:245-252. -/
def closureEdge (fa : FA) (state epsilon : Nat) (st : List Nat × List Nat) : Option (List Nat × List Nat) :=
  (faStep fa state epsilon).map (fun t =>
    if t = -1 then st else if t.toNat ∈ st.2 then st else (st.1 ++ [t.toNat], setInsert t.toNat st.2))

/-- The loop of `get_epsilon_closure`: src/Omega_h_finite_automaton.cpp:242-253. -/
def closureLoop (fa : FA) : Nat → List Nat → List Nat → Option (List Nat)
  | _, [], ss => some ss
  | 0, _ :: _, _ => none
  | fuel + 1, s :: q, ss => (closureEdge fa s fa.nsym (q, ss)).bind (fun st =>
      (closureEdge fa s (fa.nsym + 1) st).bind (fun st => closureLoop fa fuel st.1 st.2))

/-- `get_epsilon_closure`: src/Omega_h_finite_automaton.cpp:237-255. -/
def epsClosure (fa : FA) (ss : List Nat) : Option (List Nat) := closureLoop fa fa.nstates ss ss

/-- The body of the loop over symbols of `make_deterministic`. State `i` of the new automaton is the `i`th set of the list, so that the map
from sets to states, which is ordered by the contents of the sets, is the first position of a set in the list:
src/Omega_h_finite_automaton.cpp:289-303. -/
def detSymbol (nfa : FA) (state : Nat) (ss : List Nat) (st : List (List Nat) × FA) (symbol : Nat) : Option (List (List Nat) × FA) :=
  (stepSet nfa ss symbol).bind (fun next =>
    if next = [] then some st
    else (epsClosure nfa next).bind (fun next =>
      match st.1.idxOf? next with
      | none => (faAddState st.2).bind (fun out =>
          (faAddTransition out state symbol st.2.nstates).map (fun out => (st.1 ++ [next], out)))
      | some j => (faAddTransition st.2 state symbol j).map (fun out => (st.1, out))))

/-- The lowest token of the states of a set: src/Omega_h_finite_automaton.cpp:304-311. -/
def minAccepted (nfa : FA) (ss : List Nat) : Option Int :=
  ss.foldlM (fun m s => (faAccepts nfa s).map (fun token => if token = -1 then m else if m = -1 ∨ token < m then token else m)) (-1)

/-- The outer loop of `make_deterministic`: src/Omega_h_finite_automaton.cpp:285-313. -/
def detLoop (nfa : FA) : Nat → Nat → List (List Nat) → FA → Option FA
  | fuel, front, ssv, out =>
    match ssv[front]?, fuel with
    | none, _ => some out
    | some _, 0 => none
    | some ss, fuel + 1 =>
      ((List.range nfa.nsym).foldlM (detSymbol nfa front ss) (ssv, out)).bind (fun st =>
        (minAccepted nfa ss).bind (fun token =>
          (if token ≠ -1 then faAddAccept st.2 front token else some st.2).bind (fun out => detLoop nfa fuel (front + 1) st.1 out)))

/-- `make_deterministic`: src/Omega_h_finite_automaton.cpp:273-315. -/
def faDeterministic (fuel : Nat) (nfa : FA) : Option FA :=
  if nfa.det then some nfa
  else (epsClosure nfa [0]).bind (fun start => (faAddState (faEmpty nfa.nsym true)).bind (fun out => detLoop nfa fuel 0 [start] out))

/-- What `StateRowLess` compares: src/Omega_h_finite_automaton.cpp:317-331. -/
def rowKey (fa : FA) (s : Nat) : Option (Int × List Int) := (fa.accepted[s]?).bind (fun t => (fa.table[s]?).map (fun row => (t, row)))

/-- The distinct keys of the states in order of their first appearance; the simple state of a state is the position of its key:
src/Omega_h_finite_automaton.cpp:336-343. -/
def simpleKeys (fa : FA) : Option (List (Int × List Int)) :=
  (List.range fa.nstates).foldlM (fun ks s => (rowKey fa s).map (fun k => if k ∈ ks then ks else ks ++ [k])) []

/-- `sr2ss[state]`. -/
def simpleOf (fa : FA) (ks : List (Int × List Int)) (s : Nat) : Option Nat := (rowKey fa s).bind (fun k => ks.idxOf? k)

/-- The copy of one state: src/Omega_h_finite_automaton.cpp:353-363. -/
def simplifyState (fa : FA) (ks : List (Int × List Int)) (s simple : Nat) (out : FA) : Option FA :=
  ((List.range fa.ncols).foldlM (fun out c => (faStep fa s c).bind (fun t =>
    if t = -1 then some out else (simpleOf fa ks t.toNat).bind (fun j => faAddTransition out simple c j))) out).bind (fun out =>
      (faAccepts fa s).bind (fun token => if token ≠ -1 then faAddAccept out simple token else some out))

/-- `simplify_once`: src/Omega_h_finite_automaton.cpp:335-367. -/
def faSimplifyOnce (fa : FA) : Option FA :=
  (simpleKeys fa).bind (fun ks =>
    ((List.range ks.length).foldlM (fun out _ => faAddState out) (faEmpty fa.nsym fa.det)).bind (fun out =>
      ((List.range fa.nstates).foldlM (fun (st : FA × List Bool) s => (simpleOf fa ks s).bind (fun simple =>
        (st.2[simple]?).bind (fun did =>
          if did then some st else (simplifyState fa ks s simple st.1).map (fun out => (out, st.2.set simple true)))))
        (out, List.replicate ks.length false)).map (fun st => st.1)))

/-- `simplify`: src/Omega_h_finite_automaton.cpp:369-382. -/
def faSimplify : Nat → FA → Option FA
  | 0, _ => none
  | fuel + 1, fa => (faSimplifyOnce fa).bind (fun out => if out.nstates < fa.nstates then faSimplify fuel out else some out)

/-- `regex::build_dfa` from the parse tree of the expression: src/Omega_h_regex.cpp:174-176. -/
def Regex.buildDfa (fuel : Nat) (token : Int) (r : Regex) : Option FA :=
  (r.compile token).bind (fun nfa => (faDeterministic fuel nfa).bind (faSimplify fuel))

/-- `none` before the first token: src/Omega_h_language.cpp:97-101. -/
def addToLexer (lexer : Option FA) (dfa : FA) : Option (Option FA) :=
  match lexer with
  | none => some (some dfa)
  | some lexer => (faUnite lexer dfa).map some

/-- `build_lexer`; without tokens the automaton is not initialised, `none` here: src/Omega_h_language.cpp:92-105. -/
def buildLexer (fuel : Nat) (tokens : List Regex) : Option FA :=
  ((List.range tokens.length).foldlM (fun (lexer : Option FA) i => (tokens[i]?).bind (fun r => (r.buildDfa fuel (i : Int)).bind (addToLexer lexer))) none).bind (fun lexer => lexer.bind (fun lexer =>
      (faDeterministic fuel lexer).bind (faSimplify fuel)))

end OmegaH
