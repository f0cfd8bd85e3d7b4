/-!
# Finite automata with two empty symbols: src/Omega_h_finite_automaton.cpp

Every failure in this file is a failed `OMEGA_H_CHECK`: `none`. States and symbols are nonnegative `int`s, `Nat` here; entries of the table
and of the accepted tokens are `Int`, because -1 stands for "none". The row-major `Table<int>` (src/Omega_h_table.hpp:10-60) is a list of rows.
-/

namespace OmegaH

/-- `FiniteAutomaton`: src/Omega_h_finite_automaton.hpp:20-46. `nsym` is `get_nsymbols`, the number of columns without the two empty
symbols that a nondeterministic automaton has. -/
structure FA where
  nsym : Nat
  det : Bool
  table : List (List Int)
  accepted : List Int
deriving DecidableEq, Repr

/-- `get_ncols(fa.table)`: src/Omega_h_finite_automaton.cpp:15-19, 83. -/
def FA.ncols (fa : FA) : Nat := fa.nsym + if fa.det then 0 else 2

/-- `get_nstates`: src/Omega_h_finite_automaton.cpp:22. -/
def FA.nstates (fa : FA) : Nat := fa.table.length

/-- `at(fa.table, state, symbol)`: src/Omega_h_table.hpp:42-58. -/
def FA.cell (fa : FA) (state symbol : Nat) : Option Int := (fa.table[state]?).bind (fun row => row[symbol]?)

/-- A new automaton without states: src/Omega_h_finite_automaton.cpp:15-20. -/
def faEmpty (nsym : Nat) (det : Bool) : FA := ⟨nsym, det, [], []⟩

/-- `add_state`; the new state is the old number of states. `get_nrows` checks that there are columns:
src/Omega_h_finite_automaton.cpp:42-50, src/Omega_h_table.hpp:23-28. -/
def faAddState (fa : FA) : Option FA :=
  if 0 < fa.ncols then some { fa with table := fa.table ++ [List.replicate fa.ncols (-1)], accepted := fa.accepted ++ [-1] } else none

/-- `add_transition`: src/Omega_h_finite_automaton.cpp:52-61. -/
def faAddTransition (fa : FA) (fromState symbol toState : Nat) : Option FA :=
  if toState < fa.nstates ∧ symbol < fa.ncols then
    (fa.table[fromState]?).bind (fun row => (row[symbol]?).bind (fun old =>
      if old = -1 then some { fa with table := fa.table.set fromState (row.set symbol (toState : Int)) } else none))
  else none

/-- `add_accept`: src/Omega_h_finite_automaton.cpp:63-66. -/
def faAddAccept (fa : FA) (state : Nat) (token : Int) : Option FA :=
  if 0 ≤ token ∧ state < fa.accepted.length then some { fa with accepted := fa.accepted.set state token } else none

/-- `remove_accept`: src/Omega_h_finite_automaton.cpp:68-70. -/
def faRemoveAccept (fa : FA) (state : Nat) : Option FA :=
  if state < fa.accepted.length then some { fa with accepted := fa.accepted.set state (-1) } else none

/-- `step`: src/Omega_h_finite_automaton.cpp:72-79. -/
def faStep (fa : FA) (state symbol : Nat) : Option Int := fa.cell state symbol

/-- `accepts`: src/Omega_h_finite_automaton.cpp:81-83. -/
def faAccepts (fa : FA) (state : Nat) : Option Int := fa.accepted[state]?

/-- `append_states`: src/Omega_h_finite_automaton.cpp:87-107. -/
def faAppend (fa other : FA) : Option FA :=
  if other.nsym ≠ fa.nsym then none
  else if other.det = false ∧ fa.det = true then none
  else
    ((List.range other.nstates).foldlM (fun out s =>
      (faAddState out).bind (fun out' => (faAccepts other s).bind (fun token =>
        if 0 ≤ token then faAddAccept out' out.nstates token else some out'))) fa).bind (fun out =>
    (List.range other.nstates).foldlM (fun out s => (List.range other.ncols).foldlM (fun out c =>
      (faStep other s c).bind (fun t =>
        if t < 0 then some out else faAddTransition out (s + fa.nstates) c (t.toNat + fa.nstates))) out) out)

/-- `make_set_nfa`; a `std::set` is iterated in ascending order: src/Omega_h_finite_automaton.cpp:114-124. -/
def faSet (nsym : Nat) (accepted : List Nat) (token : Int) : Option FA :=
  (faAddState (faEmpty nsym true)).bind (fun out => (faAddState out).bind (fun out =>
    (accepted.foldlM (fun out i => faAddTransition out 0 i 1) out).bind (fun out => faAddAccept out 1 token)))

/-- `make_range_nfa`, and `make_single_nfa` with equal ends: src/Omega_h_finite_automaton.cpp:109-112, 126-140. -/
def faRange (nsym rangeStart rangeEnd : Nat) (token : Int) : Option FA :=
  if rangeStart ≤ rangeEnd ∧ rangeEnd ≤ nsym then
    (faAddState (faEmpty nsym true)).bind (fun out => (faAddState out).bind (fun out =>
      ((List.range' rangeStart (rangeEnd + 1 - rangeStart)).foldlM (fun out i => faAddTransition out 0 i 1) out).bind (fun out =>
        faAddAccept out 1 token)))
  else none

/-- `unite`: src/Omega_h_finite_automaton.cpp:142-156. The empty symbols are the last two columns: cpp:32-40. -/
def faUnite (a b : FA) : Option FA :=
  (faAddState (faEmpty a.nsym false)).bind (fun out => (faAppend out a).bind (fun outA => (faAppend outA b).bind (fun out' =>
    (faAddTransition out' 0 a.nsym out.nstates).bind (fun out'' => faAddTransition out'' 0 (a.nsym + 1) outA.nstates))))

/-- `concat`: src/Omega_h_finite_automaton.cpp:158-179. -/
def faConcat (a b : FA) (token : Int) : Option FA :=
  (faAppend (faEmpty a.nsym false) a).bind (fun outA => (faAppend outA b).bind (fun out =>
    ((List.range a.nstates).foldlM (fun out i => (faAccepts a i).bind (fun t =>
      if t ≠ -1 then (faAddTransition out i a.nsym outA.nstates).bind (fun out => faRemoveAccept out i) else some out)) out).bind (fun out =>
    (List.range b.nstates).foldlM (fun out i => (faAccepts b i).bind (fun t =>
      if t ≠ -1 then faAddAccept out (i + outA.nstates) token else some out)) out)))

/-- `plus`: src/Omega_h_finite_automaton.cpp:181-199. -/
def faPlus (a : FA) (token : Int) : Option FA :=
  (faAppend (faEmpty a.nsym false) a).bind (fun outA => (faAddState outA).bind (fun out =>
    (faAddAccept out outA.nstates token).bind (fun out =>
      (List.range a.nstates).foldlM (fun out i => (faAccepts a i).bind (fun t =>
        if t ≠ -1 then
          (faAddTransition out i a.nsym outA.nstates).bind (fun out =>
            (faAddTransition out i (a.nsym + 1) 0).bind (fun out => faRemoveAccept out i))
        else some out)) out)))

/-- `maybe`: src/Omega_h_finite_automaton.cpp:201-224. The loop carries the automaton and the last state of the list. -/
def faMaybe (a : FA) (token : Int) : Option FA :=
  (faAddState (faEmpty a.nsym false)).bind (fun out0 => (faAppend out0 a).bind (fun outA => (faAddState outA).bind (fun out =>
    (faAddTransition out 0 (a.nsym + 1) out0.nstates).bind (fun out =>
      ((List.range a.nstates).foldlM (fun (st : FA × Nat) i => (faAccepts a i).bind (fun t =>
        if t ≠ -1 then
          (faAddTransition st.1 st.2 a.nsym (i + out0.nstates)).bind (fun out =>
            (faRemoveAccept out (i + out0.nstates)).map (fun out => (out, i + out0.nstates)))
        else some st)) (out, 0)).bind (fun st =>
      (faAddTransition st.1 st.2 a.nsym outA.nstates).bind (fun out => faAddAccept out outA.nstates token))))))

/-- `star`: src/Omega_h_finite_automaton.cpp:226-228. -/
def faStar (a : FA) (token : Int) : Option FA := (faPlus a token).bind (fun p => faMaybe p token)

end OmegaH
