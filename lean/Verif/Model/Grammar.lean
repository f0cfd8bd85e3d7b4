/-!
# Grammars: src/Omega_h_grammar.cpp
-/

namespace OmegaH

/-- `Grammar` without the names of the symbols. Terminals are numbered first; a production is its left-hand side and its right-hand side:
src/Omega_h_grammar.hpp:13-25. -/
structure Grammar where
  nsymbols : Nat
  nterminals : Nat
  prods : List (Nat × List Nat)
deriving DecidableEq, Repr

/-- `is_terminal`. The symbols it is asked about are checked to be in range before: src/Omega_h_grammar.cpp:13-17. -/
def Grammar.isTerminal (g : Grammar) (s : Nat) : Bool := decide (s < g.nterminals)

end OmegaH
