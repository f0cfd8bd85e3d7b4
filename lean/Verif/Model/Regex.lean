import Verif.Model.Automaton

/-! # Regular expressions: src/Omega_h_chartab.cpp, src/Omega_h_regex.cpp, src/Omega_h_finite_automaton.cpp:384-470 -/

namespace OmegaH

/-- src/Omega_h_chartab.cpp:8-17. -/
def chartab : List Int :=
  [-1, -1, -1, -1, -1, -1, -1, -1, -1, 0, 1, -1, -1, 2, -1, -1, -1, -1, -1, -1, -1, -1, -1, -1, -1, -1, -1, -1, -1,
   -1, -1, -1, 3, 66, 67, 68, 69, 70, 71, 72, 73, 74, 75, 76, 77, 78, 79, 80,
   56, 57, 58, 59, 60, 61, 62, 63, 64, 65, 81, 82, 83, 84, 85, 86, 87, 30, 31,
   32, 33, 34, 35, 36, 37, 38, 39, 40, 41, 42, 43, 44, 45, 46, 47, 48, 49, 50,
   51, 52, 53, 54, 55, 88, 89, 90, 91, 92, 93, 4, 5, 6, 7, 8, 9, 10, 11, 12,
   13, 14, 15, 16, 17, 18, 19, 20, 21, 22, 23, 24, 25, 26, 27, 28, 29, 94, 95,
   96, 97, -1]

/-- src/Omega_h_chartab.cpp:19-25, as character codes. -/
def invChartab : List Nat :=
  ['\t', '\n', '\r', ' ', 'a', 'b', 'c', 'd', 'e', 'f', 'g', 'h', 'i', 'j', 'k', 'l', 'm', 'n', 'o', 'p', 'q', 'r', 's',
   't', 'u', 'v', 'w', 'x', 'y', 'z', 'A', 'B', 'C', 'D', 'E', 'F', 'G', 'H',
   'I', 'J', 'K', 'L', 'M', 'N', 'O', 'P', 'Q', 'R', 'S', 'T', 'U', 'V', 'W',
   'X', 'Y', 'Z', '0', '1', '2', '3', '4', '5', '6', '7', '8', '9', '!', '"',
   '#', '$', '%', '&', '\'', '(', ')', '*', '+', ',', '-', '.', '/', ':', ';',
   '<', '=', '>', '?', '@', '[', '\\', ']', '^', '_', '`', '{', '|', '}', '~'].map Char.toNat

/-- `NCHARS`: src/Omega_h_chartab.hpp:9. -/
def nchars : Nat := 98

/-- `is_symbol`, for the codes of nonnegative characters: src/Omega_h_finite_automaton.cpp:394-413. Negative ones are not symbols. -/
def isSymbol (c : Nat) : Bool :=
  match chartab[c]? with
  | some v => decide (0 ≤ v)
  | none => false

/-- `get_symbol`; a failed check is `none`: src/Omega_h_finite_automaton.cpp:415-437. -/
def getSymbol (c : Nat) : Option Nat := (chartab[c]?).bind (fun v => if 0 ≤ v then some v.toNat else none)

/-- `get_char`: src/Omega_h_finite_automaton.cpp:439-443. -/
def getChar (symbol : Nat) : Option Nat := invChartab[symbol]?

/-- `std::set<int>::insert`; a set is the list of its elements in the order of iteration. -/
def setInsert (x : Nat) : List Nat → List Nat
  | [] => [x]
  | y :: l => if x < y then x :: y :: l else if x = y then y :: l else y :: setInsert x l

/-- `make_char_set_nfa`: src/Omega_h_finite_automaton.cpp:445-449. -/
def faCharSet (accepted : List Nat) (token : Int) : Option FA :=
  (accepted.foldlM (fun syms c => (getSymbol c).map (fun s => setInsert s syms)) []).bind (fun syms => faSet nchars syms token)

/-- `make_char_single_nfa`: src/Omega_h_finite_automaton.cpp:457-460. -/
def faCharSingle (c : Nat) (token : Int) : Option FA := (getSymbol c).bind (fun s => faRange nchars s s token)

/-- `negate_set`: src/Omega_h_finite_automaton.cpp:462-470. -/
def negateSet (s : List Nat) : List Nat := invChartab.foldl (fun out c => if c ∈ s then out else setInsert c out) []

/-- The parse of one item of a set: `PROD_SET_ITEM_CHAR`, `PROD_RANGE`: src/Omega_h_regex.cpp:224-234. -/
inductive SetItem where
  | char (c : Nat)
  | range (lo hi : Nat)
deriving DecidableEq, Repr

/-- Characters of an item. The loop of `PROD_RANGE` runs over `char`s up to `hi`, which a lexer of symbols leaves below 127. -/
def SetItem.chars : SetItem → List Nat
  | .char c => [c]
  | .range lo hi => (List.range' lo (hi + 1 - lo)).foldl (fun s c => setInsert c s) []

/-- `PROD_SET_ITEMS_DECAY`, `PROD_SET_ITEMS_ADD`: src/Omega_h_regex.cpp:181, 221-223. -/
def itemsChars (items : List SetItem) : List Nat :=
  items.foldl (fun s item => item.chars.foldl (fun s c => setInsert c s) s) []

/-- Parse trees of the grammar of regular expressions, without the productions that only pass a value on:
src/Omega_h_regex.cpp:27-48. `set true` is a negative set. -/
inductive Regex where
  | char (c : Nat)
  | any
  | set (negative : Bool) (items : List SetItem)
  | union (a b : Regex)
  | concat (a b : Regex)
  | star (a : Regex)
  | plus (a : Regex)
  | maybe (a : Regex)
deriving DecidableEq, Repr

/-- `regex::Reader::at_reduce` over a parse tree, up to the production of the whole expression: src/Omega_h_regex.cpp:173-237. -/
def Regex.compile (token : Int) : Regex → Option FA
  | .char c => faCharSingle c token
  | .any => faRange nchars 0 (nchars - 1) token
  | .set negative items => faCharSet (if negative then negateSet (itemsChars items) else itemsChars items) token
  | .union a b => (a.compile token).bind (fun x => (b.compile token).bind (fun y => faUnite x y))
  | .concat a b => (a.compile token).bind (fun x => (b.compile token).bind (fun y => faConcat x y token))
  | .star a => (a.compile token).bind (fun x => faStar x token)
  | .plus a => (a.compile token).bind (fun x => faPlus x token)
  | .maybe a => (a.compile token).bind (fun x => faMaybe x token)

end OmegaH
