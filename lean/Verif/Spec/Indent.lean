import Verif.Model.Indent

/-! # Specification of blocks by indentation -/

namespace OmegaH.Spec

/-- The width of line `i`, which is one of the lines. -/
def widthAt (widths : List Nat) (i : Nat) : Nat := widths.getD i 0

/-- Line `i` opens a block if it is indented further than the line before it, and the block is still open if no line from there on is indented less than it. Line 0
stands for the start of the text. -/
def blockOpen (widths : List Nat) (i : Nat) : Bool :=
  decide (0 < i) && decide (widthAt widths (i - 1) < widthAt widths i) && (widths.drop i).all (fun w => decide (widthAt widths i ≤ w))

/-- The lines whose blocks are open after the last line. -/
def openBlocks (widths : List Nat) : List Nat := (List.range widths.length).filter (blockOpen widths)

/-- What follows the newline before a line of width `v`: the start of a block if it is indented further than the line before it, else the ends of the open blocks of
lines indented further than it. -/
def blockTokens (info : IndentInfo) (widths : List Nat) (v : Nat) : List Nat :=
  if widthAt widths (widths.length - 1) < v then [info.indent]
  else List.replicate ((openBlocks widths).countP (fun i => decide (v < widthAt widths i))) info.dedent

/-- `text` ends with the line start `ind`. -/
def LineStart (text ind : List Nat) : Prop := ∃ before, text = before ++ 10 :: ind ∧ 10 ∉ ind

/-- The tokens `out` for the parser, from those of the lexer, after lines of the given widths, and the widths at the end. -/
inductive Layout (info : IndentInfo) : List Nat → List (Nat × List Nat) → List Nat → List Nat → Prop
  | done (ws : List Nat) : Layout info ws [] [] ws
  | token {ws ws' out : List Nat} {t : Nat} {text : List Nat} {toks : List (Nat × List Nat)} : t ≠ info.newline → Layout info ws toks out ws' →
      Layout info ws ((t, text) :: toks) (t :: out) ws'
  | newline {ws ws' out text ind : List Nat} {toks : List (Nat × List Nat)} : LineStart text ind → Layout info (ws ++ [ind.length]) toks out ws' →
      Layout info ws ((info.newline, text) :: toks) (info.newline :: blockTokens info ws ind.length ++ out) ws'

/-- Of the line starts of any two successive lines, one begins with the other: tabs and spaces are not mixed. -/
inductive Consistent (info : IndentInfo) : List Nat → List (Nat × List Nat) → Prop
  | done (prev : List Nat) : Consistent info prev []
  | token {prev text : List Nat} {t : Nat} {toks : List (Nat × List Nat)} : t ≠ info.newline → Consistent info prev toks → Consistent info prev ((t, text) :: toks)
  | newline {prev text ind : List Nat} {toks : List (Nat × List Nat)} : LineStart text ind → (prev <+: ind ∨ ind <+: prev) → Consistent info ind toks →
      Consistent info prev ((info.newline, text) :: toks)

/-- The depth of nesting after the tokens, starting from a depth; none if it would become negative. -/
def nesting (info : IndentInfo) : Nat → List Nat → Option Nat
  | d, [] => some d
  | d, t :: ts =>
    if t = info.indent then nesting info (d + 1) ts
    else if t = info.dedent then (match d with
      | 0 => none
      | d + 1 => nesting info d ts)
    else nesting info d ts

end OmegaH.Spec
