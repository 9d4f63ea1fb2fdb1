import Verif.Spec.StrMem

/-! # Argument lists: the quoting rules of `arg_argify`

The rules documented above `arg_argify` (maa/arg.c:197-202) as a grammar; nothing here refers to the
automaton of the implementation. -/

namespace Maa.Spec

/-- Which characters are special. -/
structure Style where
  /-- backslash escapes (bit 1 of the style is clear) -/
  escape : Bool
  /-- quotes quote (bit 2 of the style is clear) -/
  quote : Bool

/-- blank, tab, carriage return, vertical tab, newline -/
def isBlank (b : Byte) : Bool := [32, 9, 13, 11, 10].contains b

/-- `"` and `'` -/
def isQuote (b : Byte) : Bool := b == 34 || b == 39

/-- A part of an argument. -/
inductive Part where
  | plain (c : Byte)
  | escaped (c : Byte)
  | quoted (d : Byte) (body : List Byte)

/-- How a part is written. -/
def Part.src : Part → List Byte
  | .plain c => [c]
  | .escaped c => [92, c]
  | .quoted d body => d :: body ++ [d]

/-- What a part stands for. -/
def Part.val : Part → List Byte
  | .plain c => [c]
  | .escaped c => [c]
  | .quoted _ body => body

/-- Parts that may be written in a style: a plain character is not blank and not special; an escaped
character is any; between quotes is anything but that quote.  No part contains NUL. -/
def Part.Ok (st : Style) : Part → Prop
  | .plain c => c ≠ 0 ∧ isBlank c = false ∧ (st.quote = true → isQuote c = false) ∧ (st.escape = true → c ≠ 92)
  | .escaped c => c ≠ 0 ∧ st.escape = true
  | .quoted d body => st.quote = true ∧ isQuote d = true ∧ d ∉ body ∧ 0 ∉ body

def srcs (ps : List Part) : List Byte := ps.flatMap Part.src
def vals (ps : List Part) : List Byte := ps.flatMap Part.val

/-- `Splits st text items`: by the rules, `text` consists of `items`.  Blanks separate; an argument is one or
more parts written side by side; a backslash at the very end and a quote that is never closed keep what was
read so far. -/
inductive Splits (st : Style) : List Byte → List (List Byte) → Prop
  | nil : Splits st [] []
  | blank (b : Byte) (t : List Byte) (items : List (List Byte)) : isBlank b = true → Splits st t items →
      Splits st (b :: t) items
  | word (ps : List Part) (t : List Byte) (items : List (List Byte)) : ps ≠ [] → (∀ p ∈ ps, p.Ok st) →
      (∀ b, t.head? = some b → isBlank b = true) → Splits st t items → Splits st (srcs ps ++ t) (vals ps :: items)
  | openEscape (ps : List Part) : (∀ p ∈ ps, p.Ok st) → st.escape = true → Splits st (srcs ps ++ [92]) [vals ps]
  | openQuote (ps : List Part) (d : Byte) (body : List Byte) : (∀ p ∈ ps, p.Ok st) → st.quote = true →
      isQuote d = true → d ∉ body → 0 ∉ body → Splits st (srcs ps ++ d :: body) [vals ps ++ body]

/-- One way of quoting an argument: a backslash before every character, `""` for the empty one. -/
def quoteArg (w : List Byte) : List Byte := if w = [] then [34, 34] else w.flatMap fun c => [92, c]

/-- Quoted arguments separated by one blank. -/
def quoteLine : List (List Byte) → List Byte
  | [] => []
  | [w] => quoteArg w
  | w :: ws => quoteArg w ++ 32 :: quoteLine ws

end Maa.Spec
