import Verif.Spec.Source

/-! # Concrete symbols and the rewriting of parser messages -/

namespace Maa.Spec

/-- Calls on parse-concrete.c. -/
inductive PrsOp where
  | register (symbol concrete : List Byte)
  | concrete (symbol : Option (List Byte))
  | shutdown

/-- Names are C strings. -/
def PrsOp.Proper : PrsOp → Prop
  | .register s _ => (0 : Byte) ∉ s
  | .concrete (some s) => (0 : Byte) ∉ s
  | _ => True

/-- What is registered.  `inUse`: something has been registered since program start; `gone`: shut down after that. -/
structure Prs where
  inUse : Bool
  gone : Bool
  conc : List Byte → Option (List Byte)

/-- Program start. -/
def Prs.init : Prs := { inUse := false, gone := false, conc := fun _ => none }

/-- One call: a symbol keeps the form it was first registered with; after a shutdown of a table in use every call is
undefined. -/
def prsStep (π : Prs) (o : PrsOp) : Res (Prs × Option (List Byte)) :=
  if π.gone then .ub else
    match o with
    | .register s c =>
      .ok ({ π with inUse := true, conc := fun x => if x = s ∧ π.conc s = none then some c else π.conc x }, none)
    | .concrete none => if π.inUse then .abort else .ok (π, none)
    | .concrete (some s) => .ok (π, π.conc s)
    | .shutdown => .ok ({ π with gone := π.inUse }, none)

/-- The form a history gives to a symbol: that of its first registration. -/
def formAfter (hist : List PrsOp) (s : List Byte) : Option (List Byte) :=
  hist.findSome? fun
    | .register x c => if x = s then some c else none
    | _ => none

/-- The message begins with a character constant of yacc: two backquotes, a character, two quotes. -/
def BeginsConst (m : List Byte) : Prop := ∃ c rest, c ≠ 0 ∧ m = 96 :: 96 :: c :: 39 :: 39 :: rest

/-- The message begins with a backquote and `T_`. -/
def BeginsSymbol (m : List Byte) : Prop := ∃ rest, m = 96 :: 84 :: 95 :: rest

/-- `Rewritten conc m out`: the message `m` with the symbols replaced by their concrete forms and the character constants
cleaned up is `out`. -/
inductive Rewritten (conc : List Byte → Option (List Byte)) : List Byte → List Byte → Prop
  | nil : Rewritten conc [] []
  /-- two backquotes, `c`, two quotes: one of each remains -/
  | const (c : Byte) (m out : List Byte) : c ≠ 0 → Rewritten conc m out →
      Rewritten conc (96 :: 96 :: c :: 39 :: 39 :: m) (96 :: c :: 39 :: out)
  /-- the symbol `T_name` between backquote and quote: its concrete form, or itself if it has none -/
  | symbol (name m out : List Byte) : 39 ∉ name → Rewritten conc m out →
      Rewritten conc (96 :: 84 :: 95 :: name ++ 39 :: m) (96 :: (conc (84 :: 95 :: name)).getD (84 :: 95 :: name) ++ 39 :: out)
  /-- anything else is copied -/
  | other (c : Byte) (m out : List Byte) : ¬ BeginsConst (c :: m) → ¬ BeginsSymbol (c :: m) → Rewritten conc m out →
      Rewritten conc (c :: m) (c :: out)

/-- Every backquote followed by `T_` is followed, later, by a quote. -/
def Closed (m : List Byte) : Prop := ∀ pre post, m = pre ++ 96 :: 84 :: 95 :: post → 39 ∈ post

/-- Every symbol between backquote and quote in the message is shorter than 1024 characters. -/
def ShortNames (m : List Byte) : Prop :=
  ∀ pre name post, m = pre ++ 96 :: 84 :: 95 :: name ++ 39 :: post → 39 ∉ name → name.length + 2 < 1024

end Maa.Spec
