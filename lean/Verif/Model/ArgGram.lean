import Verif.Spec.ArgGram
import Verif.Model.Arg

/-! # Model of maa/arggram2c and of the code built from its output

The awk program that turns maa/arggram.txt into maa/arggram.c, and `arg_argify` as it is compiled with the generated
`#define`s and arrays (Model/Arg has the automaton with its states as an inductive type).  Simplifications: the generated text is
not written out and parsed again (the result is the `#define`s and the two arrays); words are compared with `0` as
strings, so that words that look like numbers with a sign or a leading dot are not treated as awk treats them. -/

namespace Maa.ArgGram

open Spec.ArgGram (Word word)
open StrMem (Mem)
open Arg (ArgList CT Act)

/-- `sub(/[#].*$/, "")`, maa/arggram2c:14-16. -/
def stripComment (line : Word) : Word := line.takeWhile (· ≠ 35)

/-- awk's splitting of a record into fields (`FS` is not set in maa/arggram2c). -/
def fieldsGo : Word → Word → List Word
  | cur, [] => if cur = [] then [] else [cur.reverse]
  | cur, c :: t =>
    if c = 32 ∨ c = 9 ∨ c = 10 then (if cur = [] then fieldsGo [] t else cur.reverse :: fieldsGo [] t)
    else fieldsGo (c :: cur) t

/-- awk's fields of a record (maa/arggram2c:14-16, `$0` is split again after `sub`). -/
def fields (line : Word) : List Word := fieldsGo [] line

/-- awk's splitting of the input into records (`RS` is not set in maa/arggram2c). -/
def recordsGo : Word → Word → List Word
  | cur, [] => [cur.reverse]
  | cur, c :: t => if c = 10 then cur.reverse :: recordsGo [] t else recordsGo (c :: cur) t

def records (text : Word) : List Word := recordsGo [] text

/-- awk's `sub(/re/, repl, target)` for a regular expression without special characters, as in maa/arggram2c:23-24. -/
def subFirst (re repl : Word) : Word → Word
  | [] => if re = [] then repl else []
  | c :: t => if re.isPrefixOf (c :: t) then repl ++ (c :: t).drop re.length else c :: subFirst re repl t

/-- `x >= 0` for a field that does not look like a number, maa/arggram2c:28, 49: it is compared with the string `0`; a field that is
not there compares equal to 0. -/
def ge0 : Word → Bool
  | [] => true
  | c :: _ => 48 ≤ c

/-- A value of awk: a number or a string. -/
inductive Val where
  | num (n : Nat)
  | str (w : Word)
  deriving DecidableEq, Repr

/-- The variables of maa/arggram2c: `current_state` is the number of pairs in `states`, and so on (each counter is incremented
exactly when a pair is added). -/
structure Vars where
  states : List (Word × Nat) := []
  chartypes : List (Word × Nat) := []
  actions : List (Word × Nat) := []
  act : List ((Val × Nat) × Nat) := []
  trans : List ((Val × Nat) × Val) := []

/-- `$i in tab` and `tab[$i]`. -/
def find {α β : Type} [DecidableEq α] (tab : List (α × β)) (k : α) : Option β := (tab.find? fun p => p.1 = k).map (·.2)

/-- maa/arggram2c:33-45: the number of a word, a new one if it has none yet. -/
def number (tab : List (Word × Nat)) (w : Word) : List (Word × Nat) × Nat :=
  match find tab w with
  | some n => (tab, n)
  | none => ((w, tab.length) :: tab, tab.length)

/-- maa/arggram2c:26-31, 47-52: the same for states, where a word that is less than `0` stays as it is. -/
def numberState (tab : List (Word × Nat)) (w : Word) : List (Word × Nat) × Val :=
  match find tab w with
  | some n => (tab, .num n)
  | none => if ge0 w then ((w, tab.length) :: tab, .num tab.length) else (tab, .str w)

/-- The rule for records with fields, maa/arggram2c:22-56. -/
def record (v : Vars) (f1 f2 f3 f4 : Word) : Vars :=
  let f4 := subFirst (word "EXIT") (word "-1") f4
  let f4 := subFirst (word "ERROR") (word "-2") f4
  let r1 := numberState v.states f1
  let r2 := number v.chartypes f2
  let r3 := number v.actions f3
  let r4 := numberState r1.1 f4
  { states := r4.1, chartypes := r2.1, actions := r3.1,
    act := ((r1.2, r2.2), r3.2) :: v.act, trans := ((r1.2, r2.2), r4.2) :: v.trans }

/-- All the rules for one record, maa/arggram2c:14-56. -/
def oneRecord (v : Vars) (line : Word) : Vars :=
  let fs := fields (stripComment line)
  if fs.length = 0 then v else record v (fs.getD 0 []) (fs.getD 1 []) (fs.getD 2 []) (fs.getD 3 [])

/-- The value of leading digits. -/
def digits (acc : Nat) : Word → Nat
  | [] => acc
  | c :: t => if 48 ≤ c ∧ c ≤ 57 then digits (acc * 10 + (c.toNat - 48)) t else acc

/-- `%i` of a value, maa/arggram2c:91, 111: a string counts as the number it starts with. -/
def toInt : Val → Int
  | .num n => n
  | .str (45 :: t) => - (digits 0 t : Int)
  | .str t => digits 0 t

/-- What is generated: the `#define`s (`CHARTYPES_COUNT` and `ACTIONS_COUNT` are the numbers of those) and the arrays. -/
structure Gen where
  chartypes : List (Word × Nat)
  actions : List (Word × Nat)
  action : List (List Int)
  transition : List (List Int)
  deriving DecidableEq

/-- The `END` rules, maa/arggram2c:58-117; an element that is not there prints as 0. -/
def finishGen (v : Vars) : Gen :=
  { chartypes := v.chartypes, actions := v.actions
    action := (List.range v.states.length).map fun i => (List.range v.chartypes.length).map fun j =>
      ((find v.act (.num i, j)).getD 0 : Nat)
    transition := (List.range v.states.length).map fun i => (List.range v.chartypes.length).map fun j =>
      ((find v.trans (.num i, j)).map toInt).getD 0 }

/-- maa/arggram2c:1-117 on a whole file. -/
def arggram2c (text : Word) : Gen := finishGen ((records text).foldl oneRecord {})

/-- The constants and arrays `arg_argify` is compiled with. -/
structure Prog where
  dq : Nat
  sq : Nat
  other : Nat
  bs : Nat
  null : Nat
  space : Nat
  skip : Nat
  incl : Nat
  finish : Nat
  action : List (List Int)
  transition : List (List Int)
  deriving DecidableEq

/-- Compiling maa/arg.c:204-308 with the generated file: the two `#error` checks (maa/arg.c:206-212), and every constant used
must be defined. -/
def build (g : Gen) : Option Prog :=
  if g.actions.length ≠ 3 then none else
  if g.chartypes.length ≠ 6 then none else
  (find g.chartypes (word "DQ")).bind fun dq => (find g.chartypes (word "SQ")).bind fun sq =>
  (find g.chartypes (word "OTHER")).bind fun other => (find g.chartypes (word "BS")).bind fun bs =>
  (find g.chartypes (word "NULL")).bind fun null => (find g.chartypes (word "SPACE")).bind fun space =>
  (find g.actions (word "SKIP")).bind fun skip => (find g.actions (word "INCLUDE")).bind fun incl =>
  (find g.actions (word "FINISH")).bind fun finish =>
    some (Prog.mk dq sq other bs null space skip incl finish g.action g.transition)

/-- `char2char_type`, maa/arg.c:213-242. -/
def char2charType (p : Prog) (quoteStyle : Nat) (ch : Byte) : Nat :=
  if ch = 34 then (if quoteStyle.testBit 1 then p.other else p.dq)
  else if ch = 39 then (if quoteStyle.testBit 1 then p.other else p.sq)
  else if ch = 92 then (if quoteStyle.testBit 0 then p.other else p.bs)
  else if ch = 32 ∨ ch = 9 ∨ ch = 13 ∨ ch = 11 ∨ ch = 10 then p.space
  else if ch = 0 then p.null
  else p.other

/-- `tab [i] [j]`: undefined outside the array. -/
def index (tab : List (List Int)) (i : Int) (j : Nat) : Res Int :=
  if i < 0 then .ub else
  match tab[i.toNat]? with
  | none => .ub
  | some row =>
    match row[j]? with
    | none => .ub
    | some x => .ok x

/-- The `switch (curr_act)` of `arg_argify`, maa/arg.c:266-290 (the cases are in Model/Arg); `abort` in the default case. -/
def switchAct (p : Prog) (string : List Byte) (pt : Nat) (last : Option Nat) (σ : Mem × ArgList) (a : Int) :
    Res (Option Nat × (Mem × ArgList)) :=
  if a = p.incl then Arg.act string pt last σ .incl
  else if a = p.skip then Arg.act string pt last σ .skip
  else if a = p.finish then Arg.act string pt last σ .finish
  else .abort

/-- The loop of `arg_argify` and the check after it, maa/arg.c:256-305. -/
def loop (p : Prog) (quoteStyle : Nat) (string : List Byte) : List Byte → Nat → Int → Option Nat → Mem × ArgList → Res (Mem × ArgList)
  | [], _, _, _, _ => .ub
  | ch :: rest, pt, state, last, σ =>
    let ct := char2charType p quoteStyle ch
    (index p.action state ct).bind fun a => (index p.transition state ct).bind fun state' =>
    (switchAct p string pt last σ a).bind fun r =>
      if ch ≠ 0 ∧ state' ≥ 0 then loop p quoteStyle string rest (pt + 1) state' r.1 r.2
      else if state' = -1 then .ok r.2 else if state' = -2 then .ok r.2 else .abort

/-- `arg_argify`, maa/arg.c:245-308. -/
def argify (p : Prog) (h : Mem) (string : List Byte) (quoteStyle : Nat) : Res (Mem × ArgList) :=
  loop p quoteStyle string string 0 0 none (h, Arg.create)

end Maa.ArgGram
