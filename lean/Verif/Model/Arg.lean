import Verif.Model.StrMem
import Verif.Spec.Arg

/-! # Model of maa/arg.c

The vector `argv` is a list of `argm` slots, `none` while not initialised; a write outside it and the use of
an uninitialised slot are undefined behaviour.  The struct itself is not in memory (simplification);
`_arg_check` always passes. -/

namespace Maa.Arg

open StrMem (Mem SInfo)

/-- `struct Arg`, maa/arg.c:35-43. -/
structure ArgList where
  argc : Nat
  argm : Nat
  argv : List (Option Nat)
  str : SInfo

/-- `arg_create`, maa/arg.c:61-75. -/
def create : ArgList := { argc := 0, argm := 2, argv := [some 0, none], str := StrMem.create }

/-- `arg_destroy`, maa/arg.c:80-91: the strings (the vector and the struct go with them). -/
def destroy (h : Mem) (a : ArgList) : Res Mem := StrMem.destroy h a.str

/-- A store `argv[i] = p`. -/
def store (v : List (Option Nat)) (i p : Nat) : Res (List (Option Nat)) :=
  if i < v.length then .ok (v.set i (some p)) else .ub

/-- The second half of `arg_add`, `arg_addn` and `arg_finish`, maa/arg.c:102-106, 121-125, 153-157: `xrealloc`
when nearly full, then two stores. -/
def append (a : ArgList) (new : Nat) : Res ArgList :=
  let a := if a.argm ≤ a.argc + 2 then
    { a with argm := a.argm * 2, argv := a.argv.take (a.argm * 2) ++ List.replicate (a.argm * 2 - a.argv.length) none } else a
  (store a.argv a.argc new).bind fun v => (store v (a.argc + 1) 0).bind fun v =>
    .ok { a with argc := a.argc + 1, argv := v }

/-- `arg_add`, maa/arg.c:95-109. -/
def add (h : Mem) (a : ArgList) (string : List Byte) : Res (Mem × ArgList) :=
  (StrMem.strcpy h a.str string).bind fun r => (append { a with str := r.1.2 } r.2).bind fun a => .ok (r.1.1, a)

/-- `arg_addn`, maa/arg.c:114-128. -/
def addn (h : Mem) (a : ArgList) (string : List Byte) (length : Nat) : Res (Mem × ArgList) :=
  (StrMem.strncpy h a.str string length).bind fun r =>
    (append { a with str := r.1.2 } r.2).bind fun a => .ok (r.1.1, a)

/-- `arg_grow`, maa/arg.c:135-141. -/
def grow (h : Mem) (a : ArgList) (string : List Byte) (length : Nat) : Res (Mem × ArgList) :=
  (StrMem.grow h a.str string length).bind fun r => .ok (r.1, { a with str := r.2 })

/-- `arg_finish`, maa/arg.c:146-160. -/
def finish (h : Mem) (a : ArgList) : Res (Mem × ArgList) :=
  (StrMem.finish h a.str).bind fun r => (append { a with str := r.1.2 } r.2).bind fun a => .ok (r.1.1, a)

/-- A load `argv[i]`. -/
def load (v : List (Option Nat)) (i : Nat) : Res Nat :=
  match v[i]? with
  | some (some p) => .ok p
  | _ => .ub

/-- `arg_get`, maa/arg.c:164-175. -/
def get (a : ArgList) (item : Int) : Res Nat :=
  if item < 0 ∨ item ≥ a.argc then .abort else load a.argv item.toNat

/-- `arg_count`, maa/arg.c:179-183. -/
def count (a : ArgList) : Nat := a.argc

/-- `arg_get_vector`, maa/arg.c:188-195. -/
def getVector (a : ArgList) : Nat × List (Option Nat) := (a.argc, a.argv)

/-- One modifying call (dispatch only; maa/arg.c:95-160): `strcpy` is `arg_add`, `strncpy` is `arg_addn`. -/
def step (s : Mem × ArgList) : Spec.StrOp → Res ((Mem × ArgList) × Unit)
  | .strcpy b => (add s.1 s.2 b).bind fun r => .ok (r, ())
  | .strncpy b n => (addn s.1 s.2 b n).bind fun r => .ok (r, ())
  | .grow b n => (grow s.1 s.2 b n).bind fun r => .ok (r, ())
  | .finish => (finish s.1 s.2).bind fun r => .ok (r, ())

/-- States of the automaton, maa/arggram.txt:3-36; the first one is number 0 (maa/arggram2c). -/
inductive St where
  | spaces | inTok | inTokBS | inDQ | inSQ
  deriving DecidableEq

/-- Character types, maa/arggram.txt, maa/arg.c:213-242. -/
inductive CT where
  | dq | sq | other | bs | null | space
  deriving DecidableEq

/-- Actions, maa/arggram.txt. -/
inductive Act where
  | skip | incl | finish
  deriving DecidableEq

/-- Where a transition leads: a state, `EXIT` (-1) or `ERROR` (-2), maa/arggram2c. -/
inductive Next where
  | st (s : St) | exit | error
  deriving DecidableEq

/-- `char2char_type`, maa/arg.c:213-242; the bits of the style are `ARG_NO_ESCAPE` and `ARG_NO_QUOTE`,
maa/maa.h:470-471. -/
def charType (quoteStyle : Nat) (ch : Byte) : CT :=
  if ch = 34 then (if quoteStyle.testBit 1 then .other else .dq)
  else if ch = 39 then (if quoteStyle.testBit 1 then .other else .sq)
  else if ch = 92 then (if quoteStyle.testBit 0 then .other else .bs)
  else if ch = 32 ∨ ch = 9 ∨ ch = 13 ∨ ch = 11 ∨ ch = 10 then .space
  else if ch = 0 then .null
  else .other

/-- The table, maa/arggram.txt:3-36. -/
def table : St → CT → Act × Next
  | .spaces, .dq => (.skip, .st .inDQ)
  | .spaces, .sq => (.skip, .st .inSQ)
  | .spaces, .other => (.incl, .st .inTok)
  | .spaces, .bs => (.skip, .st .inTokBS)
  | .spaces, .null => (.finish, .exit)
  | .spaces, .space => (.finish, .st .spaces)
  | .inTok, .dq => (.skip, .st .inDQ)
  | .inTok, .sq => (.skip, .st .inSQ)
  | .inTok, .other => (.incl, .st .inTok)
  | .inTok, .bs => (.skip, .st .inTokBS)
  | .inTok, .null => (.finish, .exit)
  | .inTok, .space => (.finish, .st .spaces)
  | .inTokBS, .dq => (.incl, .st .inTok)
  | .inTokBS, .sq => (.incl, .st .inTok)
  | .inTokBS, .other => (.incl, .st .inTok)
  | .inTokBS, .bs => (.incl, .st .inTok)
  | .inTokBS, .null => (.finish, .error)
  | .inTokBS, .space => (.incl, .st .inTok)
  | .inDQ, .dq => (.skip, .st .spaces)
  | .inDQ, .sq => (.incl, .st .inDQ)
  | .inDQ, .other => (.incl, .st .inDQ)
  | .inDQ, .bs => (.incl, .st .inDQ)
  | .inDQ, .null => (.finish, .error)
  | .inDQ, .space => (.incl, .st .inDQ)
  | .inSQ, .dq => (.incl, .st .inSQ)
  | .inSQ, .sq => (.skip, .st .spaces)
  | .inSQ, .other => (.incl, .st .inSQ)
  | .inSQ, .bs => (.incl, .st .inSQ)
  | .inSQ, .null => (.finish, .error)
  | .inSQ, .space => (.incl, .st .inSQ)

/-- The `switch (curr_act)` of `arg_argify`, maa/arg.c:266-290: new `last` and list. -/
def act (string : List Byte) (pt : Nat) (last : Option Nat) (σ : Mem × ArgList) : Act → Res (Option Nat × (Mem × ArgList))
  | .incl => .ok (some (last.getD pt), σ)
  | .skip =>
    match last with
    | some l => (grow σ.1 σ.2 (string.drop l) (pt - l)).bind fun σ' => .ok (some (pt + 1), σ')
    | none => .ok (some (pt + 1), σ)
  | .finish =>
    match last with
    | some l => (grow σ.1 σ.2 (string.drop l) (pt - l)).bind fun σ' => (finish σ'.1 σ'.2).bind fun σ'' => .ok (none, σ'')
    | none => .ok (none, σ)

/-- The loop of `arg_argify` and the check after it, maa/arg.c:256-305.  `rest` is what can be read from `pt` on. -/
def loop (quoteStyle : Nat) (string : List Byte) : List Byte → Nat → St → Option Nat → Mem × ArgList → Res (Mem × ArgList)
  | [], _, _, _, _ => .ub
  | ch :: rest, pt, state, last, σ =>
    let t := table state (charType quoteStyle ch)
    (act string pt last σ t.1).bind fun r =>
      match t.2 with
      | .st s => if ch ≠ 0 then loop quoteStyle string rest (pt + 1) s r.1 r.2 else .abort
      | .exit => .ok r.2
      | .error => .ok r.2

/-- `arg_argify`, maa/arg.c:245-308. -/
def argify (h : Mem) (string : List Byte) (quoteStyle : Nat) : Res (Mem × ArgList) :=
  loop quoteStyle string string 0 .spaces none (h, create)

end Maa.Arg
