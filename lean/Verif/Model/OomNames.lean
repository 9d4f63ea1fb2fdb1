import Verif.Model.Oom
import Verif.Model.Arg
import Verif.Model.Flags
import Verif.Model.Timer

/-! # Argument lists, flags, debugging flags and timers when memory may run out

As in Model/Oom.lean: the models of maa/arg.c, maa/flags.c, maa/debug.c and maa/timer.c with every request for memory written out. -/

namespace Maa.Oom

/-! ## arg.c -/

/-- `arg_create`, maa/arg.c:61-75: the structure, the vector and a string memory. -/
def argCreate (fails : Fails) (n : Nat) : Res (Arg.ArgList × Nat) :=
  (xreq fails n).bind fun n => (xreq fails n).bind fun n => (createStrings fails n).bind fun i =>
    .ok ({ Arg.create with str := i.1 }, i.2)

/-- The second half of `arg_add`, `arg_addn` and `arg_finish`, maa/arg.c:102-106, 121-125, 153-157: `xrealloc` when nearly full. -/
def argAppend (fails : Fails) (a : Arg.ArgList) (new n : Nat) : Res (Arg.ArgList × Nat) :=
  if a.argm ≤ a.argc + 2 then (xreq fails n).bind fun n => quiet (Arg.append a new) n else quiet (Arg.append a new) n

/-- `arg_add`, maa/arg.c:95-109. -/
def argAdd (fails : Fails) (h : StrMem.Mem) (a : Arg.ArgList) (string : List Byte) (n : Nat) : Res ((StrMem.Mem × Arg.ArgList) × Nat) :=
  (strcpy fails h a.str string n).bind fun r =>
    (argAppend fails { a with str := r.1.1.2 } r.1.2 r.2).bind fun a => .ok ((r.1.1.1, a.1), a.2)

/-- `arg_addn`, maa/arg.c:114-128. -/
def argAddn (fails : Fails) (h : StrMem.Mem) (a : Arg.ArgList) (string : List Byte) (length n : Nat) :
    Res ((StrMem.Mem × Arg.ArgList) × Nat) :=
  (strncpy fails h a.str string length n).bind fun r =>
    (argAppend fails { a with str := r.1.1.2 } r.1.2 r.2).bind fun a => .ok ((r.1.1.1, a.1), a.2)

/-- `arg_grow`, maa/arg.c:135-141. -/
def argGrow (fails : Fails) (h : StrMem.Mem) (a : Arg.ArgList) (string : List Byte) (length n : Nat) :
    Res ((StrMem.Mem × Arg.ArgList) × Nat) :=
  (grow fails h a.str string length n).bind fun r => .ok ((r.1.1, { a with str := r.1.2 }), r.2)

/-- `arg_finish`, maa/arg.c:146-160. -/
def argFinish (fails : Fails) (h : StrMem.Mem) (a : Arg.ArgList) (n : Nat) : Res ((StrMem.Mem × Arg.ArgList) × Nat) :=
  (finish fails h a.str n).bind fun r =>
    (argAppend fails { a with str := r.1.1.2 } r.1.2 r.2).bind fun a => .ok ((r.1.1.1, a.1), a.2)

/-- One modifying call (dispatch only; maa/arg.c:95-160). -/
def argStep (fails : Fails) (s : (StrMem.Mem × Arg.ArgList) × Nat) : Spec.StrOp → Res (((StrMem.Mem × Arg.ArgList) × Nat) × Unit)
  | .strcpy b => (argAdd fails s.1.1 s.1.2 b s.2).bind fun r => .ok (r, ())
  | .strncpy b k => (argAddn fails s.1.1 s.1.2 b k s.2).bind fun r => .ok (r, ())
  | .grow b k => (argGrow fails s.1.1 s.1.2 b k s.2).bind fun r => .ok (r, ())
  | .finish => (argFinish fails s.1.1 s.1.2 s.2).bind fun r => .ok (r, ())

/-- The `switch (curr_act)` of `arg_argify`, maa/arg.c:266-290. -/
def argAct (fails : Fails) (string : List Byte) (pt : Nat) (last : Option Nat) (σ : StrMem.Mem × Arg.ArgList) (n : Nat) :
    Arg.Act → Res ((Option Nat × (StrMem.Mem × Arg.ArgList)) × Nat)
  | .incl => .ok ((some (last.getD pt), σ), n)
  | .skip =>
    match last with
    | some l => (argGrow fails σ.1 σ.2 (string.drop l) (pt - l) n).bind fun r => .ok ((some (pt + 1), r.1), r.2)
    | none => .ok ((some (pt + 1), σ), n)
  | .finish =>
    match last with
    | some l => (argGrow fails σ.1 σ.2 (string.drop l) (pt - l) n).bind fun r =>
        (argFinish fails r.1.1 r.1.2 r.2).bind fun q => .ok ((none, q.1), q.2)
    | none => .ok ((none, σ), n)

/-- The loop of `arg_argify`, maa/arg.c:256-305. -/
def argLoop (fails : Fails) (quoteStyle : Nat) (string : List Byte) :
    List Byte → Nat → Arg.St → Option Nat → StrMem.Mem × Arg.ArgList → Nat → Res ((StrMem.Mem × Arg.ArgList) × Nat)
  | [], _, _, _, _, _ => .ub
  | ch :: rest, pt, state, last, σ, n =>
    let t := Arg.table state (Arg.charType quoteStyle ch)
    (argAct fails string pt last σ n t.1).bind fun r =>
      match t.2 with
      | .st s => if ch ≠ 0 then argLoop fails quoteStyle string rest (pt + 1) s r.1.1 r.1.2 r.2 else .abort
      | .exit => .ok (r.1.2, r.2)
      | .error => .ok (r.1.2, r.2)

/-- `arg_argify`, maa/arg.c:245-308. -/
def argify (fails : Fails) (h : StrMem.Mem) (string : List Byte) (quoteStyle n : Nat) : Res ((StrMem.Mem × Arg.ArgList) × Nat) :=
  (argCreate fails n).bind fun a => argLoop fails quoteStyle string string 0 .spaces none (h, a.1) a.2

/-! ## Tables of names -/

/-- `if (!hash) hash = hsh_create(NULL, NULL)`, maa/flags.c:93, maa/debug.c:93, maa/timer.c:47-50: two requests the first time. -/
def nameTable (fails : Fails) (hash : Option NameTab.Table) (n : Nat) : Res (NameTab.Table × Nat) :=
  match hash with
  | some t => .ok (t, n)
  | none => (create fails 0 n).bind fun r => .ok ((Heap.init, r.1), r.2)

/-- `hsh_insert(t, name, datum)`, maa/hash.c:216-262, `name` a C string. -/
def nameInsert (fails : Fails) (t : NameTab.Table) (name : Option (List Byte)) (datum n : Nat) : Res ((NameTab.Table × Int) × Nat) :=
  (NameTab.argKey name).bind fun k => insert fails NameTab.strOps t.1 t.2 k datum n

/-! ## flags.c and debug.c -/

/-- `flg_register`, maa/flags.c:82-104. -/
def flgRegister (fails : Fails) (σ : Flags.State) (flag : BitVec 64) (name : Option (List Byte)) (n : Nat) : Res (Flags.State × Nat) :=
  let tmp := Flags.strip 64 (flag &&& 0x3fffffff)
  if tmp = 0 ∨ tmp >>> 1 ≠ 0 then .fatal else
    (nameTable fails σ.hash n).bind fun t =>
      if Flags.flgExists σ flag ≠ 0 then .fatal else
        (nameInsert fails t.1 name flag.toNat t.2).bind fun r => .ok ({ σ with hash := some r.1.1 }, r.2)

/-- `_dbg_register`, maa/debug.c:82-104. -/
def dbgRegisterInternal (fails : Fails) (σ : Flags.State) (flag : BitVec 64) (name : Option (List Byte)) (n : Nat) : Res (Flags.State × Nat) :=
  let tmp := Flags.strip 64 (flag &&& 0x3fffffff)
  if tmp = 0 ∨ tmp >>> 1 ≠ 0 then .fatal else
    (nameTable fails σ.hash n).bind fun t =>
      if Flags.dbgExists σ flag ≠ 0 then .fatal else
        (nameInsert fails t.1 name flag.toNat t.2).bind fun r => .ok ({ σ with hash := some r.1.1 }, r.2)

/-- `dbg_register`, maa/debug.c:114-123. -/
def dbgRegister (fails : Fails) (σ : Flags.State) (flag : BitVec 64) (name : Option (List Byte)) (n : Nat) : Res (Flags.State × Nat) :=
  if flag &&& 0xc0000000 = 0xc0000000 then .fatal else dbgRegisterInternal fails σ flag name n

/-- One call on flags.c (dispatch only; maa/flags.c:82-166). -/
def flgStep (fails : Fails) (s : Flags.State × Nat) : Spec.FlgOp → Res ((Flags.State × Nat) × Bool)
  | .register f name => (flgRegister fails s.1 f (name.map CStr.ofStr) s.2).bind fun r => .ok (r, false)
  | o => out (quiet (Flags.flgStep s.1 o) s.2)

/-- One call on debug.c (dispatch only; maa/debug.c:82-197). -/
def dbgStep (fails : Fails) (s : Flags.State × Nat) : Spec.DbgOp → Res ((Flags.State × Nat) × Bool)
  | .register f name => (dbgRegister fails s.1 f (name.map CStr.ofStr) s.2).bind fun r => .ok (r, false)
  | .registerInternal f name => (dbgRegisterInternal fails s.1 f (name.map CStr.ofStr) s.2).bind fun r => .ok (r, false)
  | o => out (quiet (Flags.dbgStep s.1 o) s.2)

/-! ## timer.c -/

/-- `tim_start`, maa/timer.c:54-73: the table the first time, then one request for the entry and those of `hsh_insert` for a new name. -/
def timStart (fails : Fails) (σ : Timer.State) (name : Option (List Byte)) (r : Spec.Reading) (n : Nat) : Res (Timer.State × Nat) :=
  (nameTable fails σ.hash n).bind fun t =>
  (NameTab.retrieve t.1 name).bind fun q =>
    if q.2 = 0 then
      (xreq fails t.2).bind fun n =>
        let p := σ.fresh
        let e : Timer.Entry := { real := 0, self_user := 0, self_system := 0, children_user := 0, children_system := 0, mark := r }
        (nameInsert fails q.1 name p n).bind fun i =>
          .ok (Timer.store { σ with hash := some i.1.1, fresh := p + 1 } p e, i.2)
    else
      quiet ((Timer.deref σ q.2).bind fun e => .ok (Timer.store { σ with hash := some q.1 } q.2 { e with mark := r })) t.2

/-- `_tim_check`, maa/timer.c:47-50, at the start of the other functions; the rest of them makes no requests, and finds the table there. -/
def timRest (fails : Fails) (s : Timer.State × Nat) (o : Spec.TimOp) : Res ((Timer.State × Nat) × Int) :=
  (nameTable fails s.1.hash s.2).bind fun t => out (quiet (Timer.step { s.1 with hash := some t.1 } o) t.2)

/-- One call (dispatch only; maa/timer.c:54-250). -/
def timStep (fails : Fails) (s : Timer.State × Nat) : Spec.TimOp → Res ((Timer.State × Nat) × Int)
  | .start name r => (timStart fails s.1 (name.map CStr.ofStr) r s.2).bind fun q => .ok (q, 0)
  | .shutdown => out (quiet (Timer.step s.1 .shutdown) s.2)
  | o => timRest fails s o

end Maa.Oom
