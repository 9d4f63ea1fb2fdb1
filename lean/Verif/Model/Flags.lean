import Verif.Model.NameTab
import Verif.Spec.Flags

/-! # Model of maa/flags.c and maa/debug.c

`flg_Type` / `dbg_Type` is `unsigned long` (64 bits).  A `const char *` argument is the bytes readable from it on, or
`none` for NULL. -/

namespace Maa.Flags

/-- The static variables, maa/flags.c:47-49, maa/debug.c:48-50 (each file has its own). -/
structure State where
  hash : Option NameTab.Table
  setFlags : Nat → BitVec 64
  usedFlags : Nat → BitVec 64

/-- Their values at program start. -/
def State.init : State := { hash := none, setFlags := fun _ => 0, usedFlags := fun _ => 0 }

/-- `TEST`, maa/flags.c:39-45, maa/debug.c:40-46, converted to the `int` both users return. -/
def test (flags : BitVec 64) (var : Nat → BitVec 64) : BitVec 32 :=
  (if flags >>> 31 ≠ 0 then
    if flags >>> 30 ≠ 0 then (var 3 &&& flags) <<< 2 else (var 2 &&& flags) <<< 2
  else
    if flags >>> 30 ≠ 0 then (var 1 &&& flags) <<< 2 else (var 0 &&& flags) <<< 2).truncate 32

/-- `tmp && !(tmp & 1); tmp >>= 1`, the loop at maa/flags.c:86, maa/debug.c:86; the first argument bounds the number
of rounds (64 are always enough, see `strip_done`). -/
def strip : Nat → BitVec 64 → BitVec 64
  | 0, tmp => tmp
  | n + 1, tmp => if tmp ≠ 0 ∧ tmp &&& 1 = 0 then strip n (tmp >>> 1) else tmp

/-- `setFlags[ flag >> 30 ]` is an element of the array, maa/flags.c:138,139,143 and maa/debug.c:154,155,158,167,175. -/
def index (flag : BitVec 64) : Res Nat := if (flag >>> 30).toNat < 4 then .ok (flag >>> 30).toNat else .ub

/-- `setFlags[ flag >> 30 ] |= flag`, maa/flags.c:138,143, maa/debug.c:154,158,167. -/
def orFlag (σ : State) (flag : BitVec 64) : Res State :=
  (index flag).bind fun i => .ok { σ with setFlags := fun j => if j = i then σ.setFlags j ||| flag else σ.setFlags j }

/-- `setFlags[ flag >> 30 ] &= ~flag`, maa/flags.c:139, maa/debug.c:155,175. -/
def clearFlag (σ : State) (flag : BitVec 64) : Res State :=
  (index flag).bind fun i => .ok { σ with setFlags := fun j => if j = i then σ.setFlags j &&& ~~~flag else σ.setFlags j }

/-- `!strcmp(name, lit)`, maa/flags.c:115,119, maa/debug.c:134,138. -/
def isLit (name lit : List Byte) : Res Bool := (CStr.cstr name).bind fun s => .ok (s == lit)

/-- `*name`. -/
def first (name : List Byte) : Res Byte :=
  match name with
  | [] => .ub
  | c :: _ => .ok c

/-- `if (!hash) hash = hsh_create(NULL, NULL)`, maa/flags.c:93, maa/debug.c:93. -/
def needHash (σ : State) : Res NameTab.Table :=
  match σ.hash with
  | some t => .ok t
  | none => NameTab.create

/-- `_flg_exists`, maa/flags.c:54-57. -/
def flgExists (σ : State) (flag : BitVec 64) : BitVec 32 := test flag σ.usedFlags

/-- `flg_name`, maa/flags.c:62-76: the first key with that datum, `none` for "unknown flag".  Without a table
`hsh_init_position` aborts (maa/hash.c:62). -/
def flgName (σ : State) (flag : BitVec 64) : Res (State × Option (List Byte)) :=
  match σ.hash with
  | none => .abort
  | some t => (NameTab.scan t fun p => flag == BitVec.ofNat 64 p.2).bind fun r =>
      .ok ({ σ with hash := some r.1 }, r.2.map Prod.fst)

/-- `flg_register`, maa/flags.c:82-104; the result of `hsh_insert` is ignored. -/
def flgRegister (σ : State) (flag : BitVec 64) (name : Option (List Byte)) : Res State :=
  let tmp := strip 64 (flag &&& 0x3fffffff)
  if tmp = 0 ∨ tmp >>> 1 ≠ 0 then .fatal else
    (needHash σ).bind fun t =>
      if flgExists σ flag ≠ 0 then .fatal else
        (NameTab.insert t name flag.toNat).bind fun r => .ok { σ with hash := some r.1 }

/-- `flg_set`, maa/flags.c:109-145. -/
def flgSet (σ : State) (name : Option (List Byte)) : Res State :=
  match name with
  | none => .abort
  | some name =>
    match σ.hash with
    | none => .fatal
    | some t =>
      (isLit name [110, 111, 110, 101]).bind fun isNone =>
      if isNone then .ok { σ with setFlags := fun _ => 0 } else
      (isLit name [97, 108, 108]).bind fun isAll =>
      if isAll then .ok { σ with setFlags := fun _ => BitVec.allOnes 64 } else
      (NameTab.retrieve t (some name)).bind fun r =>
        let σ := { σ with hash := some r.1 }
        if r.2 = 0 then
          (first name).bind fun c =>
          if c ≠ 45 ∧ c ≠ 43 then .fatal else
          (NameTab.retrieve r.1 (some (name.drop 1))).bind fun q =>
            let σ := { σ with hash := some q.1 }
            if q.2 = 0 then .fatal
            else if c = 43 then orFlag σ (BitVec.ofNat 64 q.2) else clearFlag σ (BitVec.ofNat 64 q.2)
        else orFlag σ (BitVec.ofNat 64 r.2)

/-- `flg_test`, maa/flags.c:150-153. -/
def flgTest (σ : State) (flag : BitVec 64) : BitVec 32 := test flag σ.setFlags

/-- `flg_destroy`, maa/flags.c:160-166. -/
def flgDestroy (σ : State) : Res State :=
  (match σ.hash with
    | none => Res.ok ()
    | some t => NameTab.destroy t).bind fun _ =>
  .ok { hash := none, setFlags := fun _ => 0, usedFlags := fun _ => 0 }

/-- `flg_list`, maa/flags.c:179-182, with `_flg_user`, maa/flags.c:169-175: the lines written, each name between two
blanks and a newline.  Without a table `hsh_iterate_arg` aborts (maa/hash.c:62). -/
def flgList (σ : State) : Res (State × List (List Byte)) :=
  match σ.hash with
  | none => .abort
  | some t => (NameTab.iterate t (NameTab.quiet fun out p => out ++ [[32, 32] ++ p.1 ++ [10]]) []).bind fun r =>
      .ok ({ σ with hash := some r.1 }, r.2.1)

/-- `_dbg_exists`, maa/debug.c:55-58. -/
def dbgExists (σ : State) (flag : BitVec 64) : BitVec 32 := test flag σ.usedFlags

/-- `_dbg_name`, maa/debug.c:63-78. -/
def dbgName (σ : State) (flag : BitVec 64) : Res (State × Option (List Byte)) :=
  match σ.hash with
  | none => .fatal
  | some t => (NameTab.scan t fun p => flag == BitVec.ofNat 64 p.2).bind fun r =>
      .ok ({ σ with hash := some r.1 }, r.2.map Prod.fst)

/-- `_dbg_register`, maa/debug.c:82-104. -/
def dbgRegisterInternal (σ : State) (flag : BitVec 64) (name : Option (List Byte)) : Res State :=
  let tmp := strip 64 (flag &&& 0x3fffffff)
  if tmp = 0 ∨ tmp >>> 1 ≠ 0 then .fatal else
    (needHash σ).bind fun t =>
      if dbgExists σ flag ≠ 0 then .fatal else
        (NameTab.insert t name flag.toNat).bind fun r => .ok { σ with hash := some r.1 }

/-- `dbg_register`, maa/debug.c:114-123. -/
def dbgRegister (σ : State) (flag : BitVec 64) (name : Option (List Byte)) : Res State :=
  if flag &&& 0xc0000000 = 0xc0000000 then .fatal else dbgRegisterInternal σ flag name

/-- `dbg_set`, maa/debug.c:128-160. -/
def dbgSet (σ : State) (name : Option (List Byte)) : Res State :=
  match name with
  | none => .abort
  | some name =>
    match σ.hash with
    | none => .fatal
    | some t =>
      (isLit name [110, 111, 110, 101]).bind fun isNone =>
      if isNone then .ok { σ with setFlags := fun _ => 0 } else
      (isLit name [97, 108, 108]).bind fun isAll =>
      if isAll then .ok { σ with setFlags := fun _ => BitVec.allOnes 64 } else
      (NameTab.retrieve t (some name)).bind fun r =>
        let σ := { σ with hash := some r.1 }
        if r.2 = 0 then
          (NameTab.retrieve r.1 (some (name.drop 1))).bind fun q =>
            let σ := { σ with hash := some q.1 }
            (first name).bind fun c =>
            if q.2 = 0 ∧ c ≠ 45 ∧ c ≠ 43 then .fatal
            else if c = 43 then orFlag σ (BitVec.ofNat 64 q.2) else clearFlag σ (BitVec.ofNat 64 q.2)
        else orFlag σ (BitVec.ofNat 64 r.2)

/-- `dbg_set_flag`, maa/debug.c:165-168. -/
def dbgSetFlag (σ : State) (flag : BitVec 64) : Res State := orFlag σ flag

/-- `dbg_unset_flag`, maa/debug.c:173-176. -/
def dbgUnsetFlag (σ : State) (flag : BitVec 64) : Res State := clearFlag σ flag

/-- `dbg_test`, maa/debug.c:181-184. -/
def dbgTest (σ : State) (flag : BitVec 64) : BitVec 32 := test flag σ.setFlags

/-- `dbg_destroy`, maa/debug.c:191-197. -/
def dbgDestroy (σ : State) : Res State :=
  (match σ.hash with
    | none => Res.ok ()
    | some t => NameTab.destroy t).bind fun _ =>
  .ok { hash := none, setFlags := fun _ => 0, usedFlags := fun _ => 0 }

/-- `" (builtin)"`, maa/debug.c:216. -/
def builtin : List Byte := [32, 40, 98, 117, 105, 108, 116, 105, 110, 41]

/-- `_dbg_user`, maa/debug.c:200-208. -/
def dbgUser (out : List (List Byte)) (p : List Byte × Ptr) : List (List Byte) :=
  if BitVec.ofNat 64 p.2 &&& 0xc0000000 ≠ 0xc0000000 then out ++ [[32, 32] ++ p.1 ++ [10]] else out

/-- `_dbg_builtin`, maa/debug.c:210-218. -/
def dbgBuiltin (out : List (List Byte)) (p : List Byte × Ptr) : List (List Byte) :=
  if BitVec.ofNat 64 p.2 &&& 0xc0000000 = 0xc0000000 then out ++ [[32, 32] ++ p.1 ++ builtin ++ [10]] else out

/-- `dbg_list`, maa/debug.c:223-227: the lines written. -/
def dbgList (σ : State) : Res (State × List (List Byte)) :=
  match σ.hash with
  | none => .abort
  | some t => (NameTab.iterate t (NameTab.quiet dbgUser) []).bind fun r =>
      (NameTab.iterate r.1 (NameTab.quiet dbgBuiltin) r.2.1).bind fun q => .ok ({ σ with hash := some q.1 }, q.2.1)

/-- One call on flags.c (dispatch only; maa/flags.c:82-166).  A string argument is exactly the string and its NUL. -/
def flgStep (σ : State) : Spec.FlgOp → Res (State × Bool)
  | .register f name => (flgRegister σ f (name.map CStr.ofStr)).bind fun σ => .ok (σ, false)
  | .set name => (flgSet σ (name.map CStr.ofStr)).bind fun σ => .ok (σ, false)
  | .test f => .ok (σ, flgTest σ f != 0)
  | .destroy => (flgDestroy σ).bind fun σ => .ok (σ, false)

/-- One call on debug.c (dispatch only; maa/debug.c:82-197). -/
def dbgStep (σ : State) : Spec.DbgOp → Res (State × Bool)
  | .register f name => (dbgRegister σ f (name.map CStr.ofStr)).bind fun σ => .ok (σ, false)
  | .registerInternal f name => (dbgRegisterInternal σ f (name.map CStr.ofStr)).bind fun σ => .ok (σ, false)
  | .set name => (dbgSet σ (name.map CStr.ofStr)).bind fun σ => .ok (σ, false)
  | .setFlag f => (dbgSetFlag σ f).bind fun σ => .ok (σ, false)
  | .unsetFlag f => (dbgUnsetFlag σ f).bind fun σ => .ok (σ, false)
  | .test f => .ok (σ, dbgTest σ f != 0)
  | .destroy => (dbgDestroy σ).bind fun σ => .ok (σ, false)

end Maa.Flags
