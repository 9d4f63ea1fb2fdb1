import Verif.Model.Log
import Verif.Spec.Error

/-! # Model of maa/error.c

Messages are given formatted, as in the model of log.c.  What is printed to `stderr` and what the log does are one list of
events, in order.  `fflush` has no effect of its own.  If the log cannot open its file, `err_fatal_errno` is called from
within and the program exits there (`Res.fatal`). -/

namespace Maa.Err

open Spec (LogEvent LogEnv Ending)

/-- `strrchr` (C library; used at maa/error.c:49): the place of the last `c` before the NUL, if any. -/
def strrchr (c : Byte) : List Byte → Nat → Option Nat → Res (Option Nat)
  | [], _, _ => .ub
  | b :: bs, i, found =>
    let found := if b = c then some i else found
    if b = 0 then .ok found else strrchr c bs (i + 1) found

/-- `_err_programName`, maa/error.c:36: a pointer into the caller's buffer, modelled by what can be read from it. -/
abbrev Prog := Option (List Byte)

/-- `err_set_program_name`, maa/error.c:42-55. -/
def setProgramName (programName : Option (List Byte)) : Res Prog :=
  match programName with
  | none => .ok none
  | some p =>
    (strrchr 47 p 0 none).bind fun pt =>
      match pt with
      | some i => .ok (some (p.drop (i + 1)))
      | none => .ok (some p)

/-- `err_program_name`, maa/error.c:61-64. -/
def programName (prog : Prog) : Prog := prog

/-- One `fprintf` to `stderr`. -/
def put (s : List Byte) : LogEvent := .printed Spec.stderr s

/-- The program name as `%s` prints it. -/
def progStr (prog : Prog) : Res (Option (List Byte)) :=
  match prog with
  | none => .ok none
  | some p => (CStr.cstr p).bind fun s => .ok (some s)

/-- The opening of a report, maa/error.c:77-84, 112-119, 148-155. -/
def opening (prog routine : Option (List Byte)) : List LogEvent :=
  match prog with
  | some p =>
    match routine with
    | some r => [put (p ++ [32, 40] ++ r ++ [41, 58, 32])]
    | none => [put (p ++ [58, 32])]
  | none =>
    match routine with
    | some r => [put (r ++ [58, 32])]
    | none => []

/-- `LOG_ERR`, maa/log.c:360. -/
def LOG_ERR : Int := 3

/-- `err_fatal`, maa/error.c:71-98. -/
def fatal (prog : Prog) (σ : Log.State) (routine : Option (List Byte)) (text : List Byte) (env : LogEnv) :
    Res (Log.State × List LogEvent × Ending) :=
  (progStr prog).bind fun p =>
  (Log.base σ routine LOG_ERR text env).bind fun l =>
    .ok (l.1, opening p routine ++ [put text, put [10]] ++ l.2, .exits 1)

/-- `err_fatal_errno`, maa/error.c:105-135; `strerror` is the text for `errno`.  Printing a NULL routine with `%s` is undefined. -/
def fatalErrno (prog : Prog) (σ : Log.State) (routine : Option (List Byte)) (text strerror : List Byte) (env : LogEnv) :
    Res (Log.State × List LogEvent × Ending) :=
  (progStr prog).bind fun p =>
  (Log.base σ routine LOG_ERR text env).bind fun l =>
    match routine with
    | none => .ub
    | some r =>
      (Log.base l.1 routine LOG_ERR (r ++ [58, 32] ++ strerror) env).bind fun m =>
        .ok (m.1, opening p routine ++ [put text] ++ l.2 ++ [put ([32] ++ r ++ [58, 32] ++ strerror ++ [10])] ++ m.2, .exits 1)

/-- `err_warning`, maa/error.c:141-165. -/
def warning (prog : Prog) (σ : Log.State) (routine : Option (List Byte)) (text : List Byte) (env : LogEnv) :
    Res (Log.State × List LogEvent × Ending) :=
  (progStr prog).bind fun p =>
  (Log.base σ routine LOG_ERR text env).bind fun l =>
    .ok (l.1, opening p routine ++ [put text, put [10]] ++ l.2, .returns)

/-- The opening of `err_internal`, maa/error.c:180-189. -/
def openingInternal (prog routine : Option (List Byte)) : List LogEvent :=
  match prog with
  | some p =>
    match routine with
    | some r => [put (p ++ [32, 40] ++ r ++ [41, 58, 32] ++ Spec.internalError)]
    | none => [put (p ++ [58, 32] ++ Spec.internalError)]
  | none =>
    match routine with
    | some r => [put (r ++ [58, 32] ++ Spec.internalError)]
    | none => [put Spec.internalError]

/-- `err_internal`, maa/error.c:171-204. -/
def internal (prog : Prog) (σ : Log.State) (routine : Option (List Byte)) (text : List Byte) (env : LogEnv) :
    Res (Log.State × List LogEvent × Ending) :=
  (progStr prog).bind fun p =>
  (Log.base σ routine LOG_ERR text env).bind fun l =>
    let last := match p with
      | some p => put (Spec.aborting ++ [32] ++ p ++ [46, 46, 46, 10])
      | none => put (Spec.aborting ++ [46, 46, 46, 10])
    .ok (l.1, openingInternal p routine ++ [put text, put [10]] ++ l.2 ++ [last], .aborts)

end Maa.Err
