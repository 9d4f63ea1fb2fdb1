import Verif.Model.Pr
import Verif.Model.Arg

/-! # Model of the commands run by maa/pr.c

`Model/Pr.lean` models what `pr_open2` and `pr_spawn` do with descriptors and children; this is what they do with the
command: splitting it, what the child passes to `execvp`, and giving the memory back. -/

namespace Maa.PrExec

open Spec (PrFlags PrEnv PrOut Ended WaitEnd)
open StrMem (Mem)
open Pr (State)

/-- What is passed to `execvp`. -/
structure Exec where
  file : List Byte
  argv : List (List Byte)
  deriving DecidableEq

/-- What `execvp` (C library) sees of the vector: the strings up to the NULL. -/
def readVector (h : Mem) : List (Option Nat) → Res (List (List Byte))
  | [] => .ub
  | none :: _ => .ub
  | some p :: v =>
    if p = 0 then .ok []
    else match h.mem p with
      | none => .ub
      | some (b, _) => (CStr.cstr b).bind fun s => (readVector h v).bind fun ss => .ok (s :: ss)

/-- `execvp(argv[0], argv)`, maa/pr.c:195, 413.  The C library reads the string `argv[0]`: it may not be NULL. -/
def execArgs (h : Mem) (v : List (Option Nat)) : Res Exec :=
  (readVector h v).bind fun ws =>
    match ws with
    | [] => .ub
    | w :: _ => .ok { file := w, argv := ws }

/-- `pr_open2` with its command, maa/pr.c:117-229: flags are checked, the command is split, the child executes it, the
parent does its part (`Pr.prOpen`) and destroys the list.  Simplifications: the callback run in the child is not modelled;
the list is not read again before the parent destroys it. -/
def openCommand (h : Mem) (σ : State) (command : List Byte) (flags : PrFlags) (infd outfd errfd : Option Int) (env : PrEnv) :
    Res (Mem × State × PrOut × Exec) :=
  if Pr.badFlags flags then .abort else
  (Arg.argify h command 0).bind fun l =>
    (Pr.prOpen σ flags infd outfd errfd env).bind fun r =>
      (execArgs l.1 (Arg.getVector l.2).2).bind fun e =>
        (Arg.destroy l.1 l.2).bind fun h' => .ok (h', r.1, r.2, e)

/-- How the child ends, maa/pr.c:412-415: as the program executed does, or, if there is no such program, with `_exit(127)`. -/
def childEnd (programs : Exec → Option Ended) (e : Exec) : Ended :=
  match programs e with
  | some r => r
  | none => .exited 127

/-- `pr_spawn` with its command, maa/pr.c:397-447; `programs` is what there is to execute and how it ends. -/
def spawnCommand (h : Mem) (σ : State) (command : List Byte) (pid : Option Nat) (n : Nat) (programs : Exec → Option Ended) :
    Res (Mem × State × PrOut × Exec) :=
  (Arg.argify h command 0).bind fun l =>
    match pid with
    | none => .fatal
    | some p =>
      (execArgs l.1 (Arg.getVector l.2).2).bind fun e =>
        (Arg.destroy l.1 l.2).bind fun h' =>
          (Pr.prSpawn σ (some p) n (.ended (childEnd programs e))).bind fun r => .ok (h', r.1, r.2, e)

end Maa.PrExec
