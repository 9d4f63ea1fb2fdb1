import Verif.Model.Log
import Verif.Model.Flags
import Verif.Model.Maa
import Verif.Model.SourceErr
import Verif.Model.PrExec
import Verif.Spec.DebugOut

/-! # Model of the library's debugging messages

The functions of maa/source.c and maa/pr.c that contain `PRINTF`, once more, now with the messages where the code has them.
`Model/Source.lean`, `Model/SourceErr.lean`, `Model/Pr.lean` and `Model/PrExec.lean` leave the messages out. -/

namespace Maa.DebugOut

open Spec (LogEvent LogEnv LogOp DbgOp SrcOp SrcVal PrFlags PrEvent PrEnv PrOut WaitEnd Ended decimal decimalInt hex4)
open Spec.Report (ascii)
open StrMem (Mem)

/-- The log and what has come out of it. -/
structure Out where
  log : Log.State
  events : List LogEvent

/-- `PRINTF(flag, (format, ...))`, maa/maa.h:443, with `log_info`, maa/log.c:377-384: the flag is tested; `_log_base_va` returns at once if no
log is open (maa/log.c:307) and formats the message otherwise; `text` is the formatted message (undefined if a string argument is not a
string).  6 is `LOG_INFO`. -/
def say (d : Flags.State) (flag : BitVec 64) (text : Res (List Byte)) (env : LogEnv) (L : Out) : Res Out :=
  if Flags.dbgTest d flag = 0 then .ok L
  else if L.log.logOpen = 0 then .ok L
  else text.bind fun t => (Log.base L.log none 6 t env).bind fun r => .ok { log := r.1, events := L.events ++ r.2 }

/-- `src_line`, maa/source.c:86-105. -/
def srcLine (d : Flags.State) (L : Out) (env : LogEnv) (σ : Source.State) (buf : List Byte) (len : Nat) : Res ((Source.State × List Byte) × Out) :=
  (Source.ensure σ).bind fun σ =>
  (Source.copy buf len).bind fun s =>
  (Source.untab s).bind fun s =>
  (Source.setLine (Source.arr σ) σ.used s).bind fun a =>
  (say d Lib.MAA_SRC ((Source.getLine a σ.used).bind fun t => .ok (ascii "Line " ++ decimal σ.used ++ ascii ": " ++ t)) env L).bind fun L =>
    let g := Source.regrow a (σ.used + 1) σ.count
    let info := { σ.info with line := σ.info.line + 1, index := σ.used, offset := 0 }
    (Source.getLine g.1 (σ.used + 1 - 1)).bind fun r =>
    .ok (({ σ with lines := some g.1, count := g.2, used := σ.used + 1, info := info, bytes := σ.bytes + (len + 1) }, r), L)

/-- `_src_print_error`, maa/source.c:358-375. -/
def printErrorLine (d : Flags.State) (L : Out) (env : LogEnv) (σ : Source.State) (s : Option Source.Info) (fudge : Int) : Res (List Byte × Out) :=
  (Source.printLine σ s).bind fun a =>
    match s with
    | some i =>
      (say d Lib.MAA_SRC (.ok (ascii "s->offset = " ++ decimalInt i.offset ++ ascii ", fudge = " ++ decimalInt fudge ++ ascii ", s->length = " ++
        decimalInt i.length ++ ascii "\n")) env L).bind fun L =>
      (Source.prefix_ s).bind fun p =>
        .ok (a ++ p ++ Source.repeatPut (i.offset - fudge) 32 ++ Source.repeatPut i.length 94 ++ [10], L)
    | none => (Source.prefix_ s).bind fun p => .ok (a ++ p ++ [10], L)

/-- `src_print_error`, maa/source.c:406-424. -/
def srcPrintError (d : Flags.State) (L : Out) (env : LogEnv) (σ : Source.State) (stream : Bool) (h : Nat) (formatted : Option (List Byte)) :
    Res (List Byte × Out) :=
  (Source.message σ stream h formatted).bind fun a =>
    if stream then (Source.deref σ h).bind fun s => (printErrorLine d L env σ s 0).bind fun b => .ok (a ++ b.1, b.2) else .abort

/-- `src_parse_error`, maa/source.c:388-399. -/
def srcParseError (d : Flags.State) (L : Out) (env : LogEnv) (σ : Source.State) (π : Prs.State) (h : Nat) (msg : Option (List Byte)) :
    Res ((Prs.State × List Byte) × Out) :=
  (Source.deref σ h).bind fun s =>
  (Source.prefix_ s).bind fun p =>
  (Source.printYyerror π msg).bind fun y =>
  (printErrorLine d L env σ s 0).bind fun e => .ok ((y.1, p ++ y.2 ++ [10] ++ e.1), e.2)

/-- `src_cpp_line`, maa/source.c:131-157; the arguments of `PRINTF` are looked up only when the flag is set. -/
def srcCppLine (d : Flags.State) (L : Out) (env : LogEnv) (h : Mem) (σ : Source.State) (line : List Byte) (length : Nat) : Res ((Mem × Source.State) × Out) :=
  (Source.strncpy line length).bind fun tmp =>
  (Arg.argify h (CStr.ofStr tmp) 0).bind fun args =>
  (Arg.get args.2 1).bind fun a1 =>
  (Source.stringAt args.1 a1).bind fun s1 =>
  (Source.atoi s1).bind fun n =>
    let lineno := if n > 0 then n - 1 else 1
    let σ := Source.srcNewLine σ lineno
    if Arg.count args.2 = 2 then
      (say d Lib.MAA_SRC ((Arg.get args.2 1).bind fun p => (Source.stringAt args.1 p).bind fun s => .ok (ascii "lineno " ++ s ++ ascii "\n")) env L).bind fun L =>
      (Arg.destroy args.1 args.2).bind fun h => .ok ((h, σ), L)
    else
      (say d Lib.MAA_SRC ((Arg.get args.2 1).bind fun p => (Source.stringAt args.1 p).bind fun s =>
        (Arg.get args.2 2).bind fun q => (Source.stringAt args.1 q).bind fun f => .ok (ascii "lineno " ++ s ++ ascii " in " ++ f ++ ascii "\n")) env L).bind fun L =>
      (Arg.get args.2 2).bind fun a2 =>
      (Source.stringAt args.1 a2).bind fun s2 =>
      (Arg.destroy args.1 args.2).bind fun h => .ok ((h, Source.srcNewFile σ s2), L)

/-- `argv[0]`, used as a string. -/
def firstWord (h : Mem) : List (Option Nat) → Res (List Byte)
  | [] => .ub
  | none :: _ => .ub
  | some p :: _ => if p = 0 then .ub else Source.stringAt h p

/-- The message `"Execing %s with \"%s\"\n", argv[0], command`, maa/pr.c:148, 410. -/
def execSays (h : Mem) (v : List (Option Nat)) (command : List Byte) : Res (List Byte) :=
  (firstWord h v).bind fun w => (CStr.cstr command).bind fun c => .ok (ascii "Execing " ++ w ++ ascii " with \"" ++ c ++ ascii "\"\n")

/-- `PARENT` in `pr_open2`, maa/pr.c:202-214. -/
def parent (d : Flags.State) (L : Out) (env : LogEnv) (name : String) (σ : Pr.State) (flags create use : PrFlags) (drop keep : Int) (fd : Option Int) (pid : Nat) :
    Res ((Pr.State × Option Int × List PrEvent) × Out) :=
  if flags &&& create != 0 then
    match fd with
    | none => .ub
    | some _ => (Pr.objSet σ keep pid).bind fun σ =>
      (say d Lib.MAA_PR (.ok (ascii name ++ ascii " = " ++ decimalInt keep ++ ascii "; ")) env L).bind fun L => .ok ((σ, some keep, [.closed drop]), L)
  else if flags &&& use != 0 then
    match fd with
    | none => .ok ((σ, fd, []), L)
    | some v => if v ≠ 0 then
        (say d Lib.MAA_PR (.ok (ascii name ++ ascii " = " ++ decimalInt v ++ ascii "*; ")) env L).bind fun L =>
        (Pr.objSet σ v 0).bind fun σ => .ok ((σ, fd, [.closed v]), L)
      else .ok ((σ, fd, []), L)
  else .ok ((σ, fd, []), L)

/-- `pr_open2`, maa/pr.c:117-229; `envs i` is what the system contributes to message `i`.  As in Model/PrExec.lean the child's `execvp` comes
after the parent's part. -/
def prOpen (d : Flags.State) (L : Out) (envs : Nat → LogEnv) (h : Mem) (σ : Pr.State) (command : List Byte) (flags : PrFlags)
    (infd outfd errfd : Option Int) (env : PrEnv) : Res ((Mem × Pr.State × PrOut × PrExec.Exec) × Out) :=
  let σ := Pr.prInit σ
  if Pr.badFlags flags then .abort else
  (Arg.argify h command 0).bind fun l =>
  (say d Lib.MAA_PR (execSays l.1 (Arg.getVector l.2).2 command) (envs 0) L).bind fun L =>
  if flags &&& Pr.CREATE_STDIN != 0 ∧ env.pipeIn = none then .fatal
  else if flags &&& Pr.CREATE_STDOUT != 0 ∧ env.pipeOut = none then .fatal
  else if flags &&& Pr.CREATE_STDERR != 0 ∧ env.pipeErr = none then .fatal
  else
    match env.pid with
    | none => .fatal
    | some pid =>
      let fdin := env.pipeIn.getD (0, 0)
      let fdout := env.pipeOut.getD (0, 0)
      let fderr := env.pipeErr.getD (0, 0)
      (parent d L (envs 1) "stdin" σ flags Pr.CREATE_STDIN Pr.USE_STDIN fdin.1 fdin.2 infd pid).bind fun a =>
      (parent d a.2 (envs 2) "stdout" a.1.1 flags Pr.CREATE_STDOUT Pr.USE_STDOUT fdout.2 fdout.1 outfd pid).bind fun b =>
      (parent d b.2 (envs 3) "stderr" b.1.1 flags Pr.CREATE_STDERR Pr.USE_STDERR fderr.2 fderr.1 errfd pid).bind fun c =>
      (say d Lib.MAA_PR (.ok (ascii "child pid = " ++ decimalInt pid ++ ascii "\n")) (envs 4) c.2).bind fun L =>
      (PrExec.execArgs l.1 (Arg.getVector l.2).2).bind fun e =>
      (Arg.destroy l.1 l.2).bind fun h' =>
        .ok ((h', c.1.1, { ret := pid, fds := [a.1.2.1, b.1.2.1, c.1.2.1], events := a.1.2.2 ++ b.1.2.2 ++ c.1.2.2 }, e), L)

/-- The loop and the end of `pr_wait` and `pr_spawn`, maa/pr.c:238-259, 425-446: `waitpid` is interrupted `n` times, then answers. -/
def waitLoop (d : Flags.State) (pid : Nat) (errno : Int) (env : LogEnv) : Nat → WaitEnd → Out → Res (Int × Out)
  | n + 1, w, L => waitLoop d pid errno env n w L
  | 0, .noChild, L => .ok (0, L)
  | 0, .failed, L => (say d Lib.MAA_PR (.ok (ascii "waitpid() < 0, errno = " ++ decimalInt errno ++ ascii "\n")) env L).bind fun L => .ok (-1, L)
  | 0, .ended e, L =>
    let exitStatus := Pr.exitStatus e.status
    (say d Lib.MAA_PR (.ok (ascii "Child " ++ decimal pid ++ ascii " exited with status 0x" ++ hex4 exitStatus.toNat ++ ascii "\n")) env L).bind fun L =>
      .ok (exitStatus, L)

/-- `pr_wait`, maa/pr.c:231-260. -/
def prWait (d : Flags.State) (L : Out) (envs : Nat → LogEnv) (pid n : Nat) (w : WaitEnd) (errno : Int) : Res (Int × Out) :=
  (say d Lib.MAA_PR (.ok (ascii "waiting on pid " ++ decimal pid ++ ascii "\n")) (envs 0) L).bind fun L => waitLoop d pid errno (envs 1) n w L

/-- `pr_close`, maa/pr.c:277-282. -/
def prClose (d : Flags.State) (L : Out) (envs : Nat → LogEnv) (σ : Pr.State) (fd : Int) (n : Nat) (w : WaitEnd) (errno : Int) : Res ((Pr.State × PrOut) × Out) :=
  (Pr.closeNowait σ fd).bind fun r =>
  (prWait d L envs r.2.ret.toNat n w errno).bind fun q =>
    .ok ((r.1, { ret := q.1, events := r.2.events ++ [.waited r.2.ret.toNat] }), q.2)

/-- `pr_spawn`, maa/pr.c:397-447. -/
def prSpawn (d : Flags.State) (L : Out) (envs : Nat → LogEnv) (h : Mem) (σ : Pr.State) (command : List Byte) (pid : Option Nat) (n : Nat)
    (programs : PrExec.Exec → Option Ended) : Res ((Mem × Pr.State × PrOut × PrExec.Exec) × Out) :=
  let σ := Pr.prInit σ
  (Arg.argify h command 0).bind fun l =>
  (say d Lib.MAA_PR (execSays l.1 (Arg.getVector l.2).2 command) (envs 0) L).bind fun L =>
    match pid with
    | none => .fatal
    | some p =>
      (say d Lib.MAA_PR (.ok (ascii "child pid = " ++ decimalInt p ++ ascii "\n")) (envs 1) L).bind fun L =>
      (PrExec.execArgs l.1 (Arg.getVector l.2).2).bind fun e =>
      (Arg.destroy l.1 l.2).bind fun h' =>
      (prWait d L (fun i => envs (2 + i)) p n (.ended (PrExec.childEnd programs e)) 0).bind fun q =>
        .ok ((h', σ, { ret := q.1, events := [.waited p] }, e), q.2)

/-! ## `pr_readwrite`

Its messages go to the log, but for what it says about `select`, which goes to the standard output with `printf`: that is collected separately. -/

/-- The log, and what was printed. -/
structure Out2 where
  out : Out
  stdout : List Byte

/-- What `select` answered: its value and the four sets (of which `rfds` never holds `in`, `wfds` never `out`). -/
structure Select where
  retval : Int
  outRead : Bool
  inWrite : Bool
  inError : Bool
  outError : Bool

/-- The report about `select`, maa/pr.c:334-346. -/
def selectText (s : Pr.Loop) (a : Select) : List Byte :=
  ascii "select(2) returns " ++ decimalInt a.retval ++ ascii ", inLen = " ++ decimal s.inLen ++ ascii ", outLen = " ++ decimal s.outLen ++
    ascii ", outMaxLen = " ++ decimal s.outMaxLen ++ ascii "\n" ++ (if a.outRead then ascii "  out/read\n" else []) ++
    (if a.inWrite then ascii "  in/write\n" else []) ++ (if a.inError then ascii "  in/error\n" else []) ++ (if a.outError then ascii "  out/error\n" else [])

/-- The writing half of a round, maa/pr.c:348-361. -/
def writeHalf (d : Flags.State) (L : Out) (env : LogEnv) (inp : Int) (inBuf : List Byte) (s : Pr.Loop) (r : Pr.Round) : Res (Pr.Loop × Out) :=
  if s.inLen = 0 then .ok (s, L)
  else if r.writeErr then .fatal
  else
    let count := min r.accept s.inLen
    if count = 0 then .ok (s, L)
    else if s.inPt + count > inBuf.length then .ub
    else
      (say d Lib.MAA_PR (.ok (ascii "  wrote " ++ decimal count ++ ascii "\n")) env L).bind fun L =>
      let s' := { s with sent := s.sent ++ (inBuf.drop s.inPt).take count, inLen := s.inLen - count, inPt := s.inPt + count }
      if s'.inLen = 0 then
        (Pr.closeNowait s'.σ inp).bind fun q => .ok ({ s' with σ := q.1, events := s'.events ++ q.2.events }, L)
      else .ok (s', L)

/-- The reading half of a round, maa/pr.c:362-380. -/
def readHalf (d : Flags.State) (L : Out) (envs : Nat → LogEnv) (out : Int) (n : Nat) (w : WaitEnd) (errno : Int) (s : Pr.Loop) (r : Pr.Round) :
    Res (Pr.Flow × Out) :=
  match Pr.sysRead s.outMaxLen (s.written.length - s.taken) r with
  | .error => .fatal
  | .again => .ok (.running s, L)
  | .count 0 =>
    if s.inLen ≠ 0 then .fatal
    else (prClose d L envs s.σ out n w errno).bind fun q =>
      .ok (.returned s.outLen { s with σ := q.1.1, events := s.events ++ q.1.2.events }, q.2)
  | .count c =>
    if s.outPt + c > s.outBuf.length then .ub
    else
      (say d Lib.MAA_PR (.ok (ascii "  read " ++ decimal c ++ ascii "\n")) (envs 0) L).bind fun L =>
      if (s.outMaxLen : Int) - c < 0 then .fatal
      else .ok (.running { s with
        outBuf := s.outBuf.take s.outPt ++ (s.written.drop s.taken).take c ++ s.outBuf.drop (s.outPt + c),
        taken := s.taken + c, outLen := s.outLen + c, outPt := s.outPt + c, outMaxLen := s.outMaxLen - c }, L)

/-- One round of the loop, maa/pr.c:319-383; `envs 0` is for the writing half. -/
def round (d : Flags.State) (L : Out2) (envs : Nat → LogEnv) (a : Select) (inp out : Int) (inBuf : List Byte) (n : Nat) (w : WaitEnd) (errno : Int)
    (s : Pr.Loop) (r : Pr.Round) : Res (Pr.Flow × Out2) :=
  if out < 0 ∨ out ≥ 1024 ∨ (s.inLen ≠ 0 ∧ (inp < 0 ∨ inp ≥ 1024)) then .ub
  else if ¬ r.selectOk then .fatal
  else
    let s := { s with written := s.written ++ r.written }
    let printed := L.stdout ++ (if Flags.dbgTest d Lib.MAA_PR = 0 then [] else selectText s a)
    (writeHalf d L.out (envs 0) inp inBuf s r).bind fun q =>
    (readHalf d q.2 (fun i => envs (1 + i)) out n w errno q.1 r).bind fun f => .ok (f.1, { out := f.2, stdout := printed })

/-- The loop; `more i` is what the system contributes to the messages of round `i`. -/
def rounds (d : Flags.State) (inp out : Int) (inBuf : List Byte) (n : Nat) (w : WaitEnd) (errno : Int) (more : Nat → (Nat → LogEnv) × Select) :
    Nat → Out2 → Pr.Loop → List Pr.Round → Res (Pr.Flow × Out2)
  | _, L, s, [] => .ok (.running s, L)
  | i, L, s, r :: rs => (round d L (more i).1 (more i).2 inp out inBuf n w errno s r).bind fun f =>
    match f.1 with
    | .running s => rounds d inp out inBuf n w errno more (i + 1) f.2 s rs
    | .returned k s => .ok (.returned k s, f.2)

/-- `pr_readwrite`, maa/pr.c:284-384. -/
def readwrite (d : Flags.State) (L : Out2) (σ : Pr.State) (inp out : Int) (inBuf : List Byte) (inLen : Nat) (outBuf : List Byte) (outMaxLen : Nat)
    (flagsOk : Bool) (n : Nat) (w : WaitEnd) (errno : Int) (rs : List Pr.Round) (more : Nat → (Nat → LogEnv) × Select) : Res (Pr.Flow × Out2) :=
  if ¬ flagsOk then .fatal
  else rounds d inp out inBuf n w errno more 0 L
    { σ := σ, inPt := 0, inLen := inLen, outPt := 0, outLen := 0, outMaxLen := outMaxLen, outBuf := outBuf, sent := [], written := [], taken := 0, events := [] } rs

/-- The parts of the library that take part, without the log. -/
structure Quiet where
  dbg : Flags.State
  src : Source.State
  prs : Prs.State
  pr : Pr.State
  mem : Mem

/-- Calls.  Strings are given without their NUL; `env`, `envs` are what the system contributes to the messages of a call. -/
inductive Op where
  | dbg (o : DbgOp)
  | log (o : LogOp)
  | prs (o : Spec.PrsOp)
  | src (o : SrcOp) (env : LogEnv)
  | parseError (h : Nat) (msg : Option (List Byte)) (env : LogEnv)
  | cpp (line : List Byte) (length : Nat) (env : LogEnv)
  | prOpen (command : List Byte) (flags : PrFlags) (infd outfd errfd : Option Int) (env : PrEnv) (envs : Nat → LogEnv)
  | prSpawn (command : List Byte) (pid : Option Nat) (n : Nat) (programs : PrExec.Exec → Option Ended) (envs : Nat → LogEnv)
  | prClose (fd : Int) (n : Nat) (w : WaitEnd) (errno : Int) (envs : Nat → LogEnv)
  | prCloseNowait (fd : Int)
  | prShutdown

/-- What a call gives. -/
inductive Val where
  | unit
  | flag (b : Bool)
  | str (s : Option (List Byte))
  | src (v : SrcVal)
  | text (s : List Byte)
  | pr (o : PrOut) (e : Option PrExec.Exec)

/-- One call, without messages (dispatch only): the models that leave them out. -/
def quietStep (q : Quiet) : Op → Res (Quiet × Val)
  | .dbg o => (Flags.dbgStep q.dbg o).bind fun r => .ok ({ q with dbg := r.1 }, .flag r.2)
  | .log _ => .ok (q, .unit)
  | .prs o => (Prs.step q.prs o).bind fun r => .ok ({ q with prs := r.1 }, .str r.2)
  | .src o _ => (Source.step q.src o).bind fun r => .ok ({ q with src := r.1 }, .src r.2)
  | .parseError h msg _ => (Source.srcParseError q.src q.prs h msg).bind fun r => .ok ({ q with prs := r.1 }, .text r.2)
  | .cpp line length _ => (Source.srcCppLine q.mem q.src line length).bind fun r => .ok ({ q with mem := r.1, src := r.2 }, .unit)
  | .prOpen command f i o e env _ => (PrExec.openCommand q.mem q.pr (CStr.ofStr command) f i o e env).bind fun r =>
      .ok ({ q with mem := r.1, pr := r.2.1 }, .pr r.2.2.1 (some r.2.2.2))
  | .prSpawn command pid n programs _ => (PrExec.spawnCommand q.mem q.pr (CStr.ofStr command) pid n programs).bind fun r =>
      .ok ({ q with mem := r.1, pr := r.2.1 }, .pr r.2.2.1 (some r.2.2.2))
  | .prClose fd n w _ _ => (Pr.prClose q.pr fd n w).bind fun r => .ok ({ q with pr := r.1 }, .pr r.2 none)
  | .prCloseNowait fd => (Pr.closeNowait q.pr fd).bind fun r => .ok ({ q with pr := r.1 }, .pr r.2 none)
  | .prShutdown => .ok ({ q with pr := (Pr.shutdown q.pr).1 }, .pr (Pr.shutdown q.pr).2 none)

/-- One call, with messages (dispatch only). -/
def step (w : Quiet × Out) : Op → Res ((Quiet × Out) × Val)
  | .log o => (Log.step w.2.log o).bind fun r => .ok ((w.1, { log := r.1, events := w.2.events ++ r.2 }), .unit)
  | .src (.line buf len) env => (srcLine w.1.dbg w.2 env w.1.src buf len).bind fun r =>
      .ok (({ w.1 with src := r.1.1 }, r.2), .src (.str (some r.1.2)))
  | .src (.printError stream h m) env => (srcPrintError w.1.dbg w.2 env w.1.src stream h m).bind fun r => .ok ((w.1, r.2), .src (.text r.1))
  | .parseError h msg env => (srcParseError w.1.dbg w.2 env w.1.src w.1.prs h msg).bind fun r =>
      .ok (({ w.1 with prs := r.1.1 }, r.2), .text r.1.2)
  | .cpp line length env => (srcCppLine w.1.dbg w.2 env w.1.mem w.1.src line length).bind fun r =>
      .ok (({ w.1 with mem := r.1.1, src := r.1.2 }, r.2), .unit)
  | .prOpen command f i o e env envs => (prOpen w.1.dbg w.2 envs w.1.mem w.1.pr (CStr.ofStr command) f i o e env).bind fun r =>
      .ok (({ w.1 with mem := r.1.1, pr := r.1.2.1 }, r.2), .pr r.1.2.2.1 (some r.1.2.2.2))
  | .prSpawn command pid n programs envs => (prSpawn w.1.dbg w.2 envs w.1.mem w.1.pr (CStr.ofStr command) pid n programs).bind fun r =>
      .ok (({ w.1 with mem := r.1.1, pr := r.1.2.1 }, r.2), .pr r.1.2.2.1 (some r.1.2.2.2))
  | .prClose fd n e errno envs => (prClose w.1.dbg w.2 envs w.1.pr fd n e errno).bind fun r =>
      .ok (({ w.1 with pr := r.1.1 }, r.2), .pr r.1.2 none)
  | o => (quietStep w.1 o).bind fun r => .ok ((r.1, w.2), r.2)

end Maa.DebugOut
