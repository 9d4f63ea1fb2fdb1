import Verif.Model.OomNames
import Verif.Model.Names
import Verif.Model.PrExec
import Verif.Model.Maa

/-! # The global string pool, the log, the source manager, child processes and maa_init when memory may run out

As in Model/Oom.lean and Model/OomNames.lean: the models with every request for memory written out. -/

namespace Maa.Oom

open Spec (NameOp NameOut LogEvent LogEnv SrcVal PrFlags PrEnv PrOut Ended)
open StrPool (Global)
open Names (LogVars World)

/-! ## The global string pool -/

/-- `_str_check_global`, maa/string.c:280-283. -/
def checkGlobal (fails : Fails) (g : Global) (n : Nat) : Res (Global × Nat) :=
  match g.pool with
  | some _ => .ok (g, n)
  | none => (poolCreate fails g.mem g.cells n).bind fun p => .ok ({ g with pool := some (p.1.str, p.1.tab) }, p.2)

/-- Use of the global pool as in Model/StrPool.lean; `global` NULL is dereferenced at maa/string.c:81, 199. -/
def withGlobal {α : Type} (g : Global) (f : StrPool.Pool → Nat → Res ((StrPool.Pool × α) × Nat)) (n : Nat) : Res ((Global × α) × Nat) :=
  match g.pool with
  | none => .ub
  | some (i, t) =>
    (f { mem := g.mem, str := i, cells := g.cells, tab := t } n).bind fun r =>
      .ok (({ g with mem := r.1.1.mem, cells := r.1.1.cells, pool := some (r.1.1.str, r.1.1.tab) }, r.1.2), r.2)

/-- `str_find`, maa/string.c:299-303. -/
def strFind (fails : Fails) (g : Global) (s : List Byte) (n : Nat) : Res ((Global × Nat) × Nat) :=
  (checkGlobal fails g n).bind fun g => withGlobal g.1 (fun p n => find fails p s n) g.2

/-- `str_findn`, maa/string.c:309-318. -/
def strFindn (fails : Fails) (g : Global) (s : List Byte) (length n : Nat) : Res ((Global × Nat) × Nat) :=
  (checkGlobal fails g n).bind fun g => (StrPool.strncpyTmp s length).bind fun t =>
    withGlobal g.1 (fun p n => find fails p (t ++ [0]) n) g.2

/-- `str_copy`, maa/string.c:326-330. -/
def strCopy (fails : Fails) (g : Global) (s : List Byte) (n : Nat) : Res ((Global × Nat) × Nat) :=
  (checkGlobal fails g n).bind fun g => withGlobal g.1 (fun p n => copy fails p s n) g.2

/-- `str_copyn`, maa/string.c:336-339. -/
def strCopyn (fails : Fails) (g : Global) (s : List Byte) (length n : Nat) : Res ((Global × Nat) × Nat) :=
  withGlobal g (fun p n => copyn fails p s length n) n

/-- `str_grow`, maa/string.c:345-349. -/
def strGrow (fails : Fails) (g : Global) (s : List Byte) (length n : Nat) : Res ((Global × Unit) × Nat) :=
  (checkGlobal fails g n).bind fun g =>
    withGlobal g.1 (fun p n => (poolGrow fails p s length n).bind fun r => .ok ((r.1, ()), r.2)) g.2

/-- `str_finish`, maa/string.c:357-361. -/
def strFinish (fails : Fails) (g : Global) (n : Nat) : Res ((Global × Nat) × Nat) :=
  (checkGlobal fails g n).bind fun g => withGlobal g.1 (fun p n => poolFinish fails p n) g.2

/-- `str_unique`, maa/string.c:368-377: the loop only looks strings up. -/
def strUnique (fails : Fails) (g : Global) (pre : List Byte) (n : Nat) : Res ((Global × Nat) × Nat) :=
  (CStr.cstr pre).bind fun t =>
    (StrPool.uniqueLoop t (match g.pool with | some p => p.2.entries + 1 | none => 1) g).bind fun r => strFind fails r.1 (r.2 ++ [0]) n

/-- One call on the global pool (dispatch only; maa/string.c:288-391). -/
def globalStep (fails : Fails) (s : Global × Nat) : Spec.GlobalOp → Res ((Global × Nat) × Spec.Ret)
  | .find b => (strFind fails s.1 b s.2).bind fun r => .ok ((r.1.1, r.2), .ptr r.1.2)
  | .findn b k => (strFindn fails s.1 b k s.2).bind fun r => .ok ((r.1.1, r.2), .ptr r.1.2)
  | .copy b => (strCopy fails s.1 b s.2).bind fun r => .ok ((r.1.1, r.2), .ptr r.1.2)
  | .copyn b k => (strCopyn fails s.1 b k s.2).bind fun r => .ok ((r.1.1, r.2), .ptr r.1.2)
  | .grow b k => (strGrow fails s.1 b k s.2).bind fun r => .ok ((r.1.1, r.2), .int 0)
  | .finish => (strFinish fails s.1 s.2).bind fun r => .ok ((r.1.1, r.2), .ptr r.1.2)
  | .unique b => (strUnique fails s.1 b s.2).bind fun r => .ok ((r.1.1, r.2), .ptr r.1.2)
  | o => out (quiet (StrPool.gstep s.1 o) s.2)

/-! ## log.c -/

/-- `_log_check_filename`, maa/log.c:201-220: when the name is another one, `log_mkpath` makes a copy of it (maa/log.c:187). -/
def logCheck (fails : Fails) (σ : Log.State) (env : LogEnv) (n : Nat) : Res ((Log.State × List LogEvent) × Nat) :=
  match σ.logFilename, σ.logFilenameTmp, σ.logFilenameOrig with
  | some filename, some _, some orig =>
    if σ.logFilenameLen = 0 then .ok ((σ, []), n)
    else if σ.logFilenameLen < (env.expand orig).length + 1 then .ub
    else if env.expand orig ≠ filename then (xreq fails n).bind fun n => quiet (Log.checkFilename σ env) n
    else quiet (Log.checkFilename σ env) n
  | _, _, _ => quiet (Log.checkFilename σ env) n

/-- The same with the name as a pointer, as in Model/Names.lean (maa/log.c:201-220). -/
def checkFilename (fails : Fails) (g : Global) (s : LogVars) (env : LogEnv) (n : Nat) : Res ((LogVars × List LogEvent) × Nat) :=
  match s.vars.logFilename, s.vars.logFilenameTmp with
  | some _, some _ =>
    if s.vars.logFilenameLen = 0 then .ok ((s, []), n) else
      (Names.nameAt g s.logFilenameOrig).bind fun orig =>
        (logCheck fails { s.vars with logFilenameOrig := some orig } env n).bind fun r =>
          .ok (({ s with vars := { r.1.1 with logFilenameOrig := none } }, r.1.2), r.2)
  | _, _ => .ok ((s, []), n)

/-- `log_file`, maa/log.c:222-258: two strings and two buffers. -/
def logFile (fails : Fails) (g : Global) (s : LogVars) (ident filename : Option (List Byte)) (env : LogEnv) (n : Nat) :
    Res (((Global × LogVars) × List LogEvent) × Nat) :=
  match ident, filename with
  | some ident, some filename =>
    if s.vars.logFd ≥ 0 then .abort else
      (strFind fails g (CStr.ofStr ident) n).bind fun a =>
        (strFind fails a.1.1 (CStr.ofStr filename) a.2).bind fun b =>
          (xreq fails b.2).bind fun n => (xreq fails n).bind fun n =>
            (checkFilename fails b.1.1 (LogVars.mk { s.vars with logFilenameLen := filename.length * 3 + 1024, logFilename := some [], logFilenameTmp := some [] }
                a.1.2 b.1.2) env n).bind fun r =>
              let v := Log.setHostname r.1.1.vars env
              .ok (((b.1.1, { r.1.1 with vars := { v with logOpen := v.logOpen + 1 } }), r.1.2), r.2)
  | _, _ => quiet ((Log.logFile s.vars none none env).bind fun r => .ok ((g, { s with vars := r.1 }), r.2)) n

/-- `log_stream`, maa/log.c:260-285. -/
def logStream (fails : Fails) (g : Global) (s : LogVars) (ident : Option (List Byte)) (stream : Option Nat) (env : LogEnv) (n : Nat) :
    Res (((Global × LogVars) × List LogEvent) × Nat) :=
  match ident, stream with
  | some ident, some stream =>
    if s.vars.logUserStream.isSome then .abort else
      (strFind fails g (CStr.ofStr ident) n).bind fun a =>
        let v := Log.setHostname { s.vars with logUserStream := some stream } env
        .ok (((a.1.1, { s with vars := { v with logOpen := v.logOpen + 1 }, logIdent := a.1.2 }), []), a.2)
  | _, _ => quiet ((Log.logStream s.vars none none env).bind fun r => .ok ((g, { s with vars := r.1 }), r.2)) n

/-- `_log_base_va`, maa/log.c:294-356. -/
def logBase (fails : Fails) (g : Global) (s : LogVars) (routine : Option (List Byte)) (level : Int) (text : List Byte) (env : LogEnv) (n : Nat) :
    Res ((LogVars × List LogEvent) × Nat) :=
  if s.vars.logOpen = 0 then .ok ((s, []), n) else
    (if s.vars.logFd ≥ 0 ∨ s.vars.logUserStream.isSome then
      (Names.preamble g s env).bind fun pre =>
        let main := Log.snprintf 4096 text
        let buf := Log.lineBuf pre routine main
        (if s.vars.logFd ≥ 0 then
          (checkFilename fails g s env n).bind fun r => .ok ((r.1.1, r.1.2 ++ [LogEvent.wrote r.1.1.vars.logFd buf]), r.2)
        else .ok ((s, []), n)).bind fun r =>
        match s.vars.logUserStream with
        | none => .ok r
        | some f =>
          if f = Spec.stdout ∨ f = Spec.stderr then .ok ((r.1.1, r.1.2 ++ [LogEvent.printed f main]), r.2)
          else .ok ((r.1.1, r.1.2 ++ [LogEvent.printed f buf]), r.2)
    else .ok ((s, []), n)).bind fun r =>
    if r.1.1.vars.logSyslog ≠ 0 then .ok ((r.1.1, r.1.2 ++ [LogEvent.syslog level text]), r.2) else .ok r

/-- One call (dispatch only; maa/log.c:138-384). -/
def logStep (fails : Fails) (g : Global) (s : LogVars) (n : Nat) : Spec.LogOp → Res (((Global × LogVars) × List LogEvent) × Nat)
  | .file ident name env => logFile fails g s ident name env n
  | .stream ident f env => logStream fails g s ident f env n
  | .message routine level text env => (logBase fails g s routine level text env n).bind fun r => .ok (((g, r.1.1), r.1.2), r.2)
  | o => quiet (Names.logStep g s o) n

/-! ## source.c -/

variable {F : Type}

/-- `src_create`, maa/source.c:62-70: the array, a string memory, an object pool (a token is 24 bytes). -/
def srcCreate (fails : Fails) (σ : Source.StateOf F) (n : Nat) : Res (Source.StateOf F × Nat) :=
  match σ.lines with
  | some _ => .fatal
  | none =>
    (xreq fails n).bind fun n => (createStrings fails n).bind fun a => (createObjects fails 24 a.2).bind fun b =>
      quiet (Source.srcCreate σ) b.2

/-- `if (!Lines) src_create();`, maa/source.c:90. -/
def srcEnsure (fails : Fails) (σ : Source.StateOf F) (n : Nat) : Res (Source.StateOf F × Nat) :=
  match σ.lines with
  | none => srcCreate fails σ n
  | some _ => .ok (σ, n)

/-- `src_line`, maa/source.c:86-105: the copy and its place on the stack of the string memory, and `xrealloc` when the array is full. -/
def srcLine (fails : Fails) (σ : Source.StateOf F) (buf : List Byte) (len n : Nat) : Res ((Source.StateOf F × List Byte) × Nat) :=
  (srcEnsure fails σ n).bind fun e =>
  (xreq fails e.2).bind fun n =>
  (Source.copy buf len).bind fun s =>
  (bareReq fails n).bind fun n =>
  (Source.untab s).bind fun s =>
  (Source.setLine (Source.arr e.1) e.1.used s).bind fun a =>
  (if e.1.used + 1 ≥ e.1.count then xreq fails n else .ok n).bind fun n =>
    let g := Source.regrow a (e.1.used + 1) e.1.count
    let info := { e.1.info with line := e.1.info.line + 1, index := e.1.used, offset := 0 }
    (Source.getLine g.1 (e.1.used + 1 - 1)).bind fun r =>
    .ok (({ e.1 with lines := some g.1, count := g.2, used := e.1.used + 1, info := info, bytes := e.1.bytes + (len + 1) }, r), n)

/-- `src_get`, maa/source.c:164-192: no token is ever given back, so `mem_get_object` (maa/memory.c:303-321) makes a new one. -/
def srcGet (fails : Fails) (σ : Source.StateOf F) (length : Int) (n : Nat) : Res ((Source.StateOf F × Nat) × Nat) :=
  match σ.lines with
  | none => .fatal
  | some _ => (xreq fails n).bind fun n => (bareReq fails n).bind fun n => quiet (Source.srcGet σ length) n

/-- `src_get_stats`, maa/source.c:263-290: one structure for the answer and, if the manager exists, one for each of its two memories
(maa/memory.c:212, 358). -/
def srcStats (fails : Fails) (σ : Source.StateOf F) (n : Nat) : Res (List Nat × Nat) :=
  (xreq fails n).bind fun n =>
    match σ.lines with
    | some _ => (xreq fails n).bind fun n => (xreq fails n).bind fun n => .ok (Source.srcStats σ, n)
    | none => .ok (Source.srcStats σ, n)

/-- One call (dispatch only; maa/source.c:62-444). -/
def srcStep (fails : Fails) (g : Global) (σ : Source.StateOf Ptr) (n : Nat) : Spec.SrcOp → Res (((Global × Source.StateOf Ptr) × SrcVal) × Nat)
  | .create => (srcCreate fails σ n).bind fun r => .ok (((g, r.1), .unit), r.2)
  | .line buf len => (srcLine fails σ buf len n).bind fun r => .ok (((g, r.1.1), .str (some r.1.2)), r.2)
  | .newFile name => (strFind fails g (CStr.ofStr name) n).bind fun a => .ok (((a.1.1, Source.srcNewFile σ a.1.2), .unit), a.2)
  | .get k => (srcGet fails σ k n).bind fun r => .ok (((g, r.1.1), .tok r.1.2), r.2)
  | .stats => (srcStats fails σ n).bind fun r => .ok (((g, σ), .nums r.1), r.2)
  | o => quiet (Names.srcStep g σ o) n

/-- One call of the program (dispatch only; maa/string.c:288-391, maa/log.c:138-384, maa/source.c:62-444). -/
def worldStep (fails : Fails) (w : World × Nat) : NameOp → Res ((World × Nat) × NameOut)
  | .str o => (globalStep fails (w.1.pool, w.2) o).bind fun r => .ok (({ w.1 with pool := r.1.1 }, r.1.2), .str)
  | .log o => (logStep fails w.1.pool w.1.log w.2 o).bind fun r => .ok (({ w.1 with pool := r.1.1.1, log := r.1.1.2 }, r.2), .log r.1.2)
  | .src o => (srcStep fails w.1.pool w.1.src w.2 o).bind fun r => .ok (({ w.1 with pool := r.1.1.1, src := r.1.1.2 }, r.2), .src r.1.2)

/-! ## pr.c -/

/-- `_pr_init`, maa/pr.c:87-91: `xcalloc` the first time. -/
def prInit (fails : Fails) (σ : Pr.State) (n : Nat) : Res (Pr.State × Nat) :=
  match σ.objects with
  | none => (xreq fails n).bind fun n => .ok (Pr.prInit σ, n)
  | some _ => .ok (Pr.prInit σ, n)

/-- `pr_open2` with its command, maa/pr.c:117-229; as in Model/PrExec.lean. -/
def openCommand (fails : Fails) (h : StrMem.Mem) (σ : Pr.State) (command : List Byte) (flags : PrFlags) (infd outfd errfd : Option Int) (env : PrEnv)
    (n : Nat) : Res ((StrMem.Mem × Pr.State × PrOut × PrExec.Exec) × Nat) :=
  (prInit fails σ n).bind fun i =>
  if Pr.badFlags flags then .abort else
  (argify fails h command 0 i.2).bind fun l =>
    quiet ((Pr.prOpen i.1 flags infd outfd errfd env).bind fun r =>
      (PrExec.execArgs l.1.1 (Arg.getVector l.1.2).2).bind fun e =>
        (Arg.destroy l.1.1 l.1.2).bind fun h' => .ok (h', r.1, r.2, e)) l.2

/-- `pr_spawn` with its command, maa/pr.c:397-447; as in Model/PrExec.lean. -/
def spawnCommand (fails : Fails) (h : StrMem.Mem) (σ : Pr.State) (command : List Byte) (pid : Option Nat) (k : Nat) (programs : PrExec.Exec → Option Ended)
    (n : Nat) : Res ((StrMem.Mem × Pr.State × PrOut × PrExec.Exec) × Nat) :=
  (prInit fails σ n).bind fun i =>
  (argify fails h command 0 i.2).bind fun l =>
    quiet (match pid with
      | none => .fatal
      | some p =>
        (PrExec.execArgs l.1.1 (Arg.getVector l.1.2).2).bind fun e =>
          (Arg.destroy l.1.1 l.1.2).bind fun h' =>
            (Pr.prSpawn i.1 (some p) k (.ended (PrExec.childEnd programs e))).bind fun r => .ok (h', r.1, r.2, e)) l.2

/-! ## maa.c -/

/-- The calls of `_dbg_register` of `maa_init`, maa/maa.c:41-46. -/
def registerAll (fails : Fails) : List (BitVec 64 × List Byte) → Flags.State → Nat → Res (Flags.State × Nat)
  | [], σ, n => .ok (σ, n)
  | b :: bs, σ, n => (dbgRegisterInternal fails σ b.1 (some (CStr.ofStr b.2)) n).bind fun r => registerAll fails bs r.1 r.2

/-- `maa_init`, maa/maa.c:35-47. -/
def maaInit (fails : Fails) (w : Lib.World) (programName : Option (List Byte)) (r : Spec.Reading) (n : Nat) : Res (Lib.World × Nat) :=
  (timStart fails w.tim (some (CStr.ofStr Lib.total)) r n).bind fun tim =>
  (Err.setProgramName programName).bind fun prog =>
  (registerAll fails Lib.builtins w.dbg tim.2).bind fun dbg => .ok ({ w with tim := tim.1, prog := prog, dbg := dbg.1 }, dbg.2)

end Maa.Oom
