import Verif.Spec.Names
import Verif.Model.StrPool
import Verif.Model.Log
import Verif.Model.Source

/-! # Names kept by maa/log.c and maa/source.c, as pointers

`log_file`, `log_stream` and `src_new_file` keep the pointers `str_find` returns (maa/log.c:230-231, 267, maa/source.c:112): here they are pointers into
the memory of the string pool (Model/StrPool.lean), read when the code reads them.  Everything else is as in Model/Log.lean and Model/Source.lean, whose
functions are used with the strings read. -/

namespace Maa.Names

open Spec (NameOp NameOut LogEvent LogEnv SrcVal)
open StrPool (Global)

/-- The string at a pointer. -/
def nameAt (g : Global) (p : Ptr) : Res (List Byte) :=
  match g.mem.mem p with
  | none => .ub
  | some b => CStr.cstr b.1

/-- The variables of maa/log.c:40-53, with `logIdent` and `logFilenameOrig` as pointers (the fields of the same name in `vars` are not used). -/
structure LogVars where
  vars : Log.State
  logIdent : Ptr
  logFilenameOrig : Ptr

/-- The program. -/
structure World where
  pool : Global
  log : LogVars
  src : Source.StateOf Ptr

/-- Logging and source manager as at program start, with a string pool in any state. -/
def World.start (g : Global) : World :=
  { pool := g, log := { vars := Log.State.init, logIdent := 0, logFilenameOrig := 0 }, src := Source.StateOf.init }

/-! ## log.c -/

/-- `_log_check_filename`, maa/log.c:201-220: `logFilenameOrig` is read when the first line does not return. -/
def checkFilename (g : Global) (s : LogVars) (env : LogEnv) : Res (LogVars × List LogEvent) :=
  match s.vars.logFilename, s.vars.logFilenameTmp with
  | some _, some _ =>
    if s.vars.logFilenameLen = 0 then .ok (s, []) else
      (nameAt g s.logFilenameOrig).bind fun orig =>
        (Log.checkFilename { s.vars with logFilenameOrig := some orig } env).bind fun r => .ok ({ s with vars := { r.1 with logFilenameOrig := none } }, r.2)
  | _, _ => .ok (s, [])

/-- `log_file`, maa/log.c:222-258. -/
def logFile (g : Global) (s : LogVars) (ident filename : Option (List Byte)) (env : LogEnv) : Res ((Global × LogVars) × List LogEvent) :=
  match ident, filename with
  | some ident, some filename =>
    if s.vars.logFd ≥ 0 then .abort else
      (StrPool.strFind g (CStr.ofStr ident)).bind fun a =>
        (StrPool.strFind a.1 (CStr.ofStr filename)).bind fun b =>
          (checkFilename b.1 (LogVars.mk { s.vars with logFilenameLen := filename.length * 3 + 1024, logFilename := some [], logFilenameTmp := some [] }
              a.2 b.2) env).bind fun r =>
            let v := Log.setHostname r.1.vars env
            .ok ((b.1, { r.1 with vars := { v with logOpen := v.logOpen + 1 } }), r.2)
  | _, _ => (Log.logFile s.vars none none env).bind fun r => .ok ((g, { s with vars := r.1 }), r.2)

/-- `log_stream`, maa/log.c:260-285. -/
def logStream (g : Global) (s : LogVars) (ident : Option (List Byte)) (stream : Option Nat) (env : LogEnv) : Res ((Global × LogVars) × List LogEvent) :=
  match ident, stream with
  | some ident, some stream =>
    if s.vars.logUserStream.isSome then .abort else
      (StrPool.strFind g (CStr.ofStr ident)).bind fun a =>
        let v := Log.setHostname { s.vars with logUserStream := some stream } env
        .ok ((a.1, { s with vars := { v with logOpen := v.logOpen + 1 }, logIdent := a.2 }), [])
  | _, _ => (Log.logStream s.vars none none env).bind fun r => .ok ((g, { s with vars := r.1 }), r.2)

/-- The preamble, maa/log.c:312-322: `logIdent` is read unless `inhibitFull` is set. -/
def preamble (g : Global) (s : LogVars) (env : LogEnv) : Res (List Byte) :=
  if s.vars.inhibitFull ≠ 0 then .ok [] else
    (nameAt g s.logIdent).bind fun ident => Log.preamble { s.vars with logIdent := some ident } env

/-- `_log_base_va`, maa/log.c:294-356. -/
def base (g : Global) (s : LogVars) (routine : Option (List Byte)) (level : Int) (text : List Byte) (env : LogEnv) : Res (LogVars × List LogEvent) :=
  if s.vars.logOpen = 0 then .ok (s, []) else
    (if s.vars.logFd ≥ 0 ∨ s.vars.logUserStream.isSome then
      (preamble g s env).bind fun pre =>
        let main := Log.snprintf 4096 text
        let buf := Log.lineBuf pre routine main
        (if s.vars.logFd ≥ 0 then
          (checkFilename g s env).bind fun r => .ok (r.1, r.2 ++ [LogEvent.wrote r.1.vars.logFd buf])
        else .ok (s, [])).bind fun r =>
        match s.vars.logUserStream with
        | none => .ok r
        | some f =>
          if f = Spec.stdout ∨ f = Spec.stderr then .ok (r.1, r.2 ++ [LogEvent.printed f main])
          else .ok (r.1, r.2 ++ [LogEvent.printed f buf])
    else .ok (s, [])).bind fun r =>
    if r.1.vars.logSyslog ≠ 0 then .ok (r.1, r.2 ++ [LogEvent.syslog level text]) else .ok r

/-- One call (dispatch only; maa/log.c:138-384); the other functions do not touch the two names. -/
def logStep (g : Global) (s : LogVars) : Spec.LogOp → Res ((Global × LogVars) × List LogEvent)
  | .file ident name env => logFile g s ident name env
  | .stream ident f env => logStream g s ident f env
  | .message routine level text env => (base g s routine level text env).bind fun r => .ok ((g, r.1), r.2)
  | .syslog ident => (Log.step s.vars (.syslog ident)).bind fun r => .ok ((g, { s with vars := r.1 }), r.2)
  | .close => (Log.step s.vars .close).bind fun r => .ok ((g, { s with vars := r.1 }), r.2)
  | .option o => (Log.step s.vars (.option o)).bind fun r => .ok ((g, { s with vars := r.1 }), r.2)
  | .facility name => (Log.step s.vars (.facility name)).bind fun r => .ok ((g, { s with vars := r.1 }), r.2)

/-! ## source.c -/

/-- A token whose file name is read, as every printing function does that is given a token (maa/source.c:351, 368, 393, 413, 435). -/
def named (g : Global) (i : Source.InfoOf Ptr) : Res Source.Info :=
  match i.file with
  | none => .ok { file := none, line := i.line, offset := i.offset, length := i.length, index := i.index }
  | some p => (nameAt g p).bind fun f => .ok { file := some f, line := i.line, offset := i.offset, length := i.length, index := i.index }

/-- The token passed to a printing function, NULL or not. -/
def namedArg (g : Global) : Option (Source.InfoOf Ptr) → Res (Option Source.Info)
  | none => .ok none
  | some i => (named g i).bind fun i => .ok (some i)

/-- The part of the state the printing functions read besides the token: the array of lines. -/
def linesOnly (σ : Source.StateOf Ptr) : Source.State := { Source.StateOf.init with lines := σ.lines }

/-- `src_filename`, maa/source.c:197-205, and the string at the pointer returned. -/
def srcFilename (g : Global) (σ : Source.StateOf Ptr) (p : Nat) : Res (Option (List Byte)) :=
  (Source.access σ p).bind fun
    | some i => match i.file with
      | none => .ok none
      | some q => (nameAt g q).bind fun f => .ok (some f)
    | none => .ok (some [])

/-- The labelled message of `src_print_error` and `src_print_message`, maa/source.c:412-421, 434-443; `stream` false: NULL. -/
def message (g : Global) (σ : Source.StateOf Ptr) (stream : Bool) (h : Nat) : Option (List Byte) → Res (List Byte)
  | none => .ok []
  | some m =>
    if stream then (Source.deref σ h).bind fun s => (namedArg g s).bind fun s => (Source.prefix_ s).bind fun p => .ok (p ++ m ++ [10]) else .ub

/-- `src_print_error`, maa/source.c:406-424. -/
def srcPrintError (g : Global) (σ : Source.StateOf Ptr) (stream : Bool) (h : Nat) (formatted : Option (List Byte)) : Res (List Byte) :=
  (message g σ stream h formatted).bind fun a =>
    if stream then (Source.deref σ h).bind fun s => (namedArg g s).bind fun s => (Source.printErrorLine (linesOnly σ) s 0).bind fun b => .ok (a ++ b) else .abort

/-- One call (dispatch only; maa/source.c:62-444). -/
def srcStep (g : Global) (σ : Source.StateOf Ptr) : Spec.SrcOp → Res ((Global × Source.StateOf Ptr) × SrcVal)
  | .create => (Source.srcCreate σ).bind fun σ => .ok ((g, σ), .unit)
  | .destroy => .ok ((g, Source.srcDestroy σ), .unit)
  | .line buf len => (Source.srcLine σ buf len).bind fun r => .ok ((g, r.1), .str (some r.2))
  | .newFile name => (StrPool.strFind g (CStr.ofStr name)).bind fun a => .ok ((a.1, Source.srcNewFile σ a.2), .unit)
  | .newLine n => .ok ((g, Source.srcNewLine σ n), .unit)
  | .advance n => .ok ((g, Source.srcAdvance σ n), .unit)
  | .get n => (Source.srcGet σ n).bind fun r => .ok ((g, r.1), .tok r.2)
  | .filename h => (srcFilename g σ h).bind fun v => .ok ((g, σ), .str v)
  | .linenumber h => (Source.srcLinenumber σ h).bind fun v => .ok ((g, σ), .num v)
  | .offset h => (Source.srcOffset σ h).bind fun v => .ok ((g, σ), .num v)
  | .length h => (Source.srcLength σ h).bind fun v => .ok ((g, σ), .num v)
  | .sourceLine h => (Source.srcSourceLine σ h).bind fun v => .ok ((g, σ), .str (some v))
  | .stats => .ok ((g, σ), .nums (Source.srcStats σ))
  | .printLine h => (Source.deref σ h).bind fun s => (namedArg g s).bind fun s => (Source.printLine (linesOnly σ) s).bind fun v => .ok ((g, σ), .text v)
  | .printError stream h m => (srcPrintError g σ stream h m).bind fun v => .ok ((g, σ), .text v)
  | .printMessage stream h m => (message g σ stream h m).bind fun v => .ok ((g, σ), .text v)

/-- One call of the program (dispatch only; maa/string.c:288-391, maa/log.c:138-384, maa/source.c:62-444). -/
def step (w : World) : NameOp → Res (World × NameOut)
  | .str o => (StrPool.gstep w.pool o).bind fun r => .ok ({ w with pool := r.1 }, .str)
  | .log o => (logStep w.pool w.log o).bind fun r => .ok ({ w with pool := r.1.1, log := r.1.2 }, .log r.2)
  | .src o => (srcStep w.pool w.src o).bind fun r => .ok ({ w with pool := r.1.1, src := r.1.2 }, .src r.2)

end Maa.Names
