import Verif.Spec.Log

/-! # Model of maa/log.c

Effects on the outside world are the list of events a call returns.  What the system returns (`open`, `strftime`,
`gethostname`, `ctime`, `getpid`) is part of the call.  Messages are given formatted (`text` is what `vsnprintf` makes of
format and arguments before truncation).  Simplifications: `logIdent` and `logFilenameOrig` are modelled by the contents of
the strings `str_find` returns; the retries of `write` after `EINTR`, `fseek` and `fflush` have no effect of their own;
`mkdir` errors are ignored as in the code. -/

namespace Maa.Log

open Spec (LogEvent LogEnv)

/-- The static variables, maa/log.c:40-53, and `hostnameSet`, maa/log.c:127. -/
structure State where
  logFd : Int
  logUserStream : Option Nat
  logSyslog : Int
  inhibitFull : Int
  logOpen : Int
  logFacility : Int
  logIdent : Option (List Byte)
  logFilenameOrig : Option (List Byte)
  logFilename : Option (List Byte)
  logFilenameTmp : Option (List Byte)
  logFilenameLen : Nat
  logHostname : List Byte
  hostnameSet : Int

/-- Their values at program start; `LOG_USER` is 8. -/
def State.init : State :=
  State.mk (-1) none 0 0 0 8 none none none none 0 [] 0

/-- `_log_set_hostname`, maa/log.c:125-136: 63 bytes at most, cut at the first '.'. -/
def setHostname (σ : State) (env : LogEnv) : State :=
  if σ.hostnameSet = 0 then
    { σ with logHostname := (env.host.take 63).takeWhile (· ≠ 46), hostnameSet := 1 }
  else σ

/-- `facilitynames`, maa/log.c:60-122, the branch without `HAVE_SYSLOG_NAMES`, with the values of Linux; "kern" is left out
because `#if LOG_KERN` is `#if 0`. -/
def facilitynames : List (List Byte × Int) :=
  [ ([97, 117, 116, 104], 32),  -- auth
    ([97, 117, 116, 104, 112, 114, 105, 118], 80),  -- authpriv
    ([99, 114, 111, 110], 72),  -- cron
    ([100, 97, 101, 109, 111, 110], 24),  -- daemon
    ([102, 116, 112], 88),  -- ftp
    ([108, 112, 114], 48),  -- lpr
    ([109, 97, 105, 108], 16),  -- mail
    ([110, 101, 119, 115], 56),  -- news
    ([115, 121, 115, 108, 111, 103], 40),  -- syslog
    ([117, 115, 101, 114], 8),  -- user
    ([117, 117, 99, 112], 64),  -- uucp
    ([108, 111, 99, 97, 108, 48], 128),  -- local0
    ([108, 111, 99, 97, 108, 49], 136),  -- local1
    ([108, 111, 99, 97, 108, 50], 144),  -- local2
    ([108, 111, 99, 97, 108, 51], 152),  -- local3
    ([108, 111, 99, 97, 108, 52], 160),  -- local4
    ([108, 111, 99, 97, 108, 53], 168),  -- local5
    ([108, 111, 99, 97, 108, 54], 176),  -- local6
    ([108, 111, 99, 97, 108, 55], 184)  -- local7
  ]

/-- The loop of `log_set_facility`, maa/log.c:142-147. -/
def setLoop (σ : State) (facility : List Byte) : List (List Byte × Int) → Res State
  | [] => .fatal
  | pt :: rest => if pt.1 = facility then .ok { σ with logFacility := pt.2 } else setLoop σ facility rest

/-- `log_set_facility`, maa/log.c:138-149. -/
def setFacility (σ : State) (facility : List Byte) : Res State := setLoop σ facility facilitynames

/-- The loop of `log_get_facility`, maa/log.c:155-157. -/
def getLoop (σ : State) : List (List Byte × Int) → Option (List Byte)
  | [] => none
  | pt :: rest => if pt.2 = σ.logFacility then some pt.1 else getLoop σ rest

/-- `log_get_facility`, maa/log.c:151-158. -/
def getFacility (σ : State) : Option (List Byte) := getLoop σ facilitynames

/-- `log_option`, maa/log.c:160-164; `LOG_OPTION_NO_FULL` is 2 (maa/maa.h:594). -/
def logOption (σ : State) (option : Int) : State :=
  if option = 2 then { σ with inhibitFull := 1 } else { σ with inhibitFull := 0 }

/-- `log_syslog`, maa/log.c:166-183. -/
def logSyslog (σ : State) (ident : Option (List Byte)) : Res (State × List LogEvent) :=
  match ident with
  | some ident =>
    if σ.logSyslog ≠ 0 then .abort
    else .ok ({ σ with logOpen := σ.logOpen + 1, logSyslog := σ.logSyslog + 1 }, [.openlog ident σ.logFacility])
  | none =>
    if σ.logSyslog = 0 then .ok (σ, [])
    else .ok ({ σ with logOpen := σ.logOpen - 1, logSyslog := σ.logSyslog - 1 }, [.closelog])

/-- The loop of `log_mkpath`, maa/log.c:190-196: `done` is what precedes `pt`. -/
def mkpathLoop (done : List Byte) : List Byte → List LogEvent
  | [] => []
  | c :: rest =>
    (if c = 47 ∧ done ≠ [] then [LogEvent.mkdir done] else []) ++ mkpathLoop (done ++ [c]) rest

/-- `log_mkpath`, maa/log.c:185-199. -/
def mkpath (filename : List Byte) : List LogEvent := mkpathLoop [] filename

/-- `_log_check_filename`, maa/log.c:201-220.  If the name does not fit the buffer `strftime` leaves it indeterminate, and `strcmp` reads it. -/
def checkFilename (σ : State) (env : LogEnv) : Res (State × List LogEvent) :=
  match σ.logFilename, σ.logFilenameTmp, σ.logFilenameOrig with
  | some filename, some _, some orig =>
    if σ.logFilenameLen = 0 then .ok (σ, []) else
      let tmp := env.expand orig
      if σ.logFilenameLen < tmp.length + 1 then .ub else
      let σ := { σ with logFilenameTmp := some tmp }
      if tmp ≠ filename then
        let closing := if σ.logFd ≥ 0 then [LogEvent.closed σ.logFd] else []
        if env.fd < 0 then .fatal
        else .ok ({ σ with logFilename := some tmp, logFd := env.fd }, closing ++ mkpath tmp ++ [.opened tmp env.fd])
      else .ok (σ, [])
  | some _, some _, none => .ub
  | _, _, _ => .ok (σ, [])

/-- `log_file`, maa/log.c:222-258. -/
def logFile (σ : State) (ident filename : Option (List Byte)) (env : LogEnv) : Res (State × List LogEvent) :=
  match ident, filename with
  | some ident, some filename =>
    if σ.logFd ≥ 0 then .abort else
      let σ := { σ with logIdent := some ident, logFilenameOrig := some filename, logFilenameLen := filename.length * 3 + 1024, logFilename := some [], logFilenameTmp := some [] }
      (checkFilename σ env).bind fun r =>
        let σ := setHostname r.1 env
        .ok ({ σ with logOpen := σ.logOpen + 1 }, r.2)
  | _, _ =>
    if σ.logFd < 0 then .ok (σ, [])
    else .ok ({ σ with logFd := -1, logFilename := none, logFilenameTmp := none, logFilenameLen := 0, logOpen := σ.logOpen - 1 }, [.closed σ.logFd])

/-- `log_stream`, maa/log.c:260-285. -/
def logStream (σ : State) (ident : Option (List Byte)) (stream : Option Nat) (env : LogEnv) : Res (State × List LogEvent) :=
  match ident, stream with
  | some ident, some stream =>
    if σ.logUserStream.isSome then .abort else
      let σ := setHostname { σ with logUserStream := some stream, logIdent := some ident } env
      .ok ({ σ with logOpen := σ.logOpen + 1 }, [])
  | _, _ =>
    match σ.logUserStream with
    | none => .ok (σ, [])
    | some s =>
      let closing := if s ≠ Spec.stdout ∧ s ≠ Spec.stderr then [LogEvent.fclosed s] else []
      .ok ({ σ with logUserStream := none, logOpen := σ.logOpen - 1 }, closing)

/-- `log_close`, maa/log.c:287-292. -/
def logClose (σ : State) (env : LogEnv) : Res (State × List LogEvent) :=
  (logFile σ none none env).bind fun a =>
  (logStream a.1 none none env).bind fun b =>
  (logSyslog b.1 none).bind fun c => .ok (c.1, a.2 ++ b.2 ++ c.2)

/-- `snprintf` into a buffer of `size` bytes: what it holds before its NUL. -/
def snprintf (size : Nat) (s : List Byte) : List Byte := s.take (size - 1)

/-- `"%24.24s %.64s %s[%ld]: "` in `char[256 + MAXHOSTNAMELEN]` with `MAXHOSTNAMELEN` 64, maa/log.c:313-322. -/
def preamble (σ : State) (env : LogEnv) : Res (List Byte) :=
  if σ.inhibitFull ≠ 0 then .ok [] else
    match σ.logIdent with
    | none => .ub
    | some ident =>
      let date := env.date.take 24
      .ok (snprintf (256 + 64) (List.replicate (24 - date.length) 32 ++ date ++ [32] ++ σ.logHostname.take 64 ++ [32] ++ ident ++ [91] ++ env.pid ++ [93, 58, 32]))

/-- The line built from preamble, routine and message; part of `_log_base_va`, maa/log.c:294-356. -/
def lineBuf (pre : List Byte) (routine : Option (List Byte)) (main : List Byte) : List Byte :=
  match routine with
  | some routine => snprintf 8192 (pre ++ [40] ++ routine ++ [41, 32] ++ main ++ [10])
  | none => snprintf 8192 (pre ++ main ++ [10])

/-- `_log_base_va`, maa/log.c:294-356. -/
def base (σ : State) (routine : Option (List Byte)) (level : Int) (text : List Byte) (env : LogEnv) : Res (State × List LogEvent) :=
  if σ.logOpen = 0 then .ok (σ, []) else
    (if σ.logFd ≥ 0 ∨ σ.logUserStream.isSome then
      (preamble σ env).bind fun pre =>
        let main := snprintf 4096 text
        let buf := lineBuf pre routine main
        (if σ.logFd ≥ 0 then
          (checkFilename σ env).bind fun r => .ok (r.1, r.2 ++ [LogEvent.wrote r.1.logFd buf])
        else .ok (σ, [])).bind fun r =>
        match σ.logUserStream with
        | none => .ok r
        | some s =>
          if s = Spec.stdout ∨ s = Spec.stderr then .ok (r.1, r.2 ++ [LogEvent.printed s main])
          else .ok (r.1, r.2 ++ [LogEvent.printed s buf])
    else .ok (σ, [])).bind fun r =>
    if r.1.logSyslog ≠ 0 then .ok (r.1, r.2 ++ [LogEvent.syslog level text]) else .ok r

/-- One call (dispatch only); `log_error` is `message (some routine) LOG_ERR`, `log_info` is `message none LOG_INFO`,
maa/log.c:358-384. -/
def step (σ : State) : Spec.LogOp → Res (State × List LogEvent)
  | .file ident name env => logFile σ ident name env
  | .stream ident s env => logStream σ ident s env
  | .syslog ident => logSyslog σ ident
  | .close => logClose σ { expand := id, fd := 0, host := [], date := [], pid := [] }
  | .option o => .ok (logOption σ o, [])
  | .facility name => (setFacility σ name).bind fun σ => .ok (σ, [])
  | .message routine level text env => base σ routine level text env

end Maa.Log
