import Verif.Spec.Run
import Verif.Model.CStr

/-! # What the outside world sees of the logging functions -/

namespace Maa.Spec

/-- Effects on the outside world. -/
inductive LogEvent where
  | mkdir (path : List Byte)
  | opened (name : List Byte) (fd : Int)
  | closed (fd : Int)
  | wrote (fd : Int) (bytes : List Byte)
  | printed (stream : Nat) (bytes : List Byte)
  | fclosed (stream : Nat)
  | openlog (ident : List Byte) (facility : Int)
  | closelog
  | syslog (level : Int) (text : List Byte)
  deriving DecidableEq

/-- The standard streams; any other number is another `FILE *`. -/
def stdout : Nat := 1
def stderr : Nat := 2

/-- The directories that lead to a file: every part before a '/' but the first character. -/
def parents (name : List Byte) : List (List Byte) :=
  ((List.range name.length).filter fun i => i ≠ 0 ∧ name[i]? = some 47).map name.take

/-- What the system contributes to a call: the expansion of a file name pattern by `strftime` at the time of the call,
the descriptor `open` returns (negative on failure), the host name, the date, the process number. -/
structure LogEnv where
  expand : List Byte → List Byte
  fd : Int
  host : List Byte
  date : List Byte
  pid : List Byte

/-- Calls on log.c; `message routine level text`: `text` is the formatted message. -/
inductive LogOp where
  | file (ident name : Option (List Byte)) (env : LogEnv)
  | stream (ident : Option (List Byte)) (stream : Option Nat) (env : LogEnv)
  | syslog (ident : Option (List Byte))
  | close
  | option (option : Int)
  | facility (name : List Byte)
  | message (routine : Option (List Byte)) (level : Int) (text : List Byte) (env : LogEnv)

/-- The open sinks: log file (its pattern, its present name and descriptor), user stream, syslog; and what goes into a
line: the ident of the last sink opened, the host name, and whether lines have a preamble. -/
structure Sinks where
  file : Option (List Byte × List Byte × Int)
  stream : Option Nat
  syslog : Bool
  ident : List Byte
  host : Option (List Byte)
  full : Bool
  facility : Int

/-- Program start; the facility is `LOG_USER`. -/
def Sinks.init : Sinks := { file := none, stream := none, syslog := false, ident := [], host := none, full := true, facility := 8 }

/-- The host name used: at most 63 bytes, without the domain. -/
def shortHost (h : List Byte) : List Byte := (h.take 63).takeWhile (· ≠ 46)

/-- Text cut to fit a buffer of `size` bytes, terminating NUL included. -/
def fit (size : Nat) (s : List Byte) : List Byte := s.take (size - 1)

/-- The beginning of a line: date (24 characters), host, ident[pid]. -/
def Sinks.preamble (S : Sinks) (env : LogEnv) : List Byte :=
  if S.full then
    fit 320 (List.replicate (24 - env.date.length) 32 ++ env.date.take 24 ++ [32] ++ (S.host.getD []).take 64 ++ [32] ++ S.ident ++ [91] ++ env.pid ++ [93, 58, 32])
  else []

/-- The line for a message. -/
def Sinks.line (S : Sinks) (routine : Option (List Byte)) (text : List Byte) (env : LogEnv) : List Byte :=
  fit 8192 (S.preamble env ++ (match routine with | some r => [40] ++ r ++ [41, 32] | none => []) ++ fit 4096 text ++ [10])

/-- Opening the file `n`. -/
def openEvents (n : List Byte) (fd : Int) : List LogEvent := (parents n).map .mkdir ++ [.opened n fd]

/-- Closing the log file. -/
def Sinks.closeFile (S : Sinks) : Sinks × List LogEvent :=
  match S.file with
  | none => (S, [])
  | some f => ({ S with file := none }, [.closed f.2.2])

/-- Closing the user stream; the standard streams stay open for others. -/
def Sinks.closeStream (S : Sinks) : Sinks × List LogEvent :=
  match S.stream with
  | none => (S, [])
  | some s => ({ S with stream := none }, if s = stdout ∨ s = stderr then [] else [.fclosed s])

/-- Closing syslog. -/
def Sinks.closeSyslog (S : Sinks) : Sinks × List LogEvent :=
  if S.syslog then ({ S with syslog := false }, [.closelog]) else (S, [])

/-- The pattern `pat` stands for a name that is longer than the library has room for: three times the pattern and 1023 bytes. -/
def tooLong (pat name : List Byte) : Bool := decide (3 * pat.length + 1023 < name.length)

/-- A message to the log file: if the pattern now stands for another name that file is opened instead. -/
def Sinks.toFile (S : Sinks) (line : List Byte) (env : LogEnv) : Res (Sinks × List LogEvent) :=
  match S.file with
  | none => .ok (S, [])
  | some (pat, n, fd) =>
    if tooLong pat (env.expand pat) then .ub
    else if env.expand pat = n then .ok (S, [.wrote fd line])
    else if env.fd < 0 then .fatal
    else .ok ({ S with file := some (pat, env.expand pat, env.fd) },
      [.closed fd] ++ openEvents (env.expand pat) env.fd ++ [.wrote env.fd line])

/-- A message to the user stream; the standard streams get the bare text. -/
def Sinks.toStream (S : Sinks) (line text : List Byte) : List LogEvent :=
  match S.stream with
  | none => []
  | some s => if s = stdout ∨ s = stderr then [.printed s (fit 4096 text)] else [.printed s line]

/-- One call (`facilities`: the facility names the system knows; option 2 is `LOG_OPTION_NO_FULL`), and what it does to the outside world. -/
def logStep (facilities : List (List Byte × Int)) (S : Sinks) : LogOp → Res (Sinks × List LogEvent)
  | .file (some id) (some pat) env =>
    if S.file ≠ none then .abort else
      let S := { S with ident := id, host := some (S.host.getD (shortHost env.host)) }
      if tooLong pat (env.expand pat) then .ub
      else if env.expand pat = [] then .ok (S, [])
      else if env.fd < 0 then .fatal
      else .ok ({ S with file := some (pat, env.expand pat, env.fd) }, openEvents (env.expand pat) env.fd)
  | .file _ _ _ => .ok S.closeFile
  | .stream (some id) (some s) env =>
    if S.stream ≠ none then .abort else
      .ok ({ S with stream := some s, ident := id, host := some (S.host.getD (shortHost env.host)) }, [])
  | .stream _ _ _ => .ok S.closeStream
  | .syslog (some id) => if S.syslog then .abort else .ok ({ S with syslog := true }, [.openlog id S.facility])
  | .syslog none => .ok S.closeSyslog
  | .close => .ok ({ S with file := none, stream := none, syslog := false },
      S.closeFile.2 ++ S.closeStream.2 ++ S.closeSyslog.2)
  | .option o => .ok ({ S with full := o != 2 }, [])
  | .facility name =>
    match facilities.find? fun p => p.1 = name with
    | none => .fatal
    | some p => .ok ({ S with facility := p.2 }, [])
  | .message routine level text env =>
    (S.toFile (S.line routine text env) env).bind fun r =>
      .ok (r.1, r.2 ++ S.toStream (S.line routine text env) text ++ if S.syslog then [.syslog level text] else [])

end Maa.Spec
