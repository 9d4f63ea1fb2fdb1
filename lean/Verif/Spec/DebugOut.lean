import Verif.Spec.Log
import Verif.Spec.Source
import Verif.Spec.Pr
import Verif.Spec.Report

/-! # The debugging messages of the library

What is said about a call when the debugging flag of the source manager (`.src`) or of the process functions (`.pr`) is set; in terms of what the
call was given and what it returned. -/

namespace Maa.Spec

open Report (ascii)

/-- Four or more lower case hexadecimal digits, as `%04x` writes a number (below `16 ^ f`). -/
def hexDigits : Nat → Nat → List Byte
  | 0, _ => []
  | f + 1, n => (if f < 4 ∨ n / 16 ^ f ≠ 0 then [let d := n / 16 ^ f % 16; UInt8.ofNat (if d < 10 then 48 + d else 87 + d)] else []) ++ hexDigits f n

/-- `%04x` of a 32-bit number. -/
def hex4 (n : Nat) : List Byte := hexDigits 8 n

/-- A line has been stored as number `serial`. -/
def storedText (serial : Nat) (line : List Byte) : List Byte := ascii "Line " ++ decimal serial ++ ascii ": " ++ line

/-- A preprocessor line gave a line number, and perhaps a file name. -/
def cppText (number : List Byte) (file : Option (List Byte)) : List Byte :=
  match file with
  | none => ascii "lineno " ++ number ++ ascii "\n"
  | some f => ascii "lineno " ++ number ++ ascii " in " ++ f ++ ascii "\n"

/-- A token, `length` characters from `offset` of its line, is pointed at. -/
def pointText (offset length : Int) : List Byte :=
  ascii "s->offset = " ++ decimalInt offset ++ ascii ", fudge = 0, s->length = " ++ decimalInt length ++ ascii "\n"

/-- A command is about to be run; `file` is its first word. -/
def execText (file command : List Byte) : List Byte := ascii "Execing " ++ file ++ ascii " with \"" ++ command ++ ascii "\"\n"

/-- The parent's end of a stream of a child: number `k` of `pr_open`'s streams, given the descriptor `before`, now `after`. -/
def streamText (f : PrFlags) (k : Nat) (name : String) (before after : Option Int) : List (List Byte) :=
  if f.getLsbD (4 + k) then [ascii name ++ ascii " = " ++ decimalInt (after.getD 0) ++ ascii "; "]
  else if f.getLsbD k ∧ before.getD 0 ≠ 0 then [ascii name ++ ascii " = " ++ decimalInt (before.getD 0) ++ ascii "*; "]
  else []

/-- A child has been started. -/
def startedText (pid : Int) : List Byte := ascii "child pid = " ++ decimalInt pid ++ ascii "\n"

/-- What `pr_open` says, in order; the numbers 0 to 4 distinguish the five places. -/
def openTexts (file command : List Byte) (f : PrFlags) (infd outfd errfd : Option Int) (out : PrOut) : List (Nat × List Byte) :=
  [(0, execText file command)] ++ (streamText f 0 "stdin" infd (out.fds.getD 0 none)).map (1, ·) ++
    (streamText f 1 "stdout" outfd (out.fds.getD 1 none)).map (2, ·) ++ (streamText f 2 "stderr" errfd (out.fds.getD 2 none)).map (3, ·) ++
    [(4, startedText out.ret)]

/-- What waiting for a child says; `errno` is the reason when the system cannot wait, `ret` what the function returns. -/
def waitTexts (pid : Nat) (w : WaitEnd) (errno ret : Int) : List (Nat × List Byte) :=
  (0, ascii "waiting on pid " ++ decimal pid ++ ascii "\n") ::
    match w with
    | .ended _ => [(1, ascii "Child " ++ decimal pid ++ ascii " exited with status 0x" ++ hex4 ret.toNat ++ ascii "\n")]
    | .noChild => []
    | .failed => [(1, ascii "waitpid() < 0, errno = " ++ decimalInt errno ++ ascii "\n")]

/-- What `pr_spawn` says. -/
def spawnTexts (file command : List Byte) (pid : Nat) (w : WaitEnd) (ret : Int) : List (Nat × List Byte) :=
  [(0, execText file command), (1, startedText pid)] ++ (waitTexts pid w 0 ret).map fun t => (2 + t.1, t.2)

/-- A round of `pr_readwrite`: what `select` returned, how much is left to write, how much has been read and how much may be, and which ends are ready. -/
def roundText (returned : Int) (toWrite taken room : Nat) (outRead inWrite inError outError : Bool) : List Byte :=
  ascii "select(2) returns " ++ decimalInt returned ++ ascii ", inLen = " ++ decimal toWrite ++ ascii ", outLen = " ++ decimal taken ++
    ascii ", outMaxLen = " ++ decimal room ++ ascii "\n" ++ (if outRead then ascii "  out/read\n" else []) ++
    (if inWrite then ascii "  in/write\n" else []) ++ (if inError then ascii "  in/error\n" else []) ++
    (if outError then ascii "  out/error\n" else [])

end Maa.Spec
