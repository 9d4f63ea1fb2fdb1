import Verif.Model.Maa
import Verif.Model.PrintStats
import Verif.Spec.Version

/-! # Model of the version functions (maa/maa.c:72-94) and of the text `maa_shutdown` writes

Writing never fails (simplification).  The static buffer is the list of its bytes. -/

namespace Maa.Version

open Spec (Reading decimalInt)
open PrintStats (lit)

/-- `MAA_MAJOR`, Makefile.common:1, with maa/Makefile:23. -/
def MAA_MAJOR : Int := 4
/-- `MAA_MINOR`, Makefile.common:2, with maa/Makefile:24. -/
def MAA_MINOR : Int := 1
/-- `MAA_TEENY`, Makefile.common:3, with maa/Makefile:25. -/
def MAA_TEENY : Int := 0

/-- `maa_version_major`, maa/maa.c:72-75. -/
def maaVersionMajor : Int := MAA_MAJOR
/-- `maa_version_minor`, maa/maa.c:77-80. -/
def maaVersionMinor : Int := MAA_MINOR
/-- `maa_version_teeny`, maa/maa.c:82-85. -/
def maaVersionTeeny : Int := MAA_TEENY

/-- `static char buffer[80]` at program start, maa/maa.c:89. -/
def buffer0 : List Byte := List.replicate 80 0

/-- `sprintf` of a text, maa/maa.c:91: the bytes and a NUL byte are written one after the other from the position `i` on; writing behind the
end of the buffer is undefined. -/
def put (buf : List Byte) (i : Nat) : List Byte → Res (List Byte)
  | [] => if i < buf.length then .ok (buf.set i 0) else .ub
  | b :: bs => if i < buf.length then put (buf.set i b) (i + 1) bs else .ub

/-- `maa_version`, maa/maa.c:87-94, of a library built with the numbers given (`-DMAA_MAJOR` and the like): the buffer afterwards; the result is the address of the buffer. -/
def maaVersionOf (major minor teeny : Int) (buf : List Byte) : Res (List Byte) :=
  put buf 0 (lit "Libmaa " ++ (decimalInt major ++ (lit "." ++ (decimalInt minor ++ (lit "." ++ decimalInt teeny)))))

/-- `maa_version`, maa/maa.c:87-94. -/
def maaVersion (buf : List Byte) : Res (List Byte) := maaVersionOf MAA_MAJOR MAA_MINOR MAA_TEENY buf

/-- What `maa_shutdown`, maa/maa.c:49-70, writes: streams and texts, in the order of the source; `showP` is how the C library prints pointers,
`global` the pointer to the global string pool, `stdout` and `stderr` the standard streams, `buf` the buffer of `maa_version`. -/
def shutdownText (showP : Nat → List Byte) (global stdout stderr : Nat) (w : Lib.World) (r : Reading) (buf : List Byte) :
    Res (List (Nat × List Byte)) :=
  let memory := Flags.dbgTest w.dbg Lib.MAA_MEMORY != 0
  let time := Flags.dbgTest w.dbg Lib.MAA_TIME != 0
  (if memory || time then (maaVersion buf).bind fun b => (CStr.cstr b).bind fun s => .ok [(stderr, s ++ lit "\n")] else .ok []).bind fun out =>
  (if memory then (PrintStats.printGlobal showP global w.str stdout stderr).bind fun q => .ok (out ++ [q]) else .ok out).bind fun out =>
  (Timer.timStop w.tim (some (CStr.ofStr Lib.total)) r).bind fun tim =>
  if time then (Timer.timPrintTimers tim).bind fun q => .ok (out ++ [(stderr, q.2)]) else .ok out

end Maa.Version
