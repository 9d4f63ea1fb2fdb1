import Verif.Model.Pr
import Verif.Model.StrStats
import Verif.Model.Lists
import Verif.Model.Sl
import Verif.Model.Timer
import Verif.Model.Flags
import Verif.Model.Error

/-! # Model of maa/maa.c

The static state of the library is the product of the states of its modules, which share nothing. -/

namespace Maa.Lib

open Spec (Reading PrEvent)

/-- The static variables of the modules `maa_init` and `maa_shutdown` deal with. -/
structure World where
  pr : Pr.State
  str : StrPool.Global
  lst : Lst.State
  sl : Sl.State
  tim : Timer.State
  flg : Flags.State
  dbg : Flags.State
  prog : Err.Prog

/-- Program start. -/
def World.init (maxFd : Nat) (p1 p2 p3 : Policy := Heap.neverAgain) : World where
  pr := Pr.State.init maxFd
  str := StrPool.Global.init p1 p2
  lst := Lst.State.init p3
  sl := Sl.State.init
  tim := Timer.State.init
  flg := Flags.State.init
  dbg := Flags.State.init
  prog := none

/-- `"total"`, maa/maa.c:37, 63. -/
def total : List Byte := [116, 111, 116, 97, 108]

/-- `MAA_MEMORY`, maa/maa.h:74. -/
def MAA_MEMORY : BitVec 64 := 0xe0000000
/-- `MAA_TIME`, maa/maa.h:75. -/
def MAA_TIME : BitVec 64 := 0xd0000000
/-- `MAA_PR`, maa/maa.h:76. -/
def MAA_PR : BitVec 64 := 0xc8000000
/-- `MAA_SL`, maa/maa.h:77. -/
def MAA_SL : BitVec 64 := 0xc4000000
/-- `MAA_PARSE`, maa/maa.h:78. -/
def MAA_PARSE : BitVec 64 := 0xc2000000
/-- `MAA_SRC`, maa/maa.h:79. -/
def MAA_SRC : BitVec 64 := 0xc1000000

/-- The names registered by `maa_init`, maa/maa.c:41-46. -/
def builtins : List (BitVec 64 × List Byte) :=
  [ (MAA_MEMORY, [46, 109, 101, 109, 111, 114, 121]),  -- .memory
    (MAA_TIME, [46, 116, 105, 109, 101]),  -- .time
    (MAA_PR, [46, 112, 114]),  -- .pr
    (MAA_SL, [46, 115, 108]),  -- .sl
    (MAA_SRC, [46, 115, 114, 99]),  -- .src
    (MAA_PARSE, [46, 112, 97, 114, 115, 101])  -- .parse
  ]

/-- The calls of `_dbg_register` in a row. -/
def registerAll : List (BitVec 64 × List Byte) → Flags.State → Res Flags.State
  | [], σ => .ok σ
  | b :: bs, σ => (Flags.dbgRegisterInternal σ b.1 (some (CStr.ofStr b.2))).bind fun σ => registerAll bs σ

/-- `maa_init`, maa/maa.c:35-47; `r` is what the clocks show. -/
def maaInit (w : World) (programName : Option (List Byte)) (r : Reading) : Res World :=
  (Timer.timStart w.tim (some (CStr.ofStr total)) r).bind fun tim =>
  (Err.setProgramName programName).bind fun prog =>
  (registerAll builtins w.dbg).bind fun dbg => .ok { w with tim := tim, prog := prog, dbg := dbg }

/-- What `maa_shutdown` prints: the version, the string statistics (the numbers, not their layout), the text of the timers. -/
inductive Report where
  | version
  | strings (s : StrPool.Stats)
  | timers (text : List Byte)

/-- `_sl_shutdown`, maa/sl.c:233-237: the pool that holds the list structures is destroyed, so no list exists any more; the
entries, which are allocated one by one, stay allocated. -/
def slShutdown (σ : Sl.State) : Sl.State := { σ with lists := fun _ => none }

/-- `maa_shutdown`, maa/maa.c:49-70, with `str_print_stats` (maa/string.c:264-275, 401-404) printing the statistics of the global pool. -/
def maaShutdown (w : World) (r : Reading) : Res (World × List PrEvent × List Report) :=
  let memory := Flags.dbgTest w.dbg MAA_MEMORY != 0
  let time := Flags.dbgTest w.dbg MAA_TIME != 0
  (if memory then (StrPool.strGetStats w.str).bind fun s => .ok [Report.strings s] else .ok []).bind fun strings =>
  let p := Pr.shutdown w.pr
  (StrPool.strDestroy w.str).bind fun str =>
  (Lst.lstShutdown w.lst).bind fun lst =>
  (Timer.timStop w.tim (some (CStr.ofStr total)) r).bind fun tim =>
  (if time then (Timer.timPrintTimers tim).bind fun q => .ok (q.1, [Report.timers q.2]) else .ok (tim, [])).bind fun t =>
  (Timer.timShutdown t.1).bind fun tim =>
  (Flags.flgDestroy w.flg).bind fun flg =>
  (Flags.dbgDestroy w.dbg).bind fun dbg =>
    .ok ({ pr := p.1, str := str, lst := lst, sl := slShutdown w.sl, tim := tim, flg := flg, dbg := dbg, prog := w.prog }, p.2.events,
      (if memory || time then [Report.version] else []) ++ strings ++ t.2)

end Maa.Lib
