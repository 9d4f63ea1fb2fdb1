import Verif.Model.SlProgs
import Verif.Model.PrintStats

/-! # Model of `_sl_dump` (maa/sl.c, with SL_DEBUG 0), as the text it prints

Conventions as in Model/PrintStats.lean.  `(unsigned long)` of a pointer is the pointer. -/

namespace Maa.PrintStats

open Spec (decimal decimalInt)

/-- The loop of `_sl_dump`, maa/sl.c:465-483, from `pt` and `count` on; the first argument bounds the number of rounds. -/
def slDumpLoop (showP : Nat → List Byte) (s : Sl.SList) (h : Sl.Heap) : Nat → Nat → Nat → List Byte → Res (List Byte)
  | 0, _, _, _ => .ub
  | n + 1, pt, count, out =>
    if pt = 0 then .ok out
    else (h.datum pt).bind fun d =>
      let k := if d ≠ 0 then s.key d else 0
      let out := out ++ lit "  Entry " ++ showP pt ++ lit " (" ++ decimal count ++ lit "/" ++ showP d ++ lit "/0x" ++ showP k ++ lit "=" ++
        decimal k ++ lit ")\n"
      (h.fwd pt 0).bind fun next => slDumpLoop showP s h n next (count + 1) out

/-- `_sl_dump`, maa/sl.c:456-483: prints to stdout. -/
def slDump (showP : Nat → List Byte) (σ : Sl.State) (l : Nat) : Res (List Byte) :=
  (σ.check l).bind fun s =>
    slDumpLoop showP s σ.heap (σ.heap.clock + 1) s.head 0 (lit "Level = " ++ decimalInt s.level ++ lit ", count = " ++ decimalInt s.count ++ lit "\n")

end Maa.PrintStats
