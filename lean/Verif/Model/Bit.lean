import Verif.Model.Base

/-! # Model of maa/bit.c

`unsigned long` is `BitVec 64` (LP64) or `BitVec 32` (the `SIZEOF_LONG == 4` branch of `bit_cnt`);
`int` results are `BitVec 32`.  A shift count outside `0..63` is undefined behaviour in C. -/

namespace Maa.Bit

/-- `1UL << bit`, used at maa/bit.c:38,45,53; undefined unless `0 ≤ bit < 64`. -/
def oneShl (bit : Int) : Res (BitVec 64) :=
  if 0 ≤ bit ∧ bit < 64 then .ok (1#64 <<< bit.toNat) else .ub

/-- `bit_set`, maa/bit.c:36-39; returns the new `*flags`. -/
def bitSet (flags : BitVec 64) (bit : Int) : Res (BitVec 64) := do
  let m ← oneShl bit
  pure (flags ||| m)

/-- `bit_clr`, maa/bit.c:43-46; returns the new `*flags`. -/
def bitClr (flags : BitVec 64) (bit : Int) : Res (BitVec 64) := do
  let m ← oneShl bit
  pure (flags &&& ~~~m)

/-- `bit_tst`, maa/bit.c:51-54.  The `unsigned long` is converted to the `int` return type, which on
every LP64 ABI keeps the low 32 bits. -/
def bitTst (flags : BitVec 64) (bit : Int) : Res (BitVec 32) := do
  let m ← oneShl bit
  pure ((flags &&& m).truncate 32)

/-- `bit_cnt`, 64-bit branch, maa/bit.c:60,70-75.  (`x >> 1 & m` parses as `(x >> 1) & m`; the final
conversion to `int` is `truncate`.) -/
def bitCnt64 (flags : BitVec 64) : BitVec 32 :=
  let x := flags
  let x := ((x >>> 1) &&& 0x5555555555555555#64) + (x &&& 0x5555555555555555#64)
  let x := ((x >>> 2) &&& 0x3333333333333333#64) + (x &&& 0x3333333333333333#64)
  let x := ((x >>> 4) + x) &&& 0x0f0f0f0f0f0f0f0f#64
  let x := ((x >>> 8) + x) &&& 0x00ff00ff00ff00ff#64
  let x := ((x >>> 16) + x) &&& 0x0000ffff0000ffff#64
  ((x + (x >>> 32)) &&& 0xff#64).truncate 32

/-- `bit_cnt`, 32-bit branch, maa/bit.c:60,63-67. -/
def bitCnt32 (flags : BitVec 32) : BitVec 32 :=
  let x := flags
  let x := ((x >>> 1) &&& 0x55555555#32) + (x &&& 0x55555555#32)
  let x := ((x >>> 2) &&& 0x33333333#32) + (x &&& 0x33333333#32)
  let x := ((x >>> 4) + x) &&& 0x0f0f0f0f#32
  let x := ((x >>> 8) + x)
  (x + (x >>> 16)) &&& 0xff#32

end Maa.Bit
