import Verif.Model.CStr

/-! # Model of maa/base64.c and maa/base26.c

`unsigned long` is a `Nat` below 2⁶⁴.  Signed `int` arithmetic that overflows, and shifts by 32 or more, are
undefined behaviour; the definitions ending in `Wrap` are the same functions on a compiler that lets `int`
wrap around instead.  A string is the bytes readable from the pointer. -/

namespace Maa.BaseN

open CStr (cstr)

/-- `b64_list`, maa/base64.c:55-56. -/
def b64List : List Byte :=
  [65, 66, 67, 68, 69, 70, 71, 72, 73, 74, 75, 76, 77, 78, 79, 80, 81, 82, 83, 84, 85, 86, 87, 88, 89, 90,
   97, 98, 99, 100, 101, 102, 103, 104, 105, 106, 107, 108, 109, 110, 111, 112, 113, 114, 115, 116, 117, 118, 119, 120, 121, 122,
   48, 49, 50, 51, 52, 53, 54, 55, 56, 57, 43, 47]

/-- `b64_index`, maa/base64.c:60-77; `XX` is 100. -/
def b64Index : List Nat :=
  [
   100, 100, 100, 100, 100, 100, 100, 100, 100, 100, 100, 100, 100, 100, 100, 100,
   100, 100, 100, 100, 100, 100, 100, 100, 100, 100, 100, 100, 100, 100, 100, 100,
   100, 100, 100, 100, 100, 100, 100, 100, 100, 100, 100, 62, 100, 100, 100, 63,
   52, 53, 54, 55, 56, 57, 58, 59, 60, 61, 100, 100, 100, 100, 100, 100,
   100, 0, 1, 2, 3, 4, 5, 6, 7, 8, 9, 10, 11, 12, 13, 14,
   15, 16, 17, 18, 19, 20, 21, 22, 23, 24, 25, 100, 100, 100, 100, 100,
   100, 26, 27, 28, 29, 30, 31, 32, 33, 34, 35, 36, 37, 38, 39, 40,
   41, 42, 43, 44, 45, 46, 47, 48, 49, 50, 51, 100, 100, 100, 100, 100,
   100, 100, 100, 100, 100, 100, 100, 100, 100, 100, 100, 100, 100, 100, 100, 100,
   100, 100, 100, 100, 100, 100, 100, 100, 100, 100, 100, 100, 100, 100, 100, 100,
   100, 100, 100, 100, 100, 100, 100, 100, 100, 100, 100, 100, 100, 100, 100, 100,
   100, 100, 100, 100, 100, 100, 100, 100, 100, 100, 100, 100, 100, 100, 100, 100,
   100, 100, 100, 100, 100, 100, 100, 100, 100, 100, 100, 100, 100, 100, 100, 100,
   100, 100, 100, 100, 100, 100, 100, 100, 100, 100, 100, 100, 100, 100, 100, 100,
   100, 100, 100, 100, 100, 100, 100, 100, 100, 100, 100, 100, 100, 100, 100, 100,
   100, 100, 100, 100, 100, 100, 100, 100, 100, 100, 100, 100, 100, 100, 100, 100]

/-- `b26_list`, maa/base26.c:35-36. -/
def b26List : List Byte :=
  [97, 98, 99, 100, 101, 102, 103, 104, 105, 106, 107, 108, 109, 110, 111, 112, 113, 114, 115, 116, 117, 118, 119, 120, 121, 122]

/-- `b26_index`, maa/base26.c:40-57; `XX` is 100. -/
def b26Index : List Nat :=
  [
   100, 100, 100, 100, 100, 100, 100, 100, 100, 100, 100, 100, 100, 100, 100, 100,
   100, 100, 100, 100, 100, 100, 100, 100, 100, 100, 100, 100, 100, 100, 100, 100,
   100, 100, 100, 100, 100, 100, 100, 100, 100, 100, 100, 100, 100, 100, 100, 100,
   100, 100, 100, 100, 100, 100, 100, 100, 100, 100, 100, 100, 100, 100, 100, 100,
   100, 100, 100, 100, 100, 100, 100, 100, 100, 100, 100, 100, 100, 100, 100, 100,
   100, 100, 100, 100, 100, 100, 100, 100, 100, 100, 100, 100, 100, 100, 100, 100,
   100, 0, 1, 2, 3, 4, 5, 6, 7, 8, 9, 10, 11, 12, 13, 14,
   15, 16, 17, 18, 19, 20, 21, 22, 23, 24, 25, 100, 100, 100, 100, 100,
   100, 100, 100, 100, 100, 100, 100, 100, 100, 100, 100, 100, 100, 100, 100, 100,
   100, 100, 100, 100, 100, 100, 100, 100, 100, 100, 100, 100, 100, 100, 100, 100,
   100, 100, 100, 100, 100, 100, 100, 100, 100, 100, 100, 100, 100, 100, 100, 100,
   100, 100, 100, 100, 100, 100, 100, 100, 100, 100, 100, 100, 100, 100, 100, 100,
   100, 100, 100, 100, 100, 100, 100, 100, 100, 100, 100, 100, 100, 100, 100, 100,
   100, 100, 100, 100, 100, 100, 100, 100, 100, 100, 100, 100, 100, 100, 100, 100,
   100, 100, 100, 100, 100, 100, 100, 100, 100, 100, 100, 100, 100, 100, 100, 100,
   100, 100, 100, 100, 100, 100, 100, 100, 100, 100, 100, 100, 100, 100, 100, 100]

/-- `for (i = 0; i < n; i++) if (result[i] != list[0]) return result + i; return result + n`,
maa/base64.c:95-96, maa/base26.c:77-78: the string (without its NUL) the returned pointer points to. -/
def strip (zero : Byte) : Nat → List Byte → List Byte
  | 0, s => s
  | n + 1, s =>
    match s with
    | [] => []
    | c :: t => if c ≠ zero then s else strip zero n t

/-- The six digits stored by `b64_encode`, maa/base64.c:87-92. -/
def b64Digits (val : Nat) : List Byte :=
  [b64List.getD ((val &&& 0xc0000000) >>> 30) 0, b64List.getD ((val &&& 0x3f000000) >>> 24) 0,
   b64List.getD ((val &&& 0x00fc0000) >>> 18) 0, b64List.getD ((val &&& 0x0003f000) >>> 12) 0,
   b64List.getD ((val &&& 0x00000fc0) >>> 6) 0, b64List.getD (val &&& 0x0000003f) 0]

/-- `b64_encode`, maa/base64.c:82-97. -/
def b64Encode (val : Nat) : List Byte := strip (b64List.getD 0 0) 5 (b64Digits val)

/-- The value of the table entry for a character (256 entries: always inside the table). -/
def entry (table : List Nat) (c : Byte) : Nat := table.getD c.toNat 100

/-- `tmp << offset` on `int`, maa/base64.c:112. -/
def shiftInt (tmp offset : Nat) : Res Nat := if 32 ≤ offset ∨ 2 ^ 31 ≤ tmp * 2 ^ offset then .ub else .ok (tmp * 2 ^ offset)

/-- The loop of `b64_decode_buf`, maa/base64.c:105-114, over the characters from the last to the first. -/
def b64Loop : List Byte → Nat → Nat → Res Nat
  | [], v, _ => .ok v
  | c :: cs, v, offset =>
    let tmp := entry b64Index c
    if tmp = 100 then .abort
    else (shiftInt tmp offset).bind fun x => b64Loop cs (v ||| x) (offset + 6)

/-- `b64_decode_buf`, maa/base64.c:99-117; `len` fits in an `int` (simplification). -/
def b64DecodeBuf (val : List Byte) (len : Nat) : Res Nat :=
  if val.length < len then .ub else b64Loop (val.take len).reverse 0 0

/-- `b64_decode`, maa/base64.c:119-122. -/
def b64Decode (val : List Byte) : Res Nat := (cstr val).bind fun s => b64DecodeBuf val s.length

/-- An `int` that wraps around. -/
def wrap32 (x : Int) : Int := (x + 2 ^ 31) % 2 ^ 32 - 2 ^ 31

/-- Conversion of an `int` to `unsigned long`. -/
def toULong (x : Int) : Nat := (x % 2 ^ 64).toNat

/-- maa/base64.c:105-114 with `int` wrapping around (shifts by 32 or more stay undefined). -/
def b64LoopWrap : List Byte → Nat → Nat → Res Nat
  | [], v, _ => .ok v
  | c :: cs, v, offset =>
    let tmp := entry b64Index c
    if tmp = 100 then .abort
    else if 32 ≤ offset then .ub
    else b64LoopWrap cs (v ||| toULong (wrap32 (tmp * 2 ^ offset))) (offset + 6)

/-- `b64_decode`, maa/base64.c:119-122, with `int` wrapping around. -/
def b64DecodeWrap (val : List Byte) : Res Nat := (cstr val).bind fun s => b64LoopWrap s.reverse 0 0

/-- The static variables of `b26_encode`, maa/base26.c:64-65. -/
structure B26 where
  result : List Byte
  previous : Nat

/-- Their initial values, maa/base26.c:64-65. -/
def B26.init : B26 := { result := [97, 97, 97, 97, 97, 97, 97], previous := 0 }

/-- The loop of `b26_encode`, maa/base26.c:70-73: digits `i`, …, 0, written in front of those already written. -/
def b26Loop : Nat → Nat → List Byte → List Byte
  | 0, _, acc => acc
  | i + 1, val, acc => b26Loop i (val / 26) (b26List.getD (val % 26) 0 :: acc)

/-- `b26_encode`, maa/base26.c:62-79. -/
def b26Encode (σ : B26) (val : Nat) : B26 × List Byte :=
  let σ := if σ.previous ≠ val then { result := b26Loop 7 val [], previous := val } else σ
  (σ, strip (b26List.getD 0 0) 6 σ.result)

/-- The loop of `b26_decode`, maa/base26.c:88-98, over the characters from the last to the first; `int` overflow is
undefined.  `v` is `unsigned long`. -/
def b26Loop' : List Byte → Nat → Nat → Res Nat
  | [], v, _ => .ok v
  | c :: cs, v, offset =>
    let tmp := entry b26Index c
    if tmp = 100 then .abort
    else if 2 ^ 31 ≤ tmp * offset then .ub
    else if 2 ^ 31 ≤ offset * 26 then .ub
    else b26Loop' cs ((v + tmp * offset) % 2 ^ 64) (offset * 26)

/-- `b26_decode`, maa/base26.c:81-101. -/
def b26Decode (val : List Byte) : Res Nat := (cstr val).bind fun s => b26Loop' s.reverse 0 1

/-- maa/base26.c:88-98 with `int` wrapping around. -/
def b26LoopWrap : List Byte → Nat → Int → Res Nat
  | [], v, _ => .ok v
  | c :: cs, v, offset =>
    let tmp := entry b26Index c
    if tmp = 100 then .abort
    else b26LoopWrap cs ((v + toULong (wrap32 (tmp * offset))) % 2 ^ 64) (wrap32 (offset * 26))

/-- `b26_decode`, maa/base26.c:81-101, with `int` wrapping around. -/
def b26DecodeWrap (val : List Byte) : Res Nat := (cstr val).bind fun s => b26LoopWrap s.reverse 0 1

end Maa.BaseN
