import Verif.Model.Base

/-! # C strings

A `const char *` argument is modelled by the bytes that may be read from it on (a buffer).  The string
it holds is what precedes the first NUL; looking for the NUL in a buffer that has none is undefined
behaviour. -/

namespace Maa

/-- A `char`; `char` is signed on the modelled platform (see `CStr.signed`). -/
abbrev Byte := UInt8

namespace CStr

/-- What `strlen`, `strcmp`, `strcpy`, … see of a buffer: the bytes before the first NUL. -/
def cstr : List Byte → Res (List Byte)
  | [] => .ub
  | b :: bs => if b = 0 then .ok [] else (cstr bs).bind fun s => .ok (b :: s)

/-- A string in memory. -/
def ofStr (s : List Byte) : List Byte := s ++ [0]

/-- The value of a `char` converted to `unsigned long`: sign extension (maa/hash.c:491, 517: `h += *pt++`). -/
def signed (b : Byte) : Nat := if b.toNat < 128 then b.toNat else 2 ^ 64 - 256 + b.toNat

/-- `strcmp` on two strings (C library; used by maa/hash.c:536). -/
def strcmp : List Byte → List Byte → Int
  | [], [] => 0
  | [], b :: _ => -(b.toNat : Int)
  | a :: _, [] => a.toNat
  | a :: as, b :: bs => if a = b then strcmp as bs else (a.toNat : Int) - b.toNat

/-- The loop of `hsh_string_hash`, maa/hash.c:490-497, on `unsigned long` (64 bits). -/
def strHashLoop (h : Nat) : List Byte → Nat
  | [] => h
  | b :: bs => strHashLoop ((h + signed b) % 2 ^ 64 * 2654435789 % 2 ^ 64) bs

/-- `hsh_string_hash`, maa/hash.c:482-500; `none` is the NULL key. -/
def hshStringHash : Option (List Byte) → Res Nat
  | none => .abort
  | some buf => (cstr buf).bind fun s => .ok (strHashLoop 0 s)

/-- `hsh_string_compare`, maa/hash.c:530-537. -/
def hshStringCompare : Option (List Byte) → Option (List Byte) → Res Int
  | some a, some b => (cstr a).bind fun s => (cstr b).bind fun t => .ok (strcmp s t)
  | _, _ => .abort

/-- The bytes of a pointer, least significant first: `pt = (const char *)&key` on the modelled
little-endian machine with `SIZEOF_VOID_P` 8, maa/hash.c:511. -/
def ptrBytes (p : Nat) : List Byte := (List.range 8).map fun i => UInt8.ofNat (p / 256 ^ i % 256)

/-- `hsh_pointer_hash`, maa/hash.c:502-528. -/
def hshPointerHash (p : Nat) : Nat := strHashLoop 0 (ptrBytes p) % 2 ^ 32

/-- `key - (const char *)0` as `intptr_t`, maa/hash.c:541-542. -/
def intptr (p : Nat) : Int := if p < 2 ^ 63 then p else (p : Int) - 2 ^ 64

/-- `hsh_pointer_compare`, maa/hash.c:539-550. -/
def hshPointerCompare (p q : Nat) : Int :=
  if intptr p < intptr q then -1 else if intptr p > intptr q then 1 else 0

end CStr
end Maa
