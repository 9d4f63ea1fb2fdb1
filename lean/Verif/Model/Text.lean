import Verif.Model.CStr

/-! # Model of maa/text.c

The characters are ASCII: `isascii (c) && isalpha (c)` holds of the letters A–Z, a–z in every locale. -/

namespace Maa.Text

/-- `map`, maa/text.c:47. -/
def map : List Byte :=
  [48, 49, 50, 51, 48, 49, 50, 48, 48, 50, 50, 52, 53, 53, 48, 49, 50, 54, 50, 51, 48, 49, 48, 50, 48, 50]

/-- `isascii (c) && isalpha (c)`, maa/text.c:55. -/
def isalpha (c : Byte) : Bool := (65 ≤ c.toNat && c.toNat ≤ 90) || (97 ≤ c.toNat && c.toNat ≤ 122)

/-- `toupper`, maa/text.c:56. -/
def toupper (c : Byte) : Nat := if 97 ≤ c.toNat ∧ c.toNat ≤ 122 then c.toNat - 32 else c.toNat

/-- `*pt = c`, maa/text.c:59, 63; `pt` is an offset into `result`. -/
def store (result : List Byte) (pt : Nat) (c : Byte) : Res (List Byte) :=
  if pt < result.length then .ok (result.set pt c) else .ub

/-- `map[ upper_case - 'A' ]`, maa/text.c:57. -/
def lookup (upper : Nat) : Res Byte :=
  match map[upper - 65]? with
  | none => .ub
  | some transform => .ok transform

/-- The loop of `txt_soundex2`, maa/text.c:54-69: the string that is left, `i`, `pt`, `previous`, `result`. -/
def loop : List Byte → Nat → Nat → Byte → List Byte → Res (List Byte)
  | [], _, _, _, _ => .ub
  | c :: cs, i, pt, previous, result =>
    if c ≠ 0 ∧ i < 4 then
      if isalpha c then
        let upper := toupper c
        (lookup upper).bind fun transform =>
          if i = 0 then
            (store result pt (UInt8.ofNat upper)).bind fun result => loop cs (i + 1) (pt + 1) transform result
          else if transform ≠ 48 ∧ transform ≠ previous then
            (store result pt transform).bind fun result => loop cs (i + 1) (pt + 1) transform result
          else loop cs i pt transform result
      else loop cs i pt previous result
    else .ok result

/-- `txt_soundex2`, maa/text.c:40-70; `result` is the memory of the caller from the pointer it passes on. -/
def soundex2 (string result : List Byte) : Res (List Byte) :=
  if result.length < 5 then .ub else loop string 0 0 0 ([90, 48, 48, 48, 0] ++ result.drop 5)

/-- `txt_soundex`, maa/text.c:72-77; `buf` is the static array, whose contents the call leaves for the next one. -/
def soundex (string buf : List Byte) : Res (List Byte) := soundex2 string buf

end Maa.Text
