import Verif.Model.CStr

/-! # The Soundex code of a string (Knuth, The Art of Computer Programming, volume 3) -/

namespace Maa.Spec

/-- Letters are those of ASCII. -/
def isLetter (c : Byte) : Bool := (65 ≤ c.toNat && c.toNat ≤ 90) || (97 ≤ c.toNat && c.toNat ≤ 122)

/-- Capital form of a letter. -/
def capital (c : Byte) : Byte := if 97 ≤ c.toNat then UInt8.ofNat (c.toNat - 32) else c

/-- Digit of a capital: the consonants form six groups (BFPV, CGJKQSXZ, DT, L, MN, R), the other letters (vowels, H, W, Y) have 0. -/
def soundexCode (c : Byte) : Byte :=
  if c ∈ [66, 70, 80, 86] then 49 else
  if c ∈ [67, 71, 74, 75, 81, 83, 88, 90] then 50 else
  if c ∈ [68, 84] then 51 else
  if c ∈ [76] then 52 else
  if c ∈ [77, 78] then 53 else
  if c ∈ [82] then 54 else 48

/-- The letters of a string, as capitals. -/
def capitals (s : List Byte) : List Byte := (s.filter isLetter).map capital

/-- The digits of the letters after the first: none for a letter with digit 0 or with the same digit as the letter
before it. -/
def soundexDigits (letters : List Byte) : List Byte :=
  (letters.zip letters.tail).filterMap fun p =>
    if soundexCode p.2 = 48 ∨ soundexCode p.2 = soundexCode p.1 then none else some (soundexCode p.2)

/-- The first letter and three digits, padded with `0`; `Z000` without any letter. -/
def soundex (s : List Byte) : List Byte :=
  match capitals s with
  | [] => [90, 48, 48, 48]
  | first :: others => (first :: soundexDigits (first :: others) ++ [48, 48, 48]).take 4

end Maa.Spec
