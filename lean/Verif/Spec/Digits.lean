import Verif.Model.CStr

/-! # Numbers written with digits of an alphabet -/

namespace Maa.Spec

/-- `A`–`Z`, `a`–`z`, `0`–`9`, `+`, `/`: RFC 1421. -/
def alphabet64 : List Byte :=
  (List.range 26).map (fun i => UInt8.ofNat (65 + i)) ++ (List.range 26).map (fun i => UInt8.ofNat (97 + i)) ++
    (List.range 10).map (fun i => UInt8.ofNat (48 + i)) ++ [43, 47]

/-- `a`–`z`. -/
def alphabet26 : List Byte := (List.range 26).map fun i => UInt8.ofNat (97 + i)

/-- The number a string stands for, most significant digit first; a digit is worth its position in the
alphabet, the base is the size of the alphabet. -/
def value (alphabet : List Byte) (s : List Byte) : Nat :=
  s.foldl (fun n c => n * alphabet.length + alphabet.idxOf c) 0

/-- The way a number is written: between 1 and `max` digits of the alphabet, the first one not zero unless it is
the only one, and worth that number. -/
structure Writes (alphabet : List Byte) (max : Nat) (n : Nat) (s : List Byte) : Prop where
  digits : ∀ c ∈ s, c ∈ alphabet
  length : 1 ≤ s.length ∧ s.length ≤ max
  leading : s.length = 1 ∨ s.head? ≠ alphabet.head?
  worth : value alphabet s = n

end Maa.Spec
