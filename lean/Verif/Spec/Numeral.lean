import Verif.Model.Base

/-! # The number a text begins with -/

namespace Maa.Spec

def IsDigit (c : UInt8) : Prop := 48 ≤ c.toNat ∧ c.toNat ≤ 57

/-- Space, tab, newline, vertical tab, form feed, carriage return. -/
def IsSpace (c : UInt8) : Prop := c = 32 ∨ (9 ≤ c.toNat ∧ c.toNat ≤ 13)

/-- The number these digits write, the most significant first. -/
def valueOf (ds : List UInt8) : Nat := ds.foldl (fun v c => 10 * v + (c.toNat - 48)) 0

/-- The text begins with a number, possibly after white space and a sign; it is `v`. -/
def BeginsWithNumber (w : List UInt8) (v : Int) : Prop :=
  ∃ blanks sign ds more : List UInt8, w = blanks ++ sign ++ ds ++ more ∧ (∀ c ∈ blanks, IsSpace c) ∧ ds ≠ [] ∧ (∀ c ∈ ds, IsDigit c) ∧
    (∀ c, more.head? = some c → ¬ IsDigit c) ∧ ((sign = [] ∧ v = valueOf ds) ∨ (sign = [43] ∧ v = valueOf ds) ∨ (sign = [45] ∧ v = -valueOf ds))

/-- The text does not begin with a number. -/
def NoNumber (w : List UInt8) : Prop := ∀ v, ¬ BeginsWithNumber w v

end Maa.Spec
