import Verif.Spec.Table
import Verif.Model.CStr

/-! # Calls on a string pool -/

namespace Maa.Spec

/-- Calls on one string pool.  A `List Byte` argument holds the bytes readable from the pointer passed.  An
iterator is any function of the strings (pointers) it has seen before and the one it is shown. -/
inductive PoolOp where
  | exists_ (s : List Byte)
  | find (s : List Byte)
  | copy (s : List Byte)
  | copyn (s : List Byte) (len : Nat)
  | grow (s : List Byte) (len : Nat)
  | finish
  | iterate (f : List Nat → Nat → Int)
  | iterateArg (f : List Nat → Nat → Int)

/-- Arguments a call may be given: terminated strings, lengths within what is readable. -/
def PoolOp.Permitted : PoolOp → Prop
  | .exists_ s => 0 ∈ s
  | .find s => 0 ∈ s
  | .copy s => 0 ∈ s
  | .copyn s len => len + 1 ≤ s.length
  | .grow s len => len ≤ s.length
  | _ => True

/-- A call that finishes a grown string. -/
def PoolOp.isFinish : PoolOp → Bool
  | .finish => true
  | _ => false

/-- A call that adds to the string being grown. -/
def PoolOp.isGrow : PoolOp → Bool
  | .grow _ _ => true
  | _ => false

/-- Every string that was grown in this history has been finished. -/
def allFinished (hist : List PoolOp) : Bool :=
  hist.foldl (fun c o => if o.isGrow then false else if o.isFinish then true else c) true

/-- An `str_pool_iterate` whose iterator may stop early. -/
def PoolOp.isIterate : PoolOp → Bool
  | .iterate _ => true
  | _ => false

/-- The last `f` decimal digits of a number, without leading zeros. -/
def decimalAux : Nat → Nat → List Byte
  | 0, _ => []
  | f + 1, n => if n < 10 then [UInt8.ofNat (48 + n)] else decimalAux f (n / 10) ++ [UInt8.ofNat (48 + n % 10)]

/-- The decimal digits of a number, as `sprintf("%d")` writes a non-negative one (`n` has at most `n + 1`
digits, see `decimal_eq`). -/
def decimal (n : Nat) : List Byte := decimalAux (n + 1) n

theorem decimalAux_eq (f : Nat) : ∀ n g, n < f → n < g → decimalAux f n = decimalAux g n := by
  induction f with
  | zero => intro n g h; omega
  | succ f ih =>
    intro n g h1 h2
    cases g with
    | zero => omega
    | succ g =>
      simp only [decimalAux]
      split
      · rfl
      · rw [ih (n / 10) g (by omega) (by omega)]

theorem decimal_eq (n : Nat) : decimal n =
    if n < 10 then [UInt8.ofNat (48 + n)] else decimal (n / 10) ++ [UInt8.ofNat (48 + n % 10)] := by
  unfold decimal
  rw [decimalAux]
  split
  · rfl
  · rw [decimalAux_eq n (n / 10) (n / 10 + 1) (by omega) (by omega)]

/-- Calls on the global string pool. -/
inductive GlobalOp where
  | exists_ (s : List Byte)
  | find (s : List Byte)
  | findn (s : List Byte) (len : Nat)
  | copy (s : List Byte)
  | copyn (s : List Byte) (len : Nat)
  | grow (s : List Byte) (len : Nat)
  | finish
  | unique (pre : List Byte)
  | destroy

/-- Arguments these calls may be given. -/
def GlobalOp.Permitted : GlobalOp → Prop
  | .exists_ s => 0 ∈ s
  | .find s => 0 ∈ s
  | .findn s len => 0 ∈ s ∨ len ≤ s.length
  | .copy s => 0 ∈ s
  | .copyn s len => len + 1 ≤ s.length
  | .grow s len => len ≤ s.length
  | .unique s => 0 ∈ s
  | _ => True

/-- A string in memory at `p`. -/
def StringAt (mem : Nat → Option (List Byte × Nat)) (p : Nat) (s : List Byte) : Prop :=
  ∃ rest, mem p = some (s ++ 0 :: rest, 0) ∧ (0 : Byte) ∉ s

end Maa.Spec
