import Verif.Spec.Flags
import Verif.Spec.Table
import Verif.Spec.Timer

/-! # Strings lent to the library

A table of strings, the flags and the timers keep the address of a name, not a copy.  A *loan* is an address and the string that was there when
it was handed over.  The loan lasts as long as the name is in the table. -/

namespace Maa.Spec

/-- The program's memory at some moment: the bytes that can be read from an address on; `none` where nothing is allocated. -/
abbrev Memory := Nat → Option (List Byte)

/-- The C string at an address: the bytes before the first NUL, if the address is not NULL and there is one in the memory readable there. -/
def stringAt (m : Memory) (p : Nat) : Option (List Byte) :=
  if p = 0 then none else (m p).bind fun buf => if (0 : Byte) ∈ buf then some (buf.takeWhile (· ≠ 0)) else none

/-- Addresses and the strings lent at them. -/
abbrev Loans := List (Nat × List Byte)

/-- The string at `p` is handed over; a name that is known already is not taken. -/
def Loans.lend (B : Loans) (m : Memory) (p : Nat) : Loans :=
  match stringAt m p with
  | none => B
  | some s => if s ∈ B.map Prod.snd then B else (p, s) :: B

/-- A name is given back. -/
def Loans.giveBack (B : Loans) (m : Memory) (p : Nat) : Loans :=
  match stringAt m p with
  | none => B
  | some s => B.filter fun q => decide (q.2 ≠ s)

/-- Every string lent is still there. -/
def Loans.Kept (B : Loans) (m : Memory) : Prop := ∀ q ∈ B, stringAt m q.1 = some q.2

/-- In a history of calls (each with the memory during the call), every string lent stays as it is as long as it is lent; `change` says what a
call does to the loans. -/
def Honoured {O : Type} (change : Loans → Memory → O → Loans) : Loans → List (Memory × O) → Prop
  | _, [] => True
  | B, (m, o) :: rest => B.Kept m ∧ Honoured change (change B m o) rest

/-- What a call on a table of strings does to the loans. -/
def tabLoans (B : Loans) (m : Memory) : HashOp Nat → Loans
  | .insert p _ => B.lend m p
  | .delete p => B.giveBack m p
  | _ => B

/-- The call by contents: with the strings in place of their addresses. -/
def HashOp.spelled (m : Memory) : HashOp Nat → Option (HashOp (List Byte))
  | .insert p d => (stringAt m p).map fun s => .insert s d
  | .delete p => (stringAt m p).map fun s => .delete s
  | .retrieve p => (stringAt m p).map fun s => .retrieve s
  | .readonly f => some (.readonly f)

/-- A name argument by contents: NULL, or the string there. -/
def nameAt (m : Memory) (p : Nat) : Option (Option (List Byte)) := if p = 0 then some none else (stringAt m p).map some

/-- Calls on flags.c with the names given by address. -/
inductive FlgCall where
  | register (flag : Flag) (name : Nat)
  | set (name : Nat)
  | test (flag : Flag)
  | destroy

/-- Calls on debug.c with the names given by address. -/
inductive DbgCall where
  | register (flag : Flag) (name : Nat)
  | registerInternal (flag : Flag) (name : Nat)
  | set (name : Nat)
  | setFlag (flag : Flag)
  | unsetFlag (flag : Flag)
  | test (flag : Flag)
  | destroy

/-- The call by contents. -/
def FlgCall.spelled (m : Memory) : FlgCall → Option FlgOp
  | .register f p => (nameAt m p).map fun n => .register f n
  | .set p => (nameAt m p).map fun n => .set n
  | .test f => some (.test f)
  | .destroy => some .destroy

/-- The call by contents. -/
def DbgCall.spelled (m : Memory) : DbgCall → Option DbgOp
  | .register f p => (nameAt m p).map fun n => .register f n
  | .registerInternal f p => (nameAt m p).map fun n => .registerInternal f n
  | .set p => (nameAt m p).map fun n => .set n
  | .setFlag f => some (.setFlag f)
  | .unsetFlag f => some (.unsetFlag f)
  | .test f => some (.test f)
  | .destroy => some .destroy

/-- What a call on flags.c does to the loans: `flg_destroy` gives everything back. -/
def flgLoans (B : Loans) (m : Memory) : FlgCall → Loans
  | .register _ p => B.lend m p
  | .destroy => []
  | _ => B

/-- What a call on debug.c does to the loans: `dbg_destroy` gives everything back. -/
def dbgLoans (B : Loans) (m : Memory) : DbgCall → Loans
  | .register _ p | .registerInternal _ p => B.lend m p
  | .destroy => []
  | _ => B

/-- Calls on timer.c with the names given by address. -/
inductive TimCall where
  | start (name : Nat) (r : Reading)
  | stop (name : Nat) (r : Reading)
  | reset (name : Nat)
  | getReal (name : Nat)
  | getUser (name : Nat)
  | getSystem (name : Nat)
  | shutdown

/-- The call by contents. -/
def TimCall.spelled (m : Memory) : TimCall → Option TimOp
  | .start p r => (nameAt m p).map fun n => .start n r
  | .stop p r => (nameAt m p).map fun n => .stop n r
  | .reset p => (nameAt m p).map fun n => .reset n
  | .getReal p => (nameAt m p).map fun n => .getReal n
  | .getUser p => (nameAt m p).map fun n => .getUser n
  | .getSystem p => (nameAt m p).map fun n => .getSystem n
  | .shutdown => some .shutdown

/-- What a call on timer.c does to the loans. -/
def timLoans (B : Loans) (m : Memory) : TimCall → Loans
  | .start p _ => B.lend m p
  | .shutdown => []
  | _ => B

end Maa.Spec
