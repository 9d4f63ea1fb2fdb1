import Verif.Spec.Map
import Verif.Spec.Run
import Verif.Model.CStr

/-! # What a user sees of the run-time flags (flags.c) and debugging flags (debug.c)

A flag word selects a group (its two top bits of 32) and some of the 30 switches of that group (its low bits).
A well-formed flag selects exactly one switch. -/

namespace Maa.Spec

/-- A flag word; `flg_Type` / `dbg_Type` is `unsigned long`. -/
abbrev Flag := BitVec 64

/-- The group of a flag. -/
def group (f : Flag) : Nat := f.toNat / 2 ^ 30

/-- Exactly one of the low 30 bits is set. -/
def OneLowBit (f : Flag) : Prop := ∃ b, b < 30 ∧ ∀ i, i < 30 → (f.getLsbD i = true ↔ i = b)

/-- The registered names and the switches that are on. -/
structure Switches where
  names : List (List Byte × Flag)
  on : Nat → Nat → Bool

/-- At program start. -/
def Switches.init : Switches := { names := [], on := fun _ _ => false }

/-- Turn all switches selected by `f` on or off. -/
def Switches.put (s : Switches) (f : Flag) (v : Bool) : Switches :=
  { s with on := fun g b => if g = group f ∧ f.getLsbD b = true then v else s.on g b }

/-- Some switch selected by `f` is on; the switches are those of group `g`. -/
def Switches.isOn (s : Switches) (g : Nat) (f : Flag) : Bool := (List.range 30).any fun b => f.getLsbD b && s.on g b

/-- Register `name` for `f` unless the name is taken. -/
def Switches.addName (s : Switches) (f : Flag) (name : List Byte) : Switches :=
  { s with names := (insert (· == ·) s.names name f).1 }

/-- The flag registered under a name. -/
def Switches.lookup (s : Switches) (name : List Byte) : Option Flag := find (· == ·) s.names name

/-- "none" -/
def noneName : List Byte := [110, 111, 110, 101]
/-- "all" -/
def allName : List Byte := [97, 108, 108]
/-- '+' -/
def plus : Byte := 43
/-- '-' -/
def minus : Byte := 45

open Classical in
/-- A registration: a malformed flag ends the program; so does a NULL name. -/
noncomputable def Switches.register (s : Switches) (f : Flag) : Option (List Byte) → Res Switches
  | none => if OneLowBit f then .abort else .fatal
  | some name => if OneLowBit f then .ok (s.addName f name) else .fatal

/-- The names every `…_set` knows. -/
def Switches.setSpecial (s : Switches) (name : List Byte) : Option Switches :=
  if name = noneName then some { s with on := fun _ _ => false }
  else if name = allName then some { s with on := fun _ _ => true }
  else (s.lookup name).map fun f => s.put f true

/-- Calls on flags.c. -/
inductive FlgOp where
  | register (flag : Flag) (name : Option (List Byte))
  | set (name : Option (List Byte))
  | test (flag : Flag)
  | destroy

/-- Calls on debug.c. -/
inductive DbgOp where
  | register (flag : Flag) (name : Option (List Byte))
  | registerInternal (flag : Flag) (name : Option (List Byte))
  | set (name : Option (List Byte))
  | setFlag (flag : Flag)
  | unsetFlag (flag : Flag)
  | test (flag : Flag)
  | destroy

/-- Proper arguments: names are C strings, flag words have 32 bits. -/
def FlgOp.Proper : FlgOp → Prop
  | .register f name => f.toNat < 2 ^ 32 ∧ ∀ s, name = some s → (0 : Byte) ∉ s
  | .set name => ∀ s, name = some s → (0 : Byte) ∉ s
  | .test f => f.toNat < 2 ^ 32
  | .destroy => True

/-- Proper arguments: names are C strings, flag words have 32 bits. -/
def DbgOp.Proper : DbgOp → Prop
  | .register f name | .registerInternal f name => f.toNat < 2 ^ 32 ∧ ∀ s, name = some s → (0 : Byte) ∉ s
  | .set name => ∀ s, name = some s → (0 : Byte) ∉ s
  | .setFlag f | .unsetFlag f | .test f => f.toNat < 2 ^ 32
  | .destroy => True

/-- `flg_set(name)`: "none", "all", `name`, `+name` turn on, `-name` turns off; anything else ends the program. -/
def Switches.flgSet (s : Switches) (name : List Byte) : Res Switches :=
  if s.names = [] then .fatal else
    match s.setSpecial name with
    | some s' => .ok s'
    | none =>
      match name with
      | [] => .fatal
      | c :: rest =>
        match s.lookup rest with
        | none => .fatal
        | some f => if c = plus then .ok (s.put f true) else if c = minus then .ok (s.put f false) else .fatal

/-- `dbg_set(name)` as debug.c does it: like `flgSet`, but any first character other than '+' turns a registered
name off, and an unknown name is ignored when it starts with '+' or '-'.  On the empty string memory after its end
is read. -/
def Switches.dbgSet (s : Switches) (name : List Byte) : Res Switches :=
  if s.names = [] then .fatal else
    match s.setSpecial name with
    | some s' => .ok s'
    | none =>
      match name with
      | [] => .ub
      | c :: rest =>
        match s.lookup rest with
        | none => if c = plus ∨ c = minus then .ok s else .fatal
        | some f => if c = plus then .ok (s.put f true) else .ok (s.put f false)

/-- The behaviour of flags.c; `testGroup` is the group whose switches a test looks at (documented: the flag's own
group, `id`).  A test answers whether the result is non-zero; other calls answer `false`. -/
noncomputable def flgStep (testGroup : Nat → Nat) (s : Switches) : FlgOp → Res (Switches × Bool)
  | .register f name => (s.register f name).bind fun s => .ok (s, false)
  | .set none => .abort
  | .set (some name) => (s.flgSet name).bind fun s => .ok (s, false)
  | .test f => .ok (s, s.isOn (testGroup (group f)) f)
  | .destroy => .ok (Switches.init, false)

/-- The behaviour of debug.c. -/
noncomputable def dbgStep (testGroup : Nat → Nat) (s : Switches) : DbgOp → Res (Switches × Bool)
  | .register f name => if group f = 3 then .fatal else (s.register f name).bind fun s => .ok (s, false)
  | .registerInternal f name => (s.register f name).bind fun s => .ok (s, false)
  | .set none => .abort
  | .set (some name) => (s.dbgSet name).bind fun s => .ok (s, false)
  | .setFlag f => .ok (s.put f true, false)
  | .unsetFlag f => .ok (s.put f false, false)
  | .test f => .ok (s, s.isOn (testGroup (group f)) f)
  | .destroy => .ok (Switches.init, false)

/-- The group the code looks at: it takes 3 for 2. -/
def codeGroup (g : Nat) : Nat := if g = 2 then 3 else g

end Maa.Spec
