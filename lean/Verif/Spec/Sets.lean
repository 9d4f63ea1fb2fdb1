import Verif.Model.Base

/-! # Specification of finite sets and of programs using several of them

A set is a list without two equal elements; `eq` is the user's notion of equality.  No hashing. -/

namespace Maa.Spec

variable {K : Type}

/-- Membership. -/
def mem (eq : K → K → Bool) (l : List K) (x : K) : Bool := l.any (fun e => eq e x)

/-- Add an element unless an equal one is present. -/
def sinsert (eq : K → K → Bool) (l : List K) (x : K) : List K := if mem eq l x then l else x :: l

/-- Remove the equal element. -/
def sdelete (eq : K → K → Bool) (l : List K) (x : K) : List K := l.filter (fun e => !eq e x)

/-- Union. -/
def union (eq : K → K → Bool) (a b : List K) : List K := a ++ b.filter (fun e => !mem eq a e)

/-- Intersection. -/
def inter (eq : K → K → Bool) (a b : List K) : List K := a.filter (fun e => mem eq b e)

/-- Difference. -/
def diff (eq : K → K → Bool) (a b : List K) : List K := a.filter (fun e => !mem eq b e)

/-- Same members. -/
def equal (eq : K → K → Bool) (a b : List K) : Bool :=
  a.all (fun e => mem eq b e) && b.all (fun e => mem eq a e)

/-- Calls of a program on its sets; sets are named by handles, given out in order of creation. -/
inductive SetOp (K : Type) where
  | create (hashFn cmpFn : Nat)
  | insert (i : Nat) (e : K)
  | delete (i : Nat) (e : K)
  | member (i : Nat) (e : K)
  | readonly (i : Nat) (flag : Int)
  | destroy (i : Nat)
  | count (i : Nat)
  | stats (i : Nat)
  | add (i j : Nat)
  | del (i j : Nat)
  | union (i j : Nat)
  | inter (i j : Nat)
  | diff (i j : Nat)
  | equal (i j : Nat)

/-- `set_add` and `set_del` are called with two different sets. -/
def SetOp.NoAlias : SetOp K → Prop
  | .add i j => i ≠ j
  | .del i j => i ≠ j
  | _ => True

/-- One set of the specification. -/
structure ASet (K : Type) where
  elems : List K
  readonly : Int
  hashFn : Nat
  cmpFn : Nat

/-- All sets of the program. -/
structure AStore (K : Type) where
  objs : Nat → Option (ASet K)
  next : Nat

/-- No sets. -/
def AStore.empty : AStore K := { objs := fun _ => none, next := 0 }

/-- Replace one set. -/
def AStore.put (σ : AStore K) (i : Nat) (s : Option (ASet K)) : AStore K :=
  { σ with objs := fun j => if j = i then s else σ.objs j }

/-- A new set. -/
def AStore.alloc (σ : AStore K) (s : ASet K) : AStore K :=
  { objs := fun j => if j = σ.next then some s else σ.objs j, next := σ.next + 1 }

/-- Using a set that does not exist is undefined. -/
def AStore.get (σ : AStore K) (i : Nat) : Res (ASet K) :=
  match σ.objs i with
  | some s => .ok s
  | none => .ub

/-- A binary operation ends the program unless both sets use the same functions. -/
def AStore.get2 (σ : AStore K) (i j : Nat) : Res (ASet K × ASet K) :=
  (σ.get i).bind fun a => (σ.get j).bind fun b =>
    if a.hashFn = b.hashFn ∧ a.cmpFn = b.cmpFn then .ok (a, b) else .fatal

/-- What each call does to the mathematical sets and what it returns.  `eq c` is the equality that
compare function `c` stands for. -/
def setStep (eq : Nat → K → K → Bool) (σ : AStore K) : SetOp K → Res (AStore K × Int)
  | .create h c => .ok (σ.alloc { elems := [], readonly := 0, hashFn := h, cmpFn := c }, σ.next)
  | .insert i e => (σ.get i).bind fun s =>
      if s.readonly ≠ 0 then .abort else
      .ok (σ.put i (some { s with elems := sinsert (eq s.cmpFn) s.elems e }),
        if mem (eq s.cmpFn) s.elems e then 1 else 0)
  | .delete i e => (σ.get i).bind fun s =>
      if s.readonly ≠ 0 then .abort else
      .ok (σ.put i (some { s with elems := sdelete (eq s.cmpFn) s.elems e }),
        if mem (eq s.cmpFn) s.elems e then 0 else 1)
  | .member i e => (σ.get i).bind fun s => .ok (σ, if mem (eq s.cmpFn) s.elems e then 1 else 0)
  | .readonly i f => (σ.get i).bind fun s => .ok (σ.put i (some { s with readonly := f }), s.readonly)
  | .destroy i => (σ.get i).bind fun s => if s.readonly ≠ 0 then .abort else .ok (σ.put i none, 0)
  | .count i => (σ.get i).bind fun s => .ok (σ, s.elems.length)
  | .stats i => (σ.get i).bind fun s => .ok (σ, s.elems.length)
  | .add i j => (σ.get2 i j).bind fun p =>
      if p.1.readonly ≠ 0 ∧ p.2.elems ≠ [] then .abort else
      .ok (σ.put i (some { p.1 with elems := union (eq p.1.cmpFn) p.1.elems p.2.elems }), i)
  | .del i j => (σ.get2 i j).bind fun p =>
      if p.1.readonly ≠ 0 ∧ p.2.elems ≠ [] then .abort else
      .ok (σ.put i (some { p.1 with elems := diff (eq p.1.cmpFn) p.1.elems p.2.elems }), i)
  | .union i j => (σ.get2 i j).bind fun p =>
      .ok (σ.alloc { p.1 with elems := union (eq p.1.cmpFn) p.1.elems p.2.elems, readonly := 0 }, σ.next)
  | .inter i j => (σ.get2 i j).bind fun p =>
      .ok (σ.alloc { p.1 with elems := inter (eq p.1.cmpFn) p.1.elems p.2.elems, readonly := 0 }, σ.next)
  | .diff i j => (σ.get2 i j).bind fun p =>
      .ok (σ.alloc { p.1 with elems := diff (eq p.1.cmpFn) p.1.elems p.2.elems, readonly := 0 }, σ.next)
  | .equal i j => (σ.get2 i j).bind fun p =>
      .ok (σ, if equal (eq p.1.cmpFn) p.1.elems p.2.elems then 1 else 0)

end Maa.Spec
