import Verif.Spec.Run

/-! # Stacks: each is a sequence of pointers, top first -/

namespace Maa.Spec

/-- Calls on the stacks of a program, named by handles given out in order of creation. -/
inductive StackOp where
  | create
  | push (i datum : Nat)
  | pop (i : Nat)
  | top (i : Nat)
  | isempty (i : Nat)
  | destroy (i : Nat)

/-- All stacks of the program. -/
structure Stacks where
  stk : Nat → Option (List Nat)
  next : Nat

/-- No stacks. -/
def Stacks.empty : Stacks := { stk := fun _ => none, next := 0 }

/-- Replace one stack. -/
def Stacks.set (s : Stacks) (i : Nat) (l : Option (List Nat)) : Stacks :=
  { s with stk := fun j => if j = i then l else s.stk j }

/-- A stack that does not exist must not be used. -/
def Stacks.get (s : Stacks) (i : Nat) : Res (List Nat) :=
  match s.stk i with
  | some l => .ok l
  | none => .ub

/-- What each call does; `push` and `destroy` return nothing (0 here), `NULL` is 0. -/
def stackStep (s : Stacks) : StackOp → Res (Stacks × Int)
  | .create => .ok ({ stk := fun j => if j = s.next then some [] else s.stk j, next := s.next + 1 }, s.next)
  | .push i d => (s.get i).bind fun l => .ok (s.set i (some (d :: l)), 0)
  | .pop i => (s.get i).bind fun l => .ok (s.set i (some l.tail), l.headD 0)
  | .top i => (s.get i).bind fun l => .ok (s, l.headD 0)
  | .isempty i => (s.get i).bind fun l => .ok (s, if l = [] then 1 else 0)
  | .destroy i => (s.get i).bind fun _ => .ok (s.set i none, 0)

end Maa.Spec
