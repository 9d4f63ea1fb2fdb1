import Verif.Model.Heap
import Verif.Spec.Stack

/-! # Model of maa/stack.c (pointer level, any number of stacks in one memory) -/

namespace Maa.Stack

/-- Memory holding `struct data` cells (maa/stack.c:36-39) and the stacks of the program:
`stk i = some p` says that stack number `i` exists and its `data` field (maa/stack.c:41-43) is `p`.
Simplification: the one-word `struct stack` objects themselves are kept apart from the cells. -/
structure State where
  heap : Heap Nat
  stk : Nat → Option Nat
  next : Nat

/-- Program start. -/
def State.init (place : Policy := Heap.neverAgain) : State := { heap := Heap.init place, stk := fun _ => none, next := 0 }

/-- Assignment `s->data = p`. -/
def State.set (σ : State) (i : Nat) (p : Option Nat) : State :=
  { σ with stk := fun j => if j = i then p else σ.stk j }

/-- Dereference a stack handle; a handle that was never created or was destroyed is `ub`. -/
def State.get (σ : State) (i : Nat) : Res Nat :=
  match σ.stk i with
  | some p => .ok p
  | none => .ub

/-- `stk_create`, maa/stack.c:47-55. -/
def stkCreate (σ : State) : State × Nat :=
  ({ σ with stk := fun j => if j = σ.next then some 0 else σ.stk j, next := σ.next + 1 }, σ.next)

/-- `stk_push`, maa/stack.c:71-79. -/
def stkPush (σ : State) (i datum : Nat) : Res State :=
  (σ.get i).bind fun p =>
    let r := σ.heap.alloc (datum, p)
    .ok ({ σ with heap := r.1 }.set i (some r.2))

/-- `stk_pop`, maa/stack.c:84-99. -/
def stkPop (σ : State) (i : Nat) : Res (State × Nat) :=
  (σ.get i).bind fun p =>
    if p ≠ 0 then
      (σ.heap.read p).bind fun c =>
        (σ.heap.free p).bind fun h => .ok ({ σ with heap := h }.set i (some c.2), c.1)
    else .ok (σ, 0)

/-- `stk_isempty`, maa/stack.c:104-113. -/
def stkIsempty (σ : State) (i : Nat) : Res Int :=
  (σ.get i).bind fun p => .ok (if p ≠ 0 then 0 else 1)

/-- `stk_top`, maa/stack.c:119-127. -/
def stkTop (σ : State) (i : Nat) : Res Nat :=
  (σ.get i).bind fun p => if p ≠ 0 then (σ.heap.read p).bind fun c => .ok c.1 else .ok 0

/-- The loop of `stk_destroy`, maa/stack.c:63-65; `n` bounds the rounds (`ub` when it runs out). -/
def destroyLoop : Nat → State → Nat → Res State
  | 0, _, _ => .ub
  | n + 1, σ, i =>
    (stkIsempty σ i).bind fun e =>
      if e = 0 then (stkPop σ i).bind fun r => destroyLoop n r.1 i else .ok σ

/-- `stk_destroy`, maa/stack.c:61-67. -/
def stkDestroy (σ : State) (i : Nat) : Res State :=
  (destroyLoop σ.heap.clock σ i).bind fun σ' => .ok (σ'.set i none)

/-- One call (dispatch only; maa/stack.c:47-127). -/
def step (σ : State) : Spec.StackOp → Res (State × Int)
  | .create => .ok ((stkCreate σ).1, (stkCreate σ).2)
  | .push i d => (stkPush σ i d).bind fun σ' => .ok (σ', 0)
  | .pop i => (stkPop σ i).bind fun r => .ok (r.1, r.2)
  | .top i => (stkTop σ i).bind fun d => .ok (σ, d)
  | .isempty i => (stkIsempty σ i).bind fun e => .ok (σ, e)
  | .destroy i => (stkDestroy σ i).bind fun σ' => .ok (σ', 0)

end Maa.Stack
