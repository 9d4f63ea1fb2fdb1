import Verif.Model.Sl
import Verif.Spec.SlProgs

/-! # Programs with skip lists, at pointer level (maa/sl.c) -/

namespace Maa.Sl

variable {σ : Type}

/-- The calling loop of `sl_iterate` and `sl_iterate_arg`, maa/sl.c:406-408, 444-446, for `n` more elements of `copy` from `i` on, with a
function that may call the library. -/
def callBody (body : State → σ → Nat → Res (State × σ × Int)) (copy : List Nat) : Nat → Nat → State → σ → Res (State × σ × Int)
  | 0, _, s, st => .ok (s, st, 0)
  | n + 1, i, s, st =>
    match copy[i]? with
    | none => .ub
    | some d => (body s st d).bind fun q => if q.2.2 ≠ 0 then .ok q else callBody body copy n (i + 1) q.1 q.2.1

/-- `sl_iterate` and `sl_iterate_arg`, maa/sl.c:383-413, 420-451 (they differ in the argument handed through, which is part of the variables
here). -/
def walkCalls (body : State → σ → Nat → Res (State × σ × Int)) (l : Nat) (s : State) (st : σ) : Res (State × σ × Int) :=
  if l = 0 then .ok (s, st, 0)
  else (s.check l).bind fun o =>
    (s.heap.fwd o.head 0).bind fun pt =>
      (copyLoop s.heap o.count (s.heap.clock + 1) pt []).bind fun copy => callBody body copy o.count.toNat 0 s st

/-- Run a program on the skip lists in memory (maa/sl.c). -/
def exec : Spec.SlProg σ → State → Res (State × σ × Int)
  | .ret st r, s => .ok (s, st, r)
  | .call o k, s => (step s o).bind fun q => exec (k q.2) q.1
  | .walk l st f k, s => (walkCalls (fun s st d => exec (f st d) s) l s st).bind fun q => exec (k q.2.1 q.2.2) q.1

end Maa.Sl
