import Verif.Model.Lists
import Verif.Spec.LstProgs

/-! # Programs with lists, at pointer level (maa/list.c)

The loops have no bound of their own (a body may append to the list walked over), so all definitions have an argument `n` that bounds the
number of rounds of each loop; running out is `ub`. -/

namespace Maa.Lst

variable {σ : Type}

/-- The loop of `lst_iterate` and `lst_iterate_arg`, maa/list.c:361, 379, from element `d` on, with an iterator that may call the library on
any list: `d->next` is read after the iterator has run. -/
def visitLoop (body : State → σ → Nat → Res (State × σ × Int)) : Nat → State → Nat → σ → Res (State × σ × Int)
  | 0, _, _, _ => .ub
  | n + 1, s, d, st =>
    if d = 0 then .ok (s, st, 0)
    else (s.heap.read d).bind fun c =>
      (body s st c.1).bind fun q =>
        if q.2.2 ≠ 0 then .ok (q.1, q.2.1, 1)
        else (q.1.heap.read d).bind fun c' => visitLoop body n q.1 c'.2 q.2.1

/-- `lst_iterate` and `lst_iterate_arg`, maa/list.c:354-363, 370-381 (they differ in the argument handed through, which is part of the
variables here). -/
def walkCalls (body : State → σ → Nat → Res (State × σ × Int)) (n i : Nat) (s : State) (st : σ) : Res (State × σ × Int) :=
  (s.check i).bind fun l => visitLoop body n s l.head st

/-- The loop `LST_ITERATE(list, pos, datum) { body; if (stop) break; }`, maa/maa.h:296-299, from a position on. -/
def macroLoop (body : State → σ → Nat × Nat → Res (State × σ × Int)) : Nat → State → Nat → σ → Res (State × σ × Int)
  | 0, _, _, _ => .ub
  | n + 1, s, p, st =>
    if p = 0 then .ok (s, st, 0)
    else (lstGetPosition s p).bind fun e =>
      (body s st (p, e)).bind fun q =>
        if q.2.2 ≠ 0 then .ok (q.1, q.2.1, 1)
        else (lstNextPosition q.1 p).bind fun p => macroLoop body n q.1 p q.2.1

/-- The loop `LST_ITERATE2(list1, list2, pos1, pos2, datum1, datum2) { body; if (stop) break; }`, maa/maa.h:302-306, from two positions on. -/
def macroLoop2 (body : State → σ → Nat × Nat → Nat × Nat → Res (State × σ × Int)) : Nat → State → Nat → Nat → σ → Res (State × σ × Int)
  | 0, _, _, _, _ => .ub
  | n + 1, s, p1, p2, st =>
    if p1 = 0 ∨ p2 = 0 then .ok (s, st, 0)
    else (lstGetPosition s p1).bind fun e1 => (lstGetPosition s p2).bind fun e2 =>
      (body s st (p1, e1) (p2, e2)).bind fun q =>
        if q.2.2 ≠ 0 then .ok (q.1, q.2.1, 1)
        else (lstNextPosition q.1 p1).bind fun p1 => (lstNextPosition q.1 p2).bind fun p2 => macroLoop2 body n q.1 p1 p2 q.2.1

/-- Run a program on the lists in memory (maa/list.c, maa/maa.h:290-306). -/
def exec (n : Nat) : Spec.LstProg σ → State → Res (State × σ × Int)
  | .ret st r, s => .ok (s, st, r)
  | .call o k, s => (step s o).bind fun q => exec n (k q.2) q.1
  | .walk i st f k, s => (walkCalls (fun s st d => exec n (f st d) s) n i s st).bind fun q => exec n (k q.2.1 q.2.2) q.1
  | .loop i st f k, s => (lstInitPosition s i).bind fun p =>
      (macroLoop (fun s st c => exec n (f st c) s) n s p st).bind fun q => exec n (k q.2.1 q.2.2) q.1
  | .loop2 i j st f k, s => (lstInitPosition s i).bind fun p1 => (lstInitPosition s j).bind fun p2 =>
      (macroLoop2 (fun s st c c' => exec n (f st c c') s) n s p1 p2 st).bind fun q => exec n (k q.2.1 q.2.2) q.1

end Maa.Lst
