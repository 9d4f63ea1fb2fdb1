import Verif.Model.SetHeap
import Verif.Spec.SetProgs

/-! # Programs with sets, at pointer level (maa/set.c) -/

namespace Maa.SetHeap

open HashHeap (initPosition nextPosition getPosition)
open Set (FnEnv)

variable {K σ : Type}

/-- The inner loop of `set_iterate` and `set_iterate_arg`, maa/set.c:359-363, 394-398, with an iterator that may call the library on any
set: `pt->next` is read after the iterator has returned.  The first argument bounds the number of rounds (running out is `ub`). -/
def visitChain (body : HStore K → σ → K → Res (HStore K × σ × Int)) : Nat → HStore K → σ → Nat → Res (HStore K × σ × Int)
  | 0, _, _, _ => .ub
  | n + 1, s, st, pt =>
    if pt = 0 then .ok (s, st, 0)
    else (s.heap.read pt).bind fun c =>
      (body s st c.1.key).bind fun q =>
        if q.2.2 ≠ 0 then .ok (q.1, q.2.1, 1)
        else (q.1.heap.read pt).bind fun c' => visitChain body n q.1 q.2.1 c'.2

/-- The outer loop of `set_iterate` and `set_iterate_arg`, maa/set.c:355-365, 390-400, from slot `k` on; `t->prime` and `t->buckets` are read
again on every round. -/
def visitSlots (body : HStore K → σ → K → Res (HStore K × σ × Int)) (i : Nat) : Nat → Nat → HStore K → σ → Res (HStore K × σ × Int)
  | 0, _, _, _ => .ub
  | n + 1, k, s, st =>
    (s.get i).bind fun t =>
      if k < t.tab.prime then
        (visitChain body s.heap.clock s st (t.tab.buckets k)).bind fun q =>
          if q.2.2 ≠ 0 then .ok q else visitSlots body i n (k + 1) q.1 q.2.1
      else .ok (s, st, 0)

/-- `set_iterate` and `set_iterate_arg`, maa/set.c:342-369, 378-404 (they differ in the argument handed through, which is part of the
variables here). -/
def iterateCalls (body : HStore K → σ → K → Res (HStore K × σ × Int)) (i : Nat) (s : HStore K) (st : σ) : Res (HStore K × σ × Int) :=
  (s.get i).bind fun t =>
    let savedReadonly := t.tab.readonly
    (putRo s i 1).bind fun s1 =>
    (visitSlots body i (rounds t) 0 s1 st).bind fun q =>
    (putRo q.1 i savedReadonly).bind fun s2 => .ok (s2, q.2)

/-- The loop `SET_ITERATE(set, pos, elem) { body; if (stop) break; }`, maa/maa.h:233-236, from a position on. -/
def positionLoop (body : HStore K → σ → K → Res (HStore K × σ × Int)) (i : Nat) : Nat → HStore K → Nat → σ → Res (HStore K × σ × Int)
  | 0, _, _, _ => .ub
  | n + 1, s, pos, st =>
    if pos = 0 then .ok (s, st, 0)
    else (getPosition s.heap pos).bind fun e =>
      (body s st e.1).bind fun q =>
        if q.2.2 ≠ 0 then .ok (q.1, q.2.1, 1)
        else (q.1.get i).bind fun t => (nextPosition q.1.heap t.tab pos).bind fun r =>
          positionLoop body i n (q.1.put i (some { t with tab := r.1 })) r.2 q.2.1

/-- The whole loop, maa/maa.h:233-236 with `set_init_position`, maa/set.c:410-421.  The number of rounds is bounded by the number of elements
at the start (more would be `ub`). -/
def setLoop (body : HStore K → σ → K → Res (HStore K × σ × Int)) (i : Nat) (s : HStore K) (st : σ) : Res (HStore K × σ × Int) :=
  (s.get i).bind fun t => positionLoop body i (t.tab.entries + 1) (s.put i (some { t with tab := (initPosition t.tab).1 })) (initPosition t.tab).2 st

/-- Run a program on the sets in memory (maa/set.c, maa/maa.h:233-241). -/
def exec (env : FnEnv K) : Spec.SetProg K σ → HStore K → Res (HStore K × σ × Int)
  | .ret st r, s => .ok (s, st, r)
  | .call o k, s => (hsetStep env s o).bind fun q => exec env (k q.2) q.1
  | .iterate i st f k, s => (iterateCalls (fun s st e => exec env (f st e) s) i s st).bind fun q => exec env (k q.2.1 q.2.2) q.1
  | .loop i st f k, s => (setLoop (fun s st e => exec env (f st e) s) i s st).bind fun q => exec env (k q.2.1 q.2.2) q.1

end Maa.SetHeap
