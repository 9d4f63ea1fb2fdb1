import Verif.Model.Tables
import Verif.Spec.TabProgs

/-! # Programs with hash tables, at pointer level (maa/hash.c) -/

namespace Maa.Tables

open HashHeap (initPosition nextPosition getPosition)
open Set (FnEnv)

variable {K σ : Type}

/-- The inner loop of `hsh_iterate` and `hsh_iterate_arg`, maa/hash.c:351-355, 383-387, with an iterator that may call the library on any
table: `next` is saved before the iterator runs.  The first argument bounds the number of rounds (running out is `ub`). -/
def visitChain (body : HTables K → σ → K × Ptr → Res (HTables K × σ × Int)) : Nat → HTables K → σ → Nat → Res (HTables K × σ × Int)
  | 0, _, _, _ => .ub
  | n + 1, s, st, pt =>
    if pt = 0 then .ok (s, st, 0)
    else (s.heap.read pt).bind fun c =>
      let next := c.2
      (body s st (c.1.key, c.1.datum)).bind fun q =>
        if q.2.2 ≠ 0 then .ok (q.1, q.2.1, 1) else visitChain body n q.1 q.2.1 next

/-- The outer loop of `hsh_iterate` and `hsh_iterate_arg`, maa/hash.c:349-358, 381-390, from slot `k` on; `t->prime` and `t->buckets` are
read again on every round. -/
def visitSlots (body : HTables K → σ → K × Ptr → Res (HTables K × σ × Int)) (i : Nat) :
    Nat → Nat → HTables K → σ → Res (HTables K × σ × Int)
  | 0, _, _, _ => .ub
  | n + 1, k, s, st =>
    (s.get i).bind fun t =>
      if k < t.tab.prime then
        (visitChain body s.heap.clock s st (t.tab.buckets k)).bind fun q =>
          if q.2.2 ≠ 0 then .ok q else visitSlots body i n (k + 1) q.1 q.2.1
      else .ok (s, st, 0)

/-- `hsh_iterate` and `hsh_iterate_arg`, maa/hash.c:338-359, 368-391 (they differ in the argument handed through, which is part of the
variables here).  The number of rounds is bounded by the number of slots at the start (more would be `ub`). -/
def walkCalls (body : HTables K → σ → K × Ptr → Res (HTables K × σ × Int)) (i : Nat) (s : HTables K) (st : σ) : Res (HTables K × σ × Int) :=
  (s.get i).bind fun t => visitSlots body i (t.tab.prime + 1) 0 s st

/-- The loop `HSH_ITERATE(table, pos, key, datum) { body; if (stop) break; }`, maa/maa.h:160-163, from a position on. -/
def positionLoop (body : HTables K → σ → K × Ptr → Res (HTables K × σ × Int)) (i : Nat) :
    Nat → HTables K → Nat → σ → Res (HTables K × σ × Int)
  | 0, _, _, _ => .ub
  | n + 1, s, pos, st =>
    if pos = 0 then .ok (s, st, 0)
    else (getPosition s.heap pos).bind fun kd =>
      (body s st kd).bind fun q =>
        if q.2.2 ≠ 0 then .ok (q.1, q.2.1, 1)
        else (q.1.get i).bind fun t => (nextPosition q.1.heap t.tab pos).bind fun r =>
          positionLoop body i n (q.1.put i (some { t with tab := r.1 })) r.2 q.2.1

/-- The whole loop, maa/maa.h:160-163 with `hsh_init_position`, maa/hash.c:556-567.  The number of rounds is bounded by the number of entries
at the start (more would be `ub`). -/
def tabLoop (body : HTables K → σ → K × Ptr → Res (HTables K × σ × Int)) (i : Nat) (s : HTables K) (st : σ) : Res (HTables K × σ × Int) :=
  (s.get i).bind fun t => positionLoop body i (t.tab.entries + 1) (s.put i (some { t with tab := (initPosition t.tab).1 })) (initPosition t.tab).2 st

/-- Run a program on the tables in memory (maa/hash.c, maa/maa.h:160-163). -/
def exec (env : FnEnv K) : Spec.TabProg K σ → HTables K → Res (HTables K × σ × Int)
  | .ret st r, s => .ok (s, st, r)
  | .call o k, s => (tablesStep env s o).bind fun q => exec env (k q.2) q.1
  | .walk i st f k, s => (walkCalls (fun s st p => exec env (f st p) s) i s st).bind fun q => exec env (k q.2.1 q.2.2) q.1
  | .loop i st f k, s => (tabLoop (fun s st p => exec env (f st p) s) i s st).bind fun q => exec env (k q.2.1 q.2.2) q.1

end Maa.Tables
