import Verif.Model.HashHeap
import Verif.Spec.Calls

/-! # Pointer-level model of `hsh_iterate` and `set_iterate` with callbacks that call the library

Model/Hash.lean and Model/Set.lean model the iterating functions for callbacks that leave the table
alone.  Here the callback may call the library on the table being walked, so the order of reading
`next` and calling the callback matters. -/

namespace Maa.HashHeap

open Tab (Entry)

variable {K σ : Type}

/-- A hash table in memory. -/
abbrev HState (K D : Type) := Heap (Entry K D) × HTab

/-- The inner loop of `hsh_iterate` / `hsh_iterate_arg`, maa/hash.c:352-356,384-388: `next` is saved
before the callback runs ("Save, because pt might vanish"). -/
def hiterChain (ops : KeyOps K) (f : σ → K × Ptr → Spec.Calls (Spec.HashOp K) Spec.Ret σ) :
    Nat → HState K Ptr → Nat → σ → Res (HState K Ptr × σ × Int)
  | 0, _, _, _ => .ub
  | n + 1, s, pt, st =>
    if pt = 0 then .ok (s, st, 0)
    else (s.1.read pt).bind fun c =>
      let next := c.2
      ((f st (c.1.key, c.1.datum)).run (heapStep ops) s).bind fun q =>
        if q.2.2 ≠ 0 then .ok (q.1, q.2.1, 1) else hiterChain ops f n q.1 next q.2.1

/-- `hsh_iterate` / `hsh_iterate_arg` from slot `i` on, maa/hash.c:349-358,381-390; `t->prime` is read
again on every round.  `n` bounds the number of rounds (running out is `ub`). -/
def hiterate (ops : KeyOps K) (f : σ → K × Ptr → Spec.Calls (Spec.HashOp K) Spec.Ret σ) :
    Nat → Nat → HState K Ptr → σ → Res (HState K Ptr × σ × Int)
  | 0, _, _, _ => .ub
  | n + 1, i, s, st =>
    if i < s.2.prime then
      (hiterChain ops f s.1.clock s (s.2.buckets i) st).bind fun q =>
        if q.2.2 ≠ 0 then .ok q else hiterate ops f n (i + 1) q.1 q.2.1
    else .ok (s, st, 0)

/-- The inner loop of `set_iterate` / `set_iterate_arg`, maa/set.c:358-362,394-398: `next` is read after
the callback has run. -/
def siterChain (ops : KeyOps K) (f : σ → K × Unit → Spec.Calls (Spec.OneSetOp K) Int σ) :
    Nat → HState K Unit → Nat → σ → Res (HState K Unit × σ × Int)
  | 0, _, _, _ => .ub
  | n + 1, s, pt, st =>
    if pt = 0 then .ok (s, st, 0)
    else (s.1.read pt).bind fun c =>
      ((f st (c.1.key, ())).run (setHeapStep ops) s).bind fun q =>
        if q.2.2 ≠ 0 then .ok (q.1, q.2.1, 1)
        else (q.1.1.read pt).bind fun c' => siterChain ops f n q.1 c'.2 q.2.1

/-- The loops of `set_iterate` / `set_iterate_arg`, maa/set.c:354-364,390-400. -/
def siterLoop (ops : KeyOps K) (f : σ → K × Unit → Spec.Calls (Spec.OneSetOp K) Int σ) :
    Nat → Nat → HState K Unit → σ → Res (HState K Unit × σ × Int)
  | 0, _, _, _ => .ub
  | n + 1, i, s, st =>
    if i < s.2.prime then
      (siterChain ops f s.1.clock s (s.2.buckets i) st).bind fun q =>
        if q.2.2 ≠ 0 then .ok q else siterLoop ops f n (i + 1) q.1 q.2.1
    else .ok (s, st, 0)

/-- `set_iterate` / `set_iterate_arg`, maa/set.c:342-368,377-404: the flag is 1 during the loop and
restored on both exits. -/
def siterate (ops : KeyOps K) (f : σ → K × Unit → Spec.Calls (Spec.OneSetOp K) Int σ) (n : Nat)
    (s : HState K Unit) (st : σ) : Res (HState K Unit × σ × Int) :=
  let savedReadonly := s.2.readonly
  (siterLoop ops f n 0 (s.1, { s.2 with readonly := 1 }) st).bind fun q =>
    .ok ((q.1.1, { q.1.2 with readonly := savedReadonly }), q.2)

end Maa.HashHeap
