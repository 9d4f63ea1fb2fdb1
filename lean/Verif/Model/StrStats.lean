import Verif.Model.StrPool
import Verif.Model.HashStats

/-! # Model of the statistics and positions of maa/string.c -/

namespace Maa.StrPool

open StrMem (Mem)
open HashHeap (HTab hgetStats initPosition nextPosition getPosition)
open Tab (Entry)

/-- `struct str_Stats`, maa/maa.h:367-373.  The numbers fit into an `int` (simplification). -/
structure Stats where
  count : Nat
  bytes : Nat
  retrievals : Nat
  hits : Nat
  misses : Nat
  deriving DecidableEq

/-- `str_pool_get_stats`, maa/string.c:235-261; `none` is the NULL pool. -/
def getStats : Option Pool → Res Stats
  | none => .ok { count := 0, bytes := 0, retrievals := 0, hits := 0, misses := 0 }
  | some p =>
    let m := StrMem.stats p.str
    (hgetStats p.cells p.tab).bind fun h =>
      .ok { count := m.1, bytes := m.2, retrievals := h.retrievals, hits := h.hits, misses := h.misses }

/-- `str_get_stats`, maa/string.c:396-399. -/
def strGetStats (g : Global) : Res Stats :=
  getStats (g.pool.map fun q => { mem := g.mem, str := q.1, cells := g.cells, tab := q.2 })

/-- `str_pool_init_position`, maa/string.c:158-163. -/
def poolInit (p : Pool) : Pool × Nat :=
  let r := initPosition p.tab
  ({ p with tab := r.1 }, r.2)

/-- `str_pool_next_position`, maa/string.c:165-170. -/
def poolNext (p : Pool) (pos : Nat) : Res (Pool × Nat) :=
  (nextPosition p.cells p.tab pos).bind fun r => .ok ({ p with tab := r.1 }, r.2)

/-- `str_pool_get_position`, maa/string.c:172-175, of a non-NULL position. -/
def poolGet (p : Pool) (pos : Nat) : Res Nat :=
  (getPosition p.cells pos).bind fun kd =>
    match kd.1 with
    | .stored d => .ok d
    | .arg _ => .ub

/-- The body of the loop below may intern and look up strings: a list of calls, maa/string.c:76-101. -/
def calls : List Spec.PoolOp → Pool → Res Pool
  | [], p => .ok p
  | o :: os, p => (step p o).bind fun r => calls os r.1

/-- `STR_ITERATE(pool, position, key) { body; if (stop) break; }`, maa/maa.h:408-411, from a position on: `body seen key` are the calls the
body makes on the pool and whether it leaves the loop, when it was shown `seen` before.  Gives the strings (pointers) shown and whether the
loop was left early.  The first argument bounds the number of rounds (running out is `ub`). -/
def strIterate (body : List Nat → Nat → List Spec.PoolOp × Bool) : Nat → Pool → Nat → List Nat → Res (Pool × List Nat × Bool)
  | 0, _, _, _ => .ub
  | n + 1, p, pos, seen =>
    if pos = 0 then .ok (p, seen, false)
    else
      (poolGet p pos).bind fun key =>
      (calls (body seen key).1 p).bind fun p =>
      if (body seen key).2 then .ok (p, seen ++ [key], true)
      else (poolNext p pos).bind fun r => strIterate body n r.1 r.2 (seen ++ [key])

/-- The macro from the start, maa/maa.h:402, 408-411. -/
def strIterateAll (body : List Nat → Nat → List Spec.PoolOp × Bool) (p : Pool) : Res (Pool × List Nat × Bool) :=
  let i := poolInit p
  strIterate body p.cells.clock i.1 i.2 []

/-- `str_pool_iterate`, maa/string.c:111-128, with an iterator that uses the pool; returning from inside the loop is leaving it early. -/
def iterateCalls (body : List Nat → Nat → List Spec.PoolOp × Bool) (p : Pool) : Res (Pool × List Nat × Int) :=
  (strIterateAll body p).bind fun r => .ok (r.1, r.2.1, if r.2.2 then 1 else 0)

/-- `str_pool_iterate_arg`, maa/string.c:138-156, with an iterator that uses the pool; `HSH_ITERATE_END` when left early. -/
def iterateArgCalls (body : List Nat → Nat → List Spec.PoolOp × Bool) (p : Pool) : Res (Pool × List Nat × Int) :=
  (strIterateAll body p).bind fun r =>
    if r.2.2 then .ok ({ r.1 with tab := { r.1.tab with readonly := 0 } }, r.2.1, 1) else .ok (r.1, r.2.1, 0)

/-- `HSH_MAGIC`, maa/maa.h:47. -/
def HSH_MAGIC : Nat := 0x01020304

/-- `str_pool_readonly(pool, flag)`, maa/maa.h:392, that is `hsh_readonly(pool, flag)`, maa/hash.c:617-627, 59-72: the macro hands
the *pool* to `hsh_readonly`, whose check compares the first four bytes of the structure with the number that marks hash tables.  The
first member of a pool (maa/string.c:41-44) is the address of its string memory, `strAddr`, of which a little-endian machine puts the low
half first.  Were the numbers equal, memory after the pool structure would be used: `ub`. -/
def poolReadonly (strAddr : Nat) (_p : Pool) (_flag : Int) : Res (Pool × Int) :=
  if strAddr % 2 ^ 32 ≠ HSH_MAGIC then .abort else .ub

end Maa.StrPool
