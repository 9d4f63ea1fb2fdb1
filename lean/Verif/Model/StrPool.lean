import Verif.Model.StrMem
import Verif.Model.HashHeap
import Verif.Spec.StrPool

/-! # Model of maa/string.c

A pool is a string memory (Model/StrMem.lean) and a hash table (Model/HashHeap.lean, pointer level)
created with the default string callbacks.  Keys in the table are pointers into the string memory; the
callbacks read that memory at the time of the call.  A dangling or unterminated key in the table makes
a hash table call undefined behaviour (`keysReadable`).  Simplification: table cells and strings live in
two separate memories. -/

namespace Maa.StrPool

open CStr (cstr)
open StrMem (Mem SInfo)
open HashHeap (HTab hinsert hretrieve hcreate hdestroy initPosition nextPosition getPosition)
open Tab (Entry)

/-- A key given to the hash table: a string of the pool, or the caller's own (maa/string.c:81, 96, 98). -/
inductive SKey where
  | stored (p : Nat)
  | arg (s : List Byte)
  deriving DecidableEq

/-- The characters the callbacks see behind a key. -/
def content (m : Mem) : SKey → List Byte
  | .stored p =>
    match m.mem p with
    | some c => c.1.takeWhile (· ≠ 0)
    | none => []
  | .arg s => s.takeWhile (· ≠ 0)

/-- The callbacks of `hsh_create(NULL, NULL)`, maa/hash.c:95-96,482-500,530-537, on strings in memory `m`. -/
def ops (m : Mem) : KeyOps SKey :=
  { hash := fun k => CStr.strHashLoop 0 (content m k)
    cmp := fun a b => CStr.strcmp (content m a) (content m b) }

/-- `struct poolInfo`, maa/string.c:41-44, with the memories the pool lives in. -/
structure Pool where
  mem : Mem
  str : SInfo
  cells : Heap (Entry SKey Ptr)
  tab : HTab

/-- A key can be read as a string. -/
def readable (m : Mem) : SKey → Bool
  | .stored p =>
    match m.mem p with
    | some c => c.1.contains 0
    | none => false
  | .arg _ => true

/-- Every key in the chain starting at `pt` can be read; the chain ends within `n` steps. -/
def chainReadable (m : Mem) (h : Heap (Entry SKey Ptr)) : Nat → Nat → Bool
  | 0, _ => false
  | n + 1, pt =>
    if pt = 0 then true
    else match h.mem pt with
      | some c => readable m c.1.key && chainReadable m h n c.2
      | none => false

/-- Every key in the table can be read. -/
def keysReadable (p : Pool) : Bool :=
  (List.range p.tab.prime).all fun i => chainReadable p.mem p.cells p.cells.clock (p.tab.buckets i)

/-- `str_pool_create`, maa/string.c:48-56. -/
def create (m : Mem) (cells : Heap (Entry SKey Ptr)) : Res Pool :=
  (hcreate 0).bind fun t => .ok { mem := m, str := StrMem.create, cells := cells, tab := t }

/-- `str_pool_destroy`, maa/string.c:61-71; gives the memories back. -/
def destroy (p : Pool) : Res (Mem × Heap (Entry SKey Ptr)) :=
  (StrMem.destroy p.mem p.str).bind fun m =>
    (hdestroy p.cells p.tab).bind fun c => .ok (m, c)

/-- `hsh_retrieve(p->hash, s)`, maa/string.c:81, 96: the datum or NULL. -/
def retrieve (p : Pool) (k : SKey) : Res (Pool × Nat) :=
  if keysReadable p = false then .ub else
    (hretrieve (ops p.mem) p.cells p.tab k).bind fun r =>
      .ok ({ p with cells := r.1.1, tab := r.1.2 }, match r.2 with | some d => d | none => 0)

/-- `hsh_insert(p->hash, datum, datum)`, maa/string.c:98, 227; the result is ignored. -/
def insert (p : Pool) (datum : Nat) : Res Pool :=
  if keysReadable p = false ∨ readable p.mem (.stored datum) = false then .ub else
    (hinsert (ops p.mem) p.cells p.tab (.stored datum) datum).bind fun r =>
      .ok { p with cells := r.1.1, tab := r.1.2 }

/-- `str_pool_exists`, maa/string.c:76-83. -/
def exists_ (p : Pool) (s : List Byte) : Res (Pool × Int) :=
  (cstr s).bind fun t => (retrieve p (.arg t)).bind fun r => .ok (r.1, if r.2 ≠ 0 then 1 else 0)

/-- `str_pool_find`, maa/string.c:91-101. -/
def find (p : Pool) (s : List Byte) : Res (Pool × Nat) :=
  (cstr s).bind fun t => (retrieve p (.arg t)).bind fun r =>
    if r.2 ≠ 0 then .ok (r.1, r.2)
    else
      (StrMem.strcpy r.1.mem r.1.str s).bind fun c =>
        (insert { r.1 with mem := c.1.1, str := c.1.2 } c.2).bind fun p' => .ok (p', c.2)

/-- The loop `HSH_ITERATE_KEYS` of `str_pool_iterate` and `str_pool_iterate_arg`, maa/string.c:122-125,
148-153, maa/maa.h:166-169; `seen` are the pointers the iterator was called with, `stop` what is done to
the table when it returns non-zero.  The iterator does not use the pool (simplification).  `n` bounds the
number of rounds; running out is reported as `ub`. -/
def iterLoop (f : List Nat → Nat → Int) (stop : HTab → HTab) : Nat → Heap (Entry SKey Ptr) → HTab → Nat →
    List (Nat × Int) → Res (HTab × List (Nat × Int) × Int)
  | 0, _, _, _, _ => .ub
  | n + 1, h, t, pos, seen =>
    if pos = 0 then .ok (t, seen, 0)
    else (getPosition h pos).bind fun kd =>
      match kd.1 with
      | .arg _ => .ub
      | .stored key =>
        let r := f (seen.map Prod.fst) key
        if r ≠ 0 then .ok (stop t, seen ++ [(key, r)], 1)
        else (nextPosition h t pos).bind fun q => iterLoop f stop n h q.1 q.2 (seen ++ [(key, r)])

/-- `str_pool_iterate`, maa/string.c:111-128: returns from inside the loop.  Also gives the calls made. -/
def iterate (p : Pool) (f : List Nat → Nat → Int) : Res (Pool × List (Nat × Int) × Int) :=
  let i := initPosition p.tab
  (iterLoop f id p.cells.clock p.cells i.1 i.2 []).bind fun r => .ok ({ p with tab := r.1 }, r.2)

/-- `str_pool_iterate_arg`, maa/string.c:138-156: `HSH_ITERATE_END` before returning. -/
def iterateArg (p : Pool) (f : List Nat → Nat → Int) : Res (Pool × List (Nat × Int) × Int) :=
  let i := initPosition p.tab
  (iterLoop f (fun t => { t with readonly := 0 }) p.cells.clock p.cells i.1 i.2 []).bind fun r =>
    .ok ({ p with tab := r.1 }, r.2)

/-- `str_pool_copy`, maa/string.c:182-187. -/
def copy (p : Pool) (s : List Byte) : Res (Pool × Nat) :=
  (StrMem.strcpy p.mem p.str s).bind fun c => .ok ({ p with mem := c.1.1, str := c.1.2 }, c.2)

/-- `str_pool_copyn`, maa/string.c:195-200. -/
def copyn (p : Pool) (s : List Byte) (len : Nat) : Res (Pool × Nat) :=
  (StrMem.strncpy p.mem p.str s len).bind fun c => .ok ({ p with mem := c.1.1, str := c.1.2 }, c.2)

/-- `str_pool_grow`, maa/string.c:207-212. -/
def grow (p : Pool) (s : List Byte) (len : Nat) : Res Pool :=
  (StrMem.grow p.mem p.str s len).bind fun c => .ok { p with mem := c.1, str := c.2 }

/-- `str_pool_finish`, maa/string.c:220-230. -/
def finish (p : Pool) : Res (Pool × Nat) :=
  (grow p [0, 0] 1).bind fun p1 =>
    (StrMem.finish p1.mem p1.str).bind fun c =>
      (insert { p1 with mem := c.1.1, str := c.1.2 } c.2).bind fun p' => .ok (p', c.2)

/-- One call (dispatch only; maa/string.c:76-230). -/
def step (p : Pool) : Spec.PoolOp → Res (Pool × Spec.Ret)
  | .exists_ s => (exists_ p s).bind fun r => .ok (r.1, .int r.2)
  | .find s => (find p s).bind fun r => .ok (r.1, .ptr r.2)
  | .copy s => (copy p s).bind fun r => .ok (r.1, .ptr r.2)
  | .copyn s n => (copyn p s n).bind fun r => .ok (r.1, .ptr r.2)
  | .grow s n => (grow p s n).bind fun r => .ok (r, .int 0)
  | .finish => (finish p).bind fun r => .ok (r.1, .ptr r.2)
  | .iterate f => (iterate p f).bind fun r => .ok (r.1, .int r.2.2)
  | .iterateArg f => (iterateArg p f).bind fun r => .ok (r.1, .int r.2.2)

/-- The static variables of maa/string.c:39 and 370 and the memories of the program. -/
structure Global where
  mem : Mem
  cells : Heap (Entry SKey Ptr)
  pool : Option (SInfo × HTab)
  counter : Nat

/-- Program start. -/
def Global.init (p1 p2 : Policy := Heap.neverAgain) : Global := { mem := Heap.init p1, cells := Heap.init p2, pool := none, counter := 1 }

/-- Use the global pool; `global` NULL is dereferenced at maa/string.c:81, 199: undefined behaviour. -/
def withGlobal {α : Type} (g : Global) (f : Pool → Res (Pool × α)) : Res (Global × α) :=
  match g.pool with
  | none => .ub
  | some (i, t) =>
    (f { mem := g.mem, str := i, cells := g.cells, tab := t }).bind fun r =>
      .ok ({ g with mem := r.1.mem, cells := r.1.cells, pool := some (r.1.str, r.1.tab) }, r.2)

/-- `_str_check_global`, maa/string.c:280-283. -/
def checkGlobal (g : Global) : Res Global :=
  match g.pool with
  | some _ => .ok g
  | none => (create g.mem g.cells).bind fun p => .ok { g with pool := some (p.str, p.tab) }

/-- `str_exists`, maa/string.c:288-291. -/
def strExists (g : Global) (s : List Byte) : Res (Global × Int) := withGlobal g fun p => exists_ p s

/-- `str_find`, maa/string.c:299-303. -/
def strFind (g : Global) (s : List Byte) : Res (Global × Nat) :=
  (checkGlobal g).bind fun g => withGlobal g fun p => find p s

/-- `strncpy(tmp, s, length); tmp[length] = 0`, maa/string.c:314-315: the string in `tmp`; reads the
argument up to its NUL or `length` bytes. -/
def strncpyTmp (s : List Byte) (length : Nat) : Res (List Byte) :=
  if s.length < length ∧ 0 ∉ s then .ub else .ok ((s.take length).takeWhile (· ≠ 0))

/-- `str_findn`, maa/string.c:309-318. -/
def strFindn (g : Global) (s : List Byte) (length : Nat) : Res (Global × Nat) :=
  (checkGlobal g).bind fun g => (strncpyTmp s length).bind fun t => withGlobal g fun p => find p (t ++ [0])

/-- `str_copy`, maa/string.c:326-330. -/
def strCopy (g : Global) (s : List Byte) : Res (Global × Nat) :=
  (checkGlobal g).bind fun g => withGlobal g fun p => copy p s

/-- `str_copyn`, maa/string.c:336-339: no check of `global`. -/
def strCopyn (g : Global) (s : List Byte) (length : Nat) : Res (Global × Nat) :=
  withGlobal g fun p => copyn p s length

/-- `str_grow`, maa/string.c:345-349. -/
def strGrow (g : Global) (s : List Byte) (length : Nat) : Res (Global × Unit) :=
  (checkGlobal g).bind fun g => withGlobal g fun p => (grow p s length).bind fun p' => .ok (p', ())

/-- `str_finish`, maa/string.c:357-361. -/
def strFinish (g : Global) : Res (Global × Nat) := (checkGlobal g).bind fun g => withGlobal g fun p => finish p

/-- The loop of `str_unique`, maa/string.c:373-375; gives the last `buf`.  `n` bounds the number of
rounds; running out is reported as `ub`.  The counter does not overflow (simplification; true of
fewer than 195 million calls, `C75_unique_counter_int`). -/
def uniqueLoop (pre : List Byte) : Nat → Global → Res (Global × List Byte)
  | 0, _ => .ub
  | n + 1, g =>
    let buf := pre ++ Spec.decimal g.counter
    (strExists { g with counter := g.counter + 1 } (buf ++ [0])).bind fun r =>
      if r.2 ≠ 0 then uniqueLoop pre n r.1 else .ok (r.1, buf)

/-- `str_unique`, maa/string.c:368-377. -/
def strUnique (g : Global) (pre : List Byte) : Res (Global × Nat) :=
  (cstr pre).bind fun t =>
    (uniqueLoop t (match g.pool with | some p => p.2.entries + 1 | none => 1) g).bind fun r => strFind r.1 (r.2 ++ [0])

/-- `str_destroy`, maa/string.c:387-391. -/
def strDestroy (g : Global) : Res Global :=
  match g.pool with
  | none => .ok g
  | some (i, t) =>
    (destroy { mem := g.mem, str := i, cells := g.cells, tab := t }).bind fun r =>
      .ok { g with mem := r.1, cells := r.2, pool := none }

/-- One call on the global pool (dispatch only; maa/string.c:288-391). -/
def gstep (g : Global) : Spec.GlobalOp → Res (Global × Spec.Ret)
  | .exists_ s => (strExists g s).bind fun r => .ok (r.1, .int r.2)
  | .find s => (strFind g s).bind fun r => .ok (r.1, .ptr r.2)
  | .findn s n => (strFindn g s n).bind fun r => .ok (r.1, .ptr r.2)
  | .copy s => (strCopy g s).bind fun r => .ok (r.1, .ptr r.2)
  | .copyn s n => (strCopyn g s n).bind fun r => .ok (r.1, .ptr r.2)
  | .grow s n => (strGrow g s n).bind fun r => .ok (r.1, .int 0)
  | .finish => (strFinish g).bind fun r => .ok (r.1, .ptr r.2)
  | .unique s => (strUnique g s).bind fun r => .ok (r.1, .ptr r.2)
  | .destroy => (strDestroy g).bind fun r => .ok (r, .int 0)

end Maa.StrPool
