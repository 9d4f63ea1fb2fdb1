import Verif.Model.HashIter
import Verif.Model.CStr

/-! # Hash tables keyed by strings

`hsh_create(NULL, NULL)` selects the built-in string callbacks (maa/hash.c:95-96).  Tables of names are used by
maa/flags.c, maa/debug.c, maa/timer.c and maa/parse-concrete.c.  The table is the pointer-level one of
Model/HashHeap.lean; its cells live in a memory of their own (simplification: all tables share one memory in the program;
C05_pointers_memory and C69 show that a table touches only its own cells).  A key in a table is modelled by the characters
of the string at the time of insertion (simplification: the table stores the caller's pointer; the caller is
assumed to leave the string alone while it is registered; Model/Borrowed.lean and C89 do without this). -/

namespace Maa.NameTab

open HashHeap (HState HTab)

/-- The callbacks of `hsh_create(NULL, NULL)`, maa/hash.c:95-96,482-500,530-537, on the characters before the NUL. -/
def strOps : KeyOps (List Byte) :=
  { hash := fun k => CStr.strHashLoop 0 (k.takeWhile (· ≠ 0))
    cmp := fun a b => CStr.strcmp (a.takeWhile (· ≠ 0)) (b.takeWhile (· ≠ 0)) }

/-- A table of names. -/
abbrev Table := HState (List Byte) Ptr

/-- What the string callbacks make of a key argument: NULL aborts (maa/hash.c:486-487), otherwise the string is
read up to its NUL. -/
def argKey : Option (List Byte) → Res (List Byte)
  | none => .abort
  | some buf => CStr.cstr buf

/-- `hsh_create(NULL, NULL)`, maa/hash.c:127-133. -/
def create : Res Table := (HashHeap.hcreate 0).bind fun t => .ok (Heap.init, t)

/-- `hsh_retrieve(t, name)`, maa/hash.c:300-329, the name read: NULL (0) if there is no such entry. -/
def retrieveKey (t : Table) (k : List Byte) : Res (Table × Ptr) :=
  (HashHeap.hretrieve strOps t.1 t.2 k).bind fun r => .ok (r.1, r.2.getD 0)

/-- `hsh_insert(t, name, datum)`, maa/hash.c:216-262, the name read. -/
def insertKey (t : Table) (k : List Byte) (datum : Ptr) : Res (Table × Int) :=
  HashHeap.hinsert strOps t.1 t.2 k datum

/-- `hsh_retrieve(t, name)`, maa/hash.c:300-329, `name` a C string. -/
def retrieve (t : Table) (name : Option (List Byte)) : Res (Table × Ptr) :=
  (argKey name).bind fun k => retrieveKey t k

/-- `hsh_insert(t, name, datum)`, maa/hash.c:216-262, `name` a C string. -/
def insert (t : Table) (name : Option (List Byte)) (datum : Ptr) : Res (Table × Int) :=
  (argKey name).bind fun k => insertKey t k datum

/-- `hsh_destroy(t)`, maa/hash.c:174-181. -/
def destroy (t : Table) : Res Unit := (HashHeap.hdestroy t.1 t.2).bind fun _ => .ok ()

/-- `hsh_iterate(t, f)` / `hsh_iterate_arg(t, f, arg)`, maa/hash.c:338-391; the callback may call the library on the same
table. -/
def iterate {σ : Type} (t : Table) (f : σ → List Byte × Ptr → Spec.Calls (Spec.HashOp (List Byte)) Spec.Ret σ) (st : σ) :
    Res (Table × σ × Int) := HashHeap.hiterate strOps f (t.2.prime + 1) 0 t st

/-- A callback that makes no calls and never stops the iteration. -/
def quiet {σ : Type} (g : σ → List Byte × Ptr → σ) (st : σ) (p : List Byte × Ptr) :
    Spec.Calls (Spec.HashOp (List Byte)) Spec.Ret σ := .ret (g st p) 0

/-- `HSH_ITERATE(t, position, key, datum) { if (p) { HSH_ITERATE_END(t); return ...; } }`, maa/maa.h:160-175, from a
position on.  The first argument bounds the number of rounds (running out is `ub`). -/
def scanFrom (p : List Byte × Ptr → Bool) : Nat → Table → Nat → Res (Table × Option (List Byte × Ptr))
  | 0, _, _ => .ub
  | n + 1, t, pos =>
    if pos = 0 then .ok (t, none)
    else (HashHeap.getPosition t.1 pos).bind fun kd =>
      if p kd then .ok ((t.1, { t.2 with readonly := 0 }), some kd)
      else (HashHeap.nextPosition t.1 t.2 pos).bind fun q => scanFrom p n (t.1, q.1) q.2

/-- That loop from the start, maa/maa.h:160-175. -/
def scan (t : Table) (p : List Byte × Ptr → Bool) : Res (Table × Option (List Byte × Ptr)) :=
  let i := HashHeap.initPosition t.2
  scanFrom p (t.2.entries + 1) (t.1, i.1) i.2

end Maa.NameTab
