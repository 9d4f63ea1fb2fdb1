import Verif.Model.HashHeap
import Verif.Model.Set
import Verif.Spec.Tables

/-! # Pointer-level model of several hash tables in one memory (maa/hash.c) -/

namespace Maa.Tables

open HashHeap (HTab hcreate hdestroy heapStep initPosition nextPosition getPosition)
open Tab (Entry)
open Set (FnEnv)

/-- `struct table`, maa/hash.c:44-57, at pointer level with its two functions. -/
structure HTable where
  tab : HTab
  hashFn : Nat
  cmpFn : Nat

/-- The program's hash tables: `tabs i` is the table structure behind handle `i`, `heap` the buckets of all of them. -/
structure HTables (K : Type) where
  heap : Heap (Entry K Ptr)
  tabs : Nat → Option HTable
  next : Nat

variable {K σ : Type}

/-- Program start. -/
def HTables.empty (place : Policy := Heap.neverAgain) : HTables K := { heap := Heap.init place, tabs := fun _ => none, next := 0 }

/-- The table structure behind a handle; one that was never created or has been destroyed is undefined behaviour. -/
def HTables.get (s : HTables K) (i : Nat) : Res HTable :=
  match s.tabs i with
  | some t => .ok t
  | none => .ub

/-- Write a table structure back. -/
def HTables.put (s : HTables K) (i : Nat) (t : Option HTable) : HTables K :=
  { s with tabs := fun j => if j = i then t else s.tabs j }

/-- `hsh_create`, maa/hash.c:127-133: the new table gets the next handle. -/
def tabCreate (s : HTables K) (h c : Nat) : Res (HTables K × Spec.Ret) :=
  (hcreate 0).bind fun t =>
    .ok ({ s with tabs := fun j => if j = s.next then some { tab := t, hashFn := h, cmpFn := c } else s.tabs j, next := s.next + 1 }, .int s.next)

/-- A call on table `i`, maa/hash.c:216-329, 617-627 (the functions of Model/HashHeap.lean in the common memory). -/
def tabCall (env : FnEnv K) (s : HTables K) (i : Nat) (o : Spec.HashOp K) : Res (HTables K × Spec.Ret) :=
  (s.get i).bind fun t =>
    (heapStep (env.ops t.hashFn t.cmpFn) (s.heap, t.tab) o).bind fun r =>
      .ok ({ (s.put i (some { t with tab := r.1.2 })) with heap := r.1.1 }, r.2)

/-- `hsh_destroy`, maa/hash.c:174-181. -/
def tabDestroy (s : HTables K) (i : Nat) : Res (HTables K × Spec.Ret) :=
  (s.get i).bind fun t => (hdestroy s.heap t.tab).bind fun h => .ok ({ (s.put i none) with heap := h }, .int 0)

/-- One call (dispatch only; maa/hash.c:127-627). -/
def tablesStep (env : FnEnv K) (s : HTables K) : Spec.TabOp K → Res (HTables K × Spec.Ret)
  | .create h c => tabCreate s h c
  | .call i o => tabCall env s i o
  | .destroy i => tabDestroy s i

/-- The loop `HSH_ITERATE(table, pos, key, datum) { body; if (stop) break; }`, maa/maa.h:160-163, from a position on, over table `i`; the
body may call the library on any table.  The first argument bounds the number of rounds (running out is `ub`). -/
def iterLoop (env : FnEnv K) (i : Nat) (f : σ → K × Ptr → Spec.Calls (Spec.TabOp K) Spec.Ret σ) :
    Nat → HTables K → Nat → σ → Res (HTables K × σ × Int)
  | 0, _, _, _ => .ub
  | n + 1, s, pos, st =>
    if pos = 0 then .ok (s, st, 0)
    else (getPosition s.heap pos).bind fun kd =>
      ((f st kd).run (tablesStep env) s).bind fun q =>
        if q.2.2 ≠ 0 then .ok (q.1, q.2.1, 1)
        else (q.1.get i).bind fun t => (nextPosition q.1.heap t.tab pos).bind fun r =>
          iterLoop env i f n (q.1.put i (some { t with tab := r.1 })) r.2 q.2.1

/-- The whole loop, maa/maa.h:160-163 with `hsh_init_position`, maa/hash.c:556-567. -/
def iterate (env : FnEnv K) (i : Nat) (f : σ → K × Ptr → Spec.Calls (Spec.TabOp K) Spec.Ret σ) (n : Nat) (s : HTables K) (st : σ) :
    Res (HTables K × σ × Int) :=
  (s.get i).bind fun t => iterLoop env i f n (s.put i (some { t with tab := (initPosition t.tab).1 })) (initPosition t.tab).2 st

/-- Tables are created with functions obeying the documented contract (maa/hash.c:105-133). -/
def Lawful (env : FnEnv K) (o : Spec.TabOp K) : Prop := ∀ h c, o = .create h c → (env.ops h c).Lawful

/-- What the body of a loop over table `i` may call: anything but `hsh_readonly` on that table (maa/hash.c:617-627). -/
def BodyOp (env : FnEnv K) (i : Nat) (o : Spec.TabOp K) : Prop := Lawful env o ∧ ∀ g, o ≠ .call i (.readonly g)

end Maa.Tables
