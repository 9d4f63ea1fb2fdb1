import Verif.Model.HashStats
import Verif.Model.Set

/-! # Pointer-level model of maa/set.c with several sets in one memory

All sets of a program live in one memory of cells.  The binary functions walk the chains of one set while they
insert into, delete from or search another set (or the same one), through the memory they share; nothing is assumed
about the two arguments being different. -/

namespace Maa.SetHeap

open HashHeap (HTab hcreate hinsert hdelete hretrieve hdestroy hgetStats)
open Tab (Entry)
open Set (FnEnv)

/-- `set_Set`, maa/set.c:48-62, at pointer level. -/
structure HSet where
  tab : HTab
  hashFn : Nat
  cmpFn : Nat

/-- The program's sets: `sets i` is the set structure behind handle `i`, `heap` the chains of all of them. -/
structure HStore (K : Type) where
  heap : Heap (Entry K Unit)
  sets : Nat → Option HSet
  next : Nat

variable {K : Type}

/-- Program start. -/
def HStore.empty (place : Policy := Heap.neverAgain) : HStore K := { heap := Heap.init place, sets := fun _ => none, next := 0 }

/-- The set structure behind a handle; one that was never created or has been destroyed is undefined behaviour. -/
def HStore.get (s : HStore K) (i : Nat) : Res HSet :=
  match s.sets i with
  | some t => .ok t
  | none => .ub

/-- Write a set structure back. -/
def HStore.put (s : HStore K) (i : Nat) (t : Option HSet) : HStore K :=
  { s with sets := fun j => if j = i then t else s.sets j }

/-- The table of a set changed together with the memory. -/
def HStore.upd (s : HStore K) (i : Nat) (t : HSet) (r : Heap (Entry K Unit) × HTab) : HStore K :=
  { (s.put i (some { t with tab := r.2 })) with heap := r.1 }

/-- The callbacks of a set. -/
def HSet.ops (env : FnEnv K) (t : HSet) : KeyOps K := env.ops t.hashFn t.cmpFn

/-- `set_create`, maa/set.c:126-129: the new set gets the next handle. -/
def setCreate (s : HStore K) (h c : Nat) : Res (HStore K × Nat) :=
  (hcreate 0).bind fun t =>
    .ok ({ s with sets := fun j => if j = s.next then some { tab := t, hashFn := h, cmpFn := c } else s.sets j, next := s.next + 1 }, s.next)

/-- `set_insert`, maa/set.c:226-269. -/
def setInsert (env : FnEnv K) (s : HStore K) (i : Nat) (e : K) : Res (HStore K × Int) :=
  (s.get i).bind fun t => (hinsert (t.ops env) s.heap t.tab e ()).bind fun r => .ok (s.upd i t r.1, r.2)

/-- `set_delete`, maa/set.c:274-300. -/
def setDelete (env : FnEnv K) (s : HStore K) (i : Nat) (e : K) : Res (HStore K × Int) :=
  (s.get i).bind fun t => (hdelete (t.ops env) s.heap t.tab e).bind fun r => .ok (s.upd i t r.1, r.2)

/-- `set_member`, maa/set.c:305-333. -/
def setMember (env : FnEnv K) (s : HStore K) (i : Nat) (e : K) : Res (HStore K × Int) :=
  (s.get i).bind fun t => (hretrieve (t.ops env) s.heap t.tab e).bind fun r =>
    .ok (s.upd i t r.1, match r.2 with | some _ => 1 | none => 0)

/-- `set_readonly`, maa/set.c:467-477. -/
def setReadonly (s : HStore K) (i : Nat) (flag : Int) : Res (HStore K × Int) :=
  (s.get i).bind fun t => .ok (s.put i (some { t with tab := { t.tab with readonly := flag } }), t.tab.readonly)

/-- `set_destroy`, maa/set.c:188-197. -/
def setDestroy (s : HStore K) (i : Nat) : Res (HStore K) :=
  (s.get i).bind fun t => (hdestroy s.heap t.tab).bind fun h => .ok { (s.put i none) with heap := h }

/-- The inner loop `for (pt = t->buckets[i]; pt; pt = pt->next) ...` of the six binary functions, e.g.
maa/set.c:506-507, 628-630, 711-715: `pt->elem` is handed to the body; `pt->next` is read after the body has run; the body may
ask to leave the function.  The first argument bounds the number of rounds (running out is `ub`). -/
def walkChain (body : HStore K → K → Res (HStore K × Bool)) : Nat → HStore K → Nat → Res (HStore K × Bool)
  | 0, _, _ => .ub
  | n + 1, s, pt =>
    if pt = 0 then .ok (s, false)
    else (s.heap.read pt).bind fun c =>
      (body s c.1.key).bind fun q =>
        if q.2 then .ok (q.1, true)
        else (q.1.heap.read pt).bind fun c' => walkChain body n q.1 c'.2

/-- The outer loop `for (i = 0; i < t->prime; i++) if (t->buckets[i]) ...` from slot `k` on, e.g. maa/set.c:502-509, 573-580,
624-633, 707-718; `t->prime` and `t->buckets` are read again on every round. -/
def walk (body : HStore K → K → Res (HStore K × Bool)) (i : Nat) : Nat → Nat → HStore K → Res (HStore K × Bool)
  | 0, _, _ => .ub
  | n + 1, k, s =>
    (s.get i).bind fun t =>
      if k < t.tab.prime then
        (walkChain body s.heap.clock s (t.tab.buckets k)).bind fun q =>
          if q.2 then .ok q else walk body i n (k + 1) q.1
      else .ok (s, false)

/-- The checks at the start of the six binary functions, e.g. maa/set.c:494-500: both sets exist and have the same functions. -/
def check2 (s : HStore K) (i j : Nat) : Res (HSet × HSet) :=
  (s.get i).bind fun t1 => (s.get j).bind fun t2 =>
    if t1.hashFn ≠ t2.hashFn then .fatal
    else if t1.cmpFn ≠ t2.cmpFn then .fatal
    else .ok (t1, t2)

/-- `set_insert(set, pt->elem)` as a loop body, maa/set.c:507, 579, 588: the result is not looked at. -/
def insertBody (env : FnEnv K) (i : Nat) (s : HStore K) (e : K) : Res (HStore K × Bool) :=
  (setInsert env s i e).bind fun r => .ok (r.1, false)

/-- `set_delete(set1, pt->elem)` as a loop body, maa/set.c:542. -/
def deleteBody (env : FnEnv K) (i : Nat) (s : HStore K) (e : K) : Res (HStore K × Bool) :=
  (setDelete env s i e).bind fun r => .ok (r.1, false)

/-- `if (set_member(t2, pt->elem)) set_insert(set, pt->elem)`, maa/set.c:629-630 (`keep`), and
`if (!set_member(t2, pt->elem)) set_insert(set, pt->elem)`, maa/set.c:672-673 (not `keep`). -/
def selectBody (env : FnEnv K) (keep : Bool) (new j : Nat) (s : HStore K) (e : K) : Res (HStore K × Bool) :=
  (setMember env s j e).bind fun r =>
    if (r.2 ≠ 0) = keep then (setInsert env r.1 new e).bind fun q => .ok (q.1, false) else .ok (r.1, false)

/-- `if (!set_member(t2, pt->elem)) ... return 0`, maa/set.c:712-715. -/
def equalBody (env : FnEnv K) (j : Nat) (s : HStore K) (e : K) : Res (HStore K × Bool) :=
  (setMember env s j e).bind fun r => .ok (r.1, r.2 == 0)

/-- A bound on the rounds of `walk` (it is never reached when the walked set does not grow, see `walk`). -/
def rounds (t : HSet) : Nat := t.tab.prime + 1

/-- `set_add`, maa/set.c:485-512. -/
def setAdd (env : FnEnv K) (s : HStore K) (i j : Nat) : Res (HStore K × Nat) :=
  (check2 s i j).bind fun t => (walk (insertBody env i) j (rounds t.2) 0 s).bind fun q => .ok (q.1, i)

/-- `set_del`, maa/set.c:520-547. -/
def setDel (env : FnEnv K) (s : HStore K) (i j : Nat) : Res (HStore K × Nat) :=
  (check2 s i j).bind fun t => (walk (deleteBody env i) j (rounds t.2) 0 s).bind fun q => .ok (q.1, i)

/-- `set_union`, maa/set.c:554-593. -/
def setUnion (env : FnEnv K) (s : HStore K) (i j : Nat) : Res (HStore K × Nat) :=
  (check2 s i j).bind fun t =>
  (setCreate s t.1.hashFn t.1.cmpFn).bind fun c =>
  (walk (insertBody env c.2) i (rounds t.1) 0 c.1).bind fun q =>
  (walk (insertBody env c.2) j (rounds t.2) 0 q.1).bind fun q => .ok (q.1, c.2)

/-- `t2->readonly = ...` in the functions below, e.g. maa/set.c:623, 634. -/
def putRo (s : HStore K) (j : Nat) (flag : Int) : Res (HStore K) :=
  (s.get j).bind fun t => .ok (s.put j (some { t with tab := { t.tab with readonly := flag } }))

/-- `set_inter`, maa/set.c:600-635 (`keep`), and `set_diff`, maa/set.c:643-678 (not `keep`). -/
def setSelect (env : FnEnv K) (keep : Bool) (s : HStore K) (i j : Nat) : Res (HStore K × Nat) :=
  (check2 s i j).bind fun t =>
  (setCreate s t.1.hashFn t.1.cmpFn).bind fun c =>
  let savedReadonly := t.2.tab.readonly
  (putRo c.1 j 1).bind fun s =>
  (walk (selectBody env keep c.2 j) i (rounds t.1) 0 s).bind fun q =>
  (putRo q.1 j savedReadonly).bind fun s => .ok (s, c.2)

/-- `set_equal`, maa/set.c:685-721. -/
def setEqual (env : FnEnv K) (s : HStore K) (i j : Nat) : Res (HStore K × Int) :=
  (check2 s i j).bind fun t =>
    if t.1.tab.entries ≠ t.2.tab.entries then .ok (s, 0)
    else
      let savedReadonly := t.2.tab.readonly
      (putRo s j 1).bind fun s =>
      (walk (equalBody env j) i (rounds t.1) 0 s).bind fun q =>
      (putRo q.1 j savedReadonly).bind fun s => .ok (s, if q.2 then 0 else 1)

/-- One call of the set.c API (dispatch only; maa/set.c:126-773). -/
def hsetStep (env : FnEnv K) (s : HStore K) : Spec.SetOp K → Res (HStore K × Int)
  | .create h c => (setCreate s h c).bind fun r => .ok (r.1, (r.2 : Int))
  | .insert i e => setInsert env s i e
  | .delete i e => setDelete env s i e
  | .member i e => setMember env s i e
  | .readonly i f => setReadonly s i f
  | .destroy i => (setDestroy s i).bind fun r => .ok (r, 0)
  | .count i => (s.get i).bind fun t => .ok (s, (t.tab.entries : Int))
  | .stats i => (s.get i).bind fun t => (hgetStats s.heap t.tab).bind fun r => .ok (s, (r.entries : Int))
  | .add i j => (setAdd env s i j).bind fun r => .ok (r.1, (r.2 : Int))
  | .del i j => (setDel env s i j).bind fun r => .ok (r.1, (r.2 : Int))
  | .union i j => (setUnion env s i j).bind fun r => .ok (r.1, (r.2 : Int))
  | .inter i j => (setSelect env true s i j).bind fun r => .ok (r.1, (r.2 : Int))
  | .diff i j => (setSelect env false s i j).bind fun r => .ok (r.1, (r.2 : Int))
  | .equal i j => setEqual env s i j

end Maa.SetHeap
