import Verif.Spec.Sl
import Verif.Model.Heap

/-! # Model of maa/sl.c (pointer level)

Entries live in memory with their array of forward pointers; an element of the array that was not written yet is `none`,
and reading it, or any element outside the array, or any entry that is not live, is undefined.  Simplifications: `xmalloc` always
succeeds (which address it returns is up to the allocator, an arbitrary policy as in Model/Heap.lean); the structures `_sl_List` are kept apart, by handle (handle 0 is NULL);
`print` and `_sl_dump` (messages only) are not modelled; `SL_DEBUG` is 0 as in the source (maa/sl.c:47).

Loops over forward pointers take a number of steps and give `ub` when it runs out; they are called with `clock`
steps, more than there are entries, so the C loop would not end either. -/

namespace Maa.Sl

open Spec (SlOp SlCallback run)

/-- `_sl_Entry`, maa/sl.c:49-58. -/
structure Entry where
  datum : Nat
  forward : List (Option Nat)

/-- Memory holding entries; `clock` counts the calls of `xmalloc`, `place` is the policy of the allocator. -/
structure Heap where
  mem : Nat → Option Entry
  clock : Nat
  place : Policy

/-- The address the next `xmalloc` returns. -/
def Heap.addr (h : Heap) : Nat := h.place h.clock fun a => (h.mem a).isSome

/-- A memory a program can be in (as in Model/Heap.lean). -/
structure Heap.Ok (h : Heap) : Prop where
  policy : Maa.Heap.Allocator h.place
  fin : ∃ l : List Nat, (∀ a, (h.mem a).isSome → a ∈ l) ∧ l.length < h.clock
  null : h.mem 0 = none

/-- `_sl_List`, maa/sl.c:60-70. -/
structure SList where
  level : Nat
  count : Int
  head : Nat
  compare : Nat → Nat → Int
  key : Nat → Nat

/-- All entries and lists of the program. -/
structure State where
  heap : Heap
  lists : Nat → Option SList
  next : Nat

/-- Program start. -/
def State.init (place : Policy := Maa.Heap.neverAgain) : State :=
  { heap := { mem := fun _ => none, clock := 1, place := place }, lists := fun _ => none, next := 1 }

/-- `_sl_MaxLevel`, maa/sl.c:74. -/
def maxLevel : Nat := 16

/-- `p->forward[i]`. -/
def Heap.fwd (h : Heap) (p i : Nat) : Res Nat :=
  match h.mem p with
  | none => .ub
  | some e =>
    match e.forward[i]? with
    | some (some q) => .ok q
    | _ => .ub

/-- `p->forward[i] = q`. -/
def Heap.setFwd (h : Heap) (p i q : Nat) : Res Heap :=
  match h.mem p with
  | none => .ub
  | some e =>
    if i < e.forward.length then
      .ok { h with mem := fun a => if a = p then some { e with forward := e.forward.set i (some q) } else h.mem a }
    else .ub

/-- `p->datum`. -/
def Heap.datum (h : Heap) (p : Nat) : Res Nat :=
  match h.mem p with
  | none => .ub
  | some e => .ok e.datum

/-- `xfree (p)`. -/
def Heap.free (h : Heap) (p : Nat) : Res Heap :=
  match h.mem p with
  | none => .ub
  | some _ => .ok { h with mem := fun a => if a = p then none else h.mem a }

/-- `_sl_create_entry`, maa/sl.c:140-159; room for `1 + (maxLevel + 1)` forward pointers, none of them written. -/
def createEntry (h : Heap) (maxLev datum : Nat) : Res (Heap × Nat) :=
  if maxLev > maxLevel then .abort
  else .ok ({ mem := fun a => if a = h.addr then some { datum := datum, forward := List.replicate (maxLev + 2) none } else h.mem a,
              clock := h.clock + 1, place := h.place }, h.addr)

/-- `for (i = 0; i <= _sl_MaxLevel; i++) l->head->forward[i] = NULL`, maa/sl.c:199. -/
def clearLoop (p : Nat) : List Nat → Heap → Res Heap
  | [], h => .ok h
  | i :: is, h => (h.setFwd p i 0).bind fun h => clearLoop p is h

/-- `sl_create`, maa/sl.c:172-202 (the pool `_sl_Memory` is not modelled here). -/
def create (σ : State) (compare : Option (Nat → Nat → Int)) (key : Option (Nat → Nat)) : Res (State × Nat) :=
  match compare, key with
  | some cmp, some k =>
    (createEntry σ.heap maxLevel 0).bind fun r =>
      (clearLoop r.2 (List.range (maxLevel + 1)) r.1).bind fun h =>
        .ok ({ heap := h, next := σ.next + 1,
               lists := fun j => if j = σ.next then some { level := 0, count := 0, head := r.2, compare := cmp, key := k } else σ.lists j }, σ.next)
  | _, _ => .abort

/-- `_sl_check_list`, maa/sl.c:78-88, and the access to the structure that follows. -/
def State.check (σ : State) (l : Nat) : Res SList :=
  if l = 0 then .abort
  else match σ.lists l with
    | some s => .ok s
    | none => .ub

/-- Write a list structure. -/
def State.put (σ : State) (l : Nat) (h : Heap) (s : Option SList) : State :=
  { σ with heap := h, lists := fun j => if j = l then s else σ.lists j }

/-- The loop of `sl_destroy`, maa/sl.c:216-222. -/
def freeLoop : Nat → Nat → Heap → Res Heap
  | 0, _, _ => .ub
  | n + 1, e, h =>
    if e = 0 then .ok h
    else (h.fwd e 0).bind fun next => (h.free e).bind fun h => freeLoop n next h

/-- `sl_destroy`, maa/sl.c:209-227. -/
def destroy (σ : State) (l : Nat) : Res State :=
  (σ.check l).bind fun s => (freeLoop (σ.heap.clock + 1) s.head σ.heap).bind fun h => .ok (σ.put l h none)

/-- The loop of `_sl_random_level`, maa/sl.c:257; `k` counts the calls of `random`. -/
def randomLoop (rnd : Nat → Nat) : Nat → Nat → Nat → Nat
  | 0, _, level => level
  | n + 1, k, level => if rnd k &&& 0x80 ≠ 0 ∧ level < maxLevel then randomLoop rnd n (k + 1) (level + 1) else level

/-- `_sl_random_level`, maa/sl.c:249-259; the loop ends after at most 16 rounds because `level` grows. -/
def randomLevel (rnd : Nat → Nat) : Nat := randomLoop rnd 17 0 1

/-- The inner loop of `_sl_locate`, maa/sl.c:277-279. -/
def advance (s : SList) (h : Heap) (key i : Nat) : Nat → Nat → Res Nat
  | 0, _ => .ub
  | n + 1, pt =>
    (h.fwd pt i).bind fun q =>
      if q = 0 then .ok pt
      else (h.datum q).bind fun d => if s.compare (s.key d) key < 0 then advance s h key i n q else .ok pt

/-- The array `update` of `_sl_MaxLevel + 1` pointers, e.g. maa/sl.c:292, not initialised. -/
def noUpdate : List (Option Nat) := List.replicate (maxLevel + 1) none

/-- `update[i] = p`. -/
def setUpdate (u : List (Option Nat)) (i p : Nat) : Res (List (Option Nat)) :=
  if i < u.length then .ok (u.set i (some p)) else .ub

/-- `update[i]`. -/
def getUpdate (u : List (Option Nat)) (i : Nat) : Res Nat :=
  match u[i]? with
  | some (some p) => .ok p
  | _ => .ub

/-- The outer loop of `_sl_locate`, maa/sl.c:276-281, for the levels `i - 1`, …, 0. -/
def locateLoop (s : SList) (h : Heap) (key : Nat) : Nat → Nat → List (Option Nat) → Res (Nat × List (Option Nat))
  | 0, pt, u => .ok (pt, u)
  | i + 1, pt, u =>
    (advance s h key i h.clock pt).bind fun pt => (setUpdate u i pt).bind fun u => locateLoop s h key i pt u

/-- `_sl_locate`, maa/sl.c:270-284: the entry found and `update`. -/
def locate (s : SList) (h : Heap) (key : Nat) : Res (Nat × List (Option Nat)) :=
  (locateLoop s h key (s.level + 1) s.head noUpdate).bind fun r => (h.fwd r.1 0).bind fun pt => .ok (pt, r.2)

/-- "Fixup forward pointers", maa/sl.c:316-320. -/
def linkLoop (u : List (Option Nat)) (entry : Nat) : List Nat → Heap → Res Heap
  | [], h => .ok h
  | i :: is, h =>
    (getUpdate u i).bind fun p => (h.fwd p i).bind fun q => (h.setFwd entry i q).bind fun h => (h.setFwd p i entry).bind fun h =>
      linkLoop u entry is h

/-- `sl_insert`, maa/sl.c:289-324. -/
def insert (σ : State) (l datum : Nat) (rnd : Nat → Nat) : Res State :=
  let level := randomLevel rnd
  (σ.check l).bind fun s =>
    let key := s.key datum
    (locate s σ.heap key).bind fun r =>
      (if r.1 = 0 then Res.ok () else (σ.heap.datum r.1).bind fun d => if s.compare (s.key d) key = 0 then .abort else .ok ()).bind fun _ =>
        (if level > s.level then (setUpdate r.2 (s.level + 1) s.head).bind fun u => .ok (s.level + 1, s.level + 1, u)
         else Res.ok (level, s.level, r.2)).bind fun x =>
          (createEntry σ.heap x.1 datum).bind fun e =>
            (linkLoop x.2.2 e.2 (List.range (x.1 + 1)) e.1).bind fun h =>
              .ok (σ.put l h (some { s with level := x.2.1, count := s.count + 1 }))

/-- "Fixup forward pointers", maa/sl.c:348-352. -/
def unlinkLoop (u : List (Option Nat)) (pt : Nat) : List Nat → Heap → Res Heap
  | [], h => .ok h
  | i :: is, h =>
    (getUpdate u i).bind fun p => (h.fwd p i).bind fun q =>
      if q = pt then (h.fwd pt i).bind fun q' => (h.setFwd p i q').bind fun h => unlinkLoop u pt is h
      else unlinkLoop u pt is h

/-- `while (l->level && !l->head->forward[ l->level ]) --l->level`, maa/sl.c:355-356. -/
def lowerLevel (h : Heap) (head : Nat) : Nat → Res Nat
  | 0 => .ok 0
  | n + 1 => (h.fwd head (n + 1)).bind fun q => if q = 0 then lowerLevel h head n else .ok (n + 1)

/-- `sl_delete`, maa/sl.c:328-359. -/
def delete (σ : State) (l datum : Nat) : Res State :=
  (σ.check l).bind fun s =>
    let key := s.key datum
    (locate s σ.heap key).bind fun r =>
      (if r.1 = 0 then .abort else (σ.heap.datum r.1).bind fun d => if s.compare (s.key d) key ≠ 0 then .abort else .ok ()).bind fun _ =>
        (unlinkLoop r.2 r.1 (List.range (s.level + 1)) σ.heap).bind fun h => (h.free r.1).bind fun h =>
          (lowerLevel h s.head s.level).bind fun level => .ok (σ.put l h (some { s with level := level, count := s.count - 1 }))

/-- `sl_find`, maa/sl.c:364-376. -/
def find (σ : State) (l key : Nat) : Res Nat :=
  (σ.check l).bind fun s =>
    (locate s σ.heap key).bind fun r =>
      if r.1 = 0 then .ok 0
      else (σ.heap.datum r.1).bind fun d => if s.compare (s.key d) key = 0 then .ok d else .ok 0

/-- The calls. -/
def step (σ : State) : SlOp → Res (State × Nat)
  | .create cmp key => create σ cmp key
  | .destroy l => (destroy σ l).bind fun σ => .ok (σ, 0)
  | .insert l d rnd => (insert σ l d rnd).bind fun σ => .ok (σ, 0)
  | .delete l d => (delete σ l d).bind fun σ => .ok (σ, 0)
  | .find l k => (find σ l k).bind fun d => .ok (σ, d)

/-- The copying loop of `sl_iterate`, maa/sl.c:403-405: `copy` has room for `count` pointers. -/
def copyLoop (h : Heap) (count : Int) : Nat → Nat → List Nat → Res (List Nat)
  | 0, _, _ => .ub
  | n + 1, pt, copy =>
    if pt = 0 then .ok copy
    else (h.datum pt).bind fun d =>
      if (copy.length : Int) < count then (h.fwd pt 0).bind fun next => copyLoop h count n next (copy ++ [d]) else .ub

/-- The calling loop of `sl_iterate`, maa/sl.c:406-408, for `n` more elements of `copy` from `i` on; also gives the
data `f` was called with. -/
def callLoop {X : Type} (f : SlCallback X) (copy : List Nat) : Nat → Nat → State → X → Res (State × X × Int × List Nat)
  | 0, _, σ, x => .ok (σ, x, 0, [])
  | n + 1, i, σ, x =>
    match copy[i]? with
    | none => .ub
    | some d =>
      (run step σ (f x d).1).bind fun r =>
        if (f x d).2.2 ≠ 0 then .ok (r.1, (f x d).2.1, (f x d).2.2, [d])
        else (callLoop f copy n (i + 1) r.1 (f x d).2.1).bind fun q => .ok (q.1, q.2.1, q.2.2.1, d :: q.2.2.2)

/-- `sl_iterate`, maa/sl.c:383-413. -/
def iterate {X : Type} (σ : State) (l : Nat) (f : SlCallback X) (x : X) : Res (State × X × Int × List Nat) :=
  if l = 0 then .ok (σ, x, 0, [])
  else (σ.check l).bind fun s =>
    (σ.heap.fwd s.head 0).bind fun pt =>
      (copyLoop σ.heap s.count (σ.heap.clock + 1) pt []).bind fun copy => callLoop f copy s.count.toNat 0 σ x

/-- `sl_iterate_arg`, maa/sl.c:420-451; `arg` is part of the callback. -/
def iterateArg {A X : Type} (σ : State) (l : Nat) (f : A → SlCallback X) (arg : A) (x : X) : Res (State × X × Int × List Nat) :=
  iterate σ l (f arg) x

end Maa.Sl
