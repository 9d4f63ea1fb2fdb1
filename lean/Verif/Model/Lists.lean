import Verif.Model.Objects
import Verif.Spec.Lists

/-! # Model of maa/list.c (pointer level, any number of lists sharing the node pool) -/

namespace Maa.Lst

open Objects (Pool)

/-- `struct list`, maa/list.c:43-50 (`count` is a natural number: simplification, no 32-bit overflow). -/
structure LObj where
  head : Nat
  tail : Nat
  count : Nat

/-- The static variables `mem` and `_lst_allocated` (maa/list.c:52-53), memory with `struct data` cells
(maa/list.c:38-41), and the list structures of the program by handle.  Handle 0 is NULL. -/
structure State where
  heap : Heap Nat
  mem : Option Pool
  lists : Nat → Option LObj
  next : Nat
  allocated : Nat

/-- Program start. -/
def State.init (place : Policy := Heap.neverAgain) : State :=
  { heap := Heap.init place, mem := none, lists := fun _ => none, next := 1, allocated := 0 }

/-- Write a list structure. -/
def State.set (σ : State) (i : Nat) (o : Option LObj) : State :=
  { σ with lists := fun j => if j = i then o else σ.lists j }

/-- `_lst_check`, maa/list.c:55-65, and the following accesses to the structure: NULL aborts, a list that
does not exist is `ub`. -/
def State.check (σ : State) (i : Nat) : Res LObj :=
  if i = 0 then .abort
  else match σ.lists i with
    | some o => .ok o
    | none => .ub

/-- `lst_total_allocated`, maa/list.c:67-70. -/
def lstTotalAllocated (σ : State) : Nat := σ.allocated

/-- `lst_create`, maa/list.c:74-89; sizes for a 64-bit machine with MAA_MAGIC. -/
def lstCreate (σ : State) : State × Nat :=
  ({ σ with
      allocated := σ.allocated + 32
      lists := fun j => if j = σ.next then some { head := 0, tail := 0, count := 0 } else σ.lists j
      next := σ.next + 1
      mem := match σ.mem with | none => some (Objects.create 16) | some p => some p }, σ.next)

/-- `_lst_shutdown`, maa/list.c:91-95. -/
def lstShutdown (σ : State) : Res State :=
  match σ.mem with
  | none => .ok σ
  | some p => (Objects.destroy σ.heap p).bind fun h => .ok { σ with heap := h, mem := none }

/-- `mem_get_object(mem)`: with `mem` NULL, maa/memory.c:306 dereferences NULL. -/
def memGet (σ : State) : Res (State × Nat) :=
  match σ.mem with
  | none => .ub
  | some p => let r := Objects.getObject (0, 0) σ.heap p; .ok ({ σ with heap := r.1, mem := some r.2.1 }, r.2.2)

/-- `mem_free_object(mem, d)`: with `mem` NULL, maa/memory.c:242-244 aborts. -/
def memFree (σ : State) (d : Nat) : Res State :=
  match σ.mem with
  | none => .abort
  | some p => .ok { σ with mem := some (Objects.freeObject p d) }

/-- The freeing loops, maa/list.c:108-112,304-309,341-346; `n` bounds the rounds.  Counts the nodes freed
(the truncating functions do `--l->count` for each). -/
def freeRest : Nat → State → Nat → Res (State × Nat)
  | 0, _, _ => .ub
  | n + 1, σ, d =>
    if d = 0 then .ok (σ, 0)
    else (σ.heap.read d).bind fun c =>
      (memFree σ d).bind fun σ' => (freeRest n σ' c.2).bind fun r => .ok (r.1, r.2 + 1)

/-- `lst_destroy`, maa/list.c:101-118. -/
def lstDestroy (σ : State) (i : Nat) : Res State :=
  (σ.check i).bind fun l =>
    (freeRest σ.heap.clock σ l.head).bind fun r => .ok (r.1.set i none)

/-- `lst_append`, maa/list.c:122-145. -/
def lstAppend (σ : State) (i datum : Nat) : Res State :=
  if i = 0 then .ok σ
  else (memGet σ).bind fun g =>
    let σ := { g.1 with allocated := g.1.allocated + 16 }
    let d := g.2
    (σ.check i).bind fun l =>
      (σ.heap.write d (datum, 0)).bind fun h =>
        if l.tail ≠ 0 then
          (h.read l.tail).bind fun t =>
            if t.2 ≠ 0 then .abort   -- assert(l->tail->next == NULL)
            else (h.write l.tail (t.1, d)).bind fun h =>
              .ok ({ σ with heap := h }.set i
                (some { head := (if l.head = 0 then d else l.head), tail := d, count := l.count + 1 }))
        else
          .ok ({ σ with heap := h }.set i
            (some { head := (if l.head = 0 then d else l.head), tail := d, count := l.count + 1 }))

/-- `lst_push`, maa/list.c:149-162. -/
def lstPush (σ : State) (i datum : Nat) : Res State :=
  (memGet σ).bind fun g =>
    let σ := { g.1 with allocated := g.1.allocated + 16 }
    let d := g.2
    (σ.check i).bind fun l =>
      (σ.heap.write d (datum, l.head)).bind fun h =>
        .ok ({ σ with heap := h }.set i
          (some { head := d, tail := (if l.tail = 0 then d else l.tail), count := l.count + 1 }))

/-- `lst_pop`, maa/list.c:167-185. -/
def lstPop (σ : State) (i : Nat) : Res (State × Nat) :=
  (σ.check i).bind fun l =>
    if l.head ≠ 0 then
      (σ.heap.read l.head).bind fun c =>
        (memFree (σ.set i (some (LObj.mk c.2 (if c.2 = 0 then 0 else l.tail) (l.count - 1)))) l.head).bind fun σ' => .ok (σ', c.1)
    else .ok (σ, 0)

/-- `lst_top`, maa/list.c:191-201. -/
def lstTop (σ : State) (i : Nat) : Res Nat :=
  (σ.check i).bind fun l =>
    if l.head ≠ 0 then (σ.heap.read l.head).bind fun c => .ok c.1 else .ok 0

/-- The loops `for (i = 1, d = l->head; i < n && d; i++, d = d->next)`, maa/list.c:215,238,430; the first
argument is `n - i`.  Returns the final `n - i` and `d`. -/
def nthLoop : Nat → Heap Nat → Nat → Res (Nat × Nat)
  | 0, _, d => .ok (0, d)
  | k + 1, h, d => if d = 0 then .ok (k + 1, 0) else (h.read d).bind fun c => nthLoop k h c.2

/-- `lst_nth_position`, maa/list.c:422-436. -/
def lstNthPosition (σ : State) (i n : Nat) : Res Nat :=
  (σ.check i).bind fun l =>
    if n < 1 ∨ n > l.count then .ok 0
    else (nthLoop (n - 1) σ.heap l.head).bind fun r => if r.1 ≠ 0 then .abort else .ok r.2

/-- `lst_nth_get`, maa/list.c:206-220. -/
def lstNthGet (σ : State) (i n : Nat) : Res Nat :=
  (σ.check i).bind fun l =>
    if n < 1 ∨ n > l.count then .ok 0
    else (nthLoop (n - 1) σ.heap l.head).bind fun r =>
      if r.1 ≠ 0 then .abort else (σ.heap.read r.2).bind fun c => .ok c.1

/-- `lst_nth_set`, maa/list.c:227-244. -/
def lstNthSet (σ : State) (i n datum : Nat) : Res State :=
  (σ.check i).bind fun l =>
    if n < 1 ∨ n > l.count then .fatal
    else (nthLoop (n - 1) σ.heap l.head).bind fun r =>
      if r.1 ≠ 0 then .abort
      else (σ.heap.read r.2).bind fun c =>
        (σ.heap.write r.2 (datum, c.2)).bind fun h => .ok { σ with heap := h }

/-- The loop of `lst_member`, maa/list.c:258-259. -/
def memberLoop : Nat → Heap Nat → Nat → Nat → Res Nat
  | 0, _, _, _ => .ub
  | n + 1, h, d, datum =>
    if d = 0 then .ok 0
    else (h.read d).bind fun c => if c.1 = datum then .ok 1 else memberLoop n h c.2 datum

/-- `lst_member`, maa/list.c:251-262. -/
def lstMember (σ : State) (i datum : Nat) : Res Nat :=
  (σ.check i).bind fun l => memberLoop σ.heap.clock σ.heap l.head datum

/-- `lst_length`, maa/list.c:266-272. -/
def lstLength (σ : State) (i : Nat) : Res Nat := (σ.check i).bind fun l => .ok l.count

/-- The loop of `lst_truncate`, maa/list.c:293: `for (i = 1, d = l->head; i < length && d; d = d->next);`.
`i` stays 1: with `length > 1` it walks until `d` is NULL. -/
def truncLoop : Nat → Heap Nat → Nat → Nat → Res Nat
  | 0, _, _, _ => .ub
  | n + 1, h, length, d =>
    if 1 < length ∧ d ≠ 0 then (h.read d).bind fun c => truncLoop n h length c.2 else .ok d

/-- `lst_truncate`, maa/list.c:277-312. -/
def lstTruncate (σ : State) (i length : Nat) : Res State :=
  (σ.check i).bind fun l =>
    if l.count ≤ length then .ok σ
    else if length = 0 then
      (freeRest σ.heap.clock (σ.set i (some { l with head := 0, tail := 0 })) l.head).bind fun r =>
        if l.count - r.2 ≠ length then .abort
        else .ok (r.1.set i (some { head := 0, tail := 0, count := l.count - r.2 }))
    else
      (truncLoop σ.heap.clock σ.heap length l.head).bind fun d =>
        (σ.heap.read d).bind fun c =>
          (σ.heap.write d (c.1, 0)).bind fun h =>
            (freeRest σ.heap.clock ({ σ with heap := h }.set i (some { l with tail := d })) c.2).bind fun r =>
              if l.count - r.2 ≠ length then .abort
              else .ok (r.1.set i (some { head := l.head, tail := d, count := l.count - r.2 }))

/-- `lst_truncate_position`, maa/list.c:320-347. -/
def lstTruncatePosition (σ : State) (i position : Nat) : Res State :=
  (σ.check i).bind fun l =>
    if position = 0 then
      (freeRest σ.heap.clock (σ.set i (some { l with head := 0, tail := 0 })) l.head).bind fun r =>
        .ok (r.1.set i (some { head := 0, tail := 0, count := l.count - r.2 }))
    else
      (σ.heap.read position).bind fun c =>
        (σ.heap.write position (c.1, 0)).bind fun h =>
          (freeRest σ.heap.clock ({ σ with heap := h }.set i (some { l with tail := position })) c.2).bind fun r =>
            .ok (r.1.set i (some { head := l.head, tail := position, count := l.count - r.2 }))

/-- The loop of `lst_iterate` / `lst_iterate_arg`, maa/list.c:361,379; the callback has state `τ`. -/
def iterateLoop {τ : Type} (f : τ → Nat → τ × Int) : Nat → Heap Nat → Nat → τ → Res (τ × Int)
  | 0, _, _, _ => .ub
  | n + 1, h, d, t =>
    if d = 0 then .ok (t, 0)
    else (h.read d).bind fun c =>
      if (f t c.1).2 ≠ 0 then .ok ((f t c.1).1, 1) else iterateLoop f n h c.2 (f t c.1).1

/-- `lst_iterate` / `lst_iterate_arg`, maa/list.c:354-363,370-381. -/
def lstIterate {τ : Type} (σ : State) (i : Nat) (f : τ → Nat → τ × Int) (t : τ) : Res (τ × Int) :=
  (σ.check i).bind fun l => iterateLoop f σ.heap.clock σ.heap l.head t

/-- `lst_init_position`, maa/list.c:387-393. -/
def lstInitPosition (σ : State) (i : Nat) : Res Nat := (σ.check i).bind fun l => .ok l.head

/-- `lst_last_position`, maa/list.c:399-405. -/
def lstLastPosition (σ : State) (i : Nat) : Res Nat := (σ.check i).bind fun l => .ok l.tail

/-- `lst_next_position`, maa/list.c:411-417. -/
def lstNextPosition (σ : State) (p : Nat) : Res Nat :=
  if p = 0 then .ok 0 else (σ.heap.read p).bind fun c => .ok c.2

/-- `lst_get_position`, maa/list.c:441-447. -/
def lstGetPosition (σ : State) (p : Nat) : Res Nat :=
  if p = 0 then .ok 0 else (σ.heap.read p).bind fun c => .ok c.1

/-- `lst_set_position`, maa/list.c:452-457. -/
def lstSetPosition (σ : State) (p datum : Nat) : Res State :=
  if p = 0 then .ok σ
  else (σ.heap.read p).bind fun c => (σ.heap.write p (datum, c.2)).bind fun h => .ok { σ with heap := h }

/-- The loop `LST_ITERATE`, maa/maa.h:296-299: positions and data visited; `n` bounds the rounds. -/
def positionLoop (σ : State) : Nat → Nat → Res (List (Nat × Nat))
  | 0, _ => .ub
  | n + 1, p =>
    if p = 0 then .ok []
    else (lstGetPosition σ p).bind fun e => (lstNextPosition σ p).bind fun q =>
      (positionLoop σ n q).bind fun r => .ok ((p, e) :: r)

/-- One call (dispatch only; maa/list.c:67-457). -/
def step (σ : State) : Spec.LstOp → Res (State × Nat)
  | .create => .ok (lstCreate σ)
  | .destroy i => (lstDestroy σ i).bind fun s => .ok (s, 0)
  | .append i d => (lstAppend σ i d).bind fun s => .ok (s, 0)
  | .push i d => (lstPush σ i d).bind fun s => .ok (s, 0)
  | .pop i => lstPop σ i
  | .top i => (lstTop σ i).bind fun x => .ok (σ, x)
  | .nthGet i n => (lstNthGet σ i n).bind fun x => .ok (σ, x)
  | .nthSet i n d => (lstNthSet σ i n d).bind fun s => .ok (s, 0)
  | .member i d => (lstMember σ i d).bind fun x => .ok (σ, x)
  | .length i => (lstLength σ i).bind fun x => .ok (σ, x)
  | .truncate i n => (lstTruncate σ i n).bind fun s => .ok (s, 0)
  | .truncatePosition i p => (lstTruncatePosition σ i p).bind fun s => .ok (s, 0)
  | .initPosition i => (lstInitPosition σ i).bind fun x => .ok (σ, x)
  | .lastPosition i => (lstLastPosition σ i).bind fun x => .ok (σ, x)
  | .nextPosition p => (lstNextPosition σ p).bind fun x => .ok (σ, x)
  | .nthPosition i n => (lstNthPosition σ i n).bind fun x => .ok (σ, x)
  | .getPosition p => (lstGetPosition σ p).bind fun x => .ok (σ, x)
  | .setPosition p d => (lstSetPosition σ p d).bind fun s => .ok (s, 0)
  | .totalAllocated => .ok (σ, lstTotalAllocated σ)
  | .shutdown => (lstShutdown σ).bind fun s => .ok (s, 0)

end Maa.Lst
