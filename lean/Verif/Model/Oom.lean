import Verif.Model.Stack
import Verif.Model.Lists
import Verif.Model.StrPool
import Verif.Model.SetHeap
import Verif.Model.Sl

/-! # The containers when memory may run out

The models of the containers with every request for memory written out.  `fails n` says that the C library answers NULL to the
request with number `n`; the number of requests made so far is part of the state of the program.  Requests are made in two ways: by
`xmalloc` and its relatives, which end the program with a message (maa/xmalloc.c:30-60), and by a bare `malloc` in `stk_push`
(maa/stack.c:74), whose result is dereferenced unchecked (maa/stack.c:76).

Functions that make no request are taken over from the other models (`quiet`).  Functions that do are repeated with the requests in
the order of the C text.  A call that ends the program leaves no state behind, so it makes no difference whether a request is made
before or after an assignment next to it. -/

namespace Maa.Oom

/-- Which requests the C library refuses. -/
abbrev Fails := Nat → Bool

/-- `xmalloc`, `xrealloc`, `xstrdup`: a message and `exit(1)` if there is no memory, maa/xmalloc.c:30-38,50-60,68-78. -/
def xreq (fails : Fails) (n : Nat) : Res Nat := if fails n then .fatal else .ok (n + 1)

/-- `d = malloc(…); d->datum = …`, maa/stack.c:74-76: NULL is dereferenced if there is no memory. -/
def bareReq (fails : Fails) (n : Nat) : Res Nat := if fails n then .ub else .ok (n + 1)

/-- A piece of the program that makes no request. -/
def quiet {α : Type} (x : Res α) (n : Nat) : Res (α × Nat) := x.bind fun a => .ok (a, n)

/-- A state and a returned value, with the number of requests put into the state. -/
def out {S X : Type} (x : Res ((S × X) × Nat)) : Res ((S × Nat) × X) := x.bind fun r => .ok ((r.1.1, r.2), r.1.2)

/-! ## stack.c -/

/-- `stk_push`, maa/stack.c:71-79. -/
def stkPush (fails : Fails) (σ : Stack.State) (i datum n : Nat) : Res (Stack.State × Nat) :=
  (bareReq fails n).bind fun n => quiet (Stack.stkPush σ i datum) n

/-- One call (dispatch; `stk_create`, maa/stack.c:47-55, makes one request). -/
def stackStep (fails : Fails) (s : Stack.State × Nat) : Spec.StackOp → Res ((Stack.State × Nat) × Int)
  | .create => (xreq fails s.2).bind fun n => out (quiet (.ok ((Stack.stkCreate s.1).1, ((Stack.stkCreate s.1).2 : Int))) n)
  | .push i d => (stkPush fails s.1 i d s.2).bind fun r => .ok (r, 0)
  | o => out (quiet (Stack.step s.1 o) s.2)

/-! ## memory.c, object pools -/

/-- `mem_create_objects`, maa/memory.c:257-272: the structure and two stacks. -/
def createObjects (fails : Fails) (size : Int) (n : Nat) : Res (Objects.Pool × Nat) :=
  (xreq fails n).bind fun n => (xreq fails n).bind fun n => (xreq fails n).bind fun n => .ok (Objects.create size, n)

/-- `mem_get_object`, maa/memory.c:303-321. -/
def getObject {α : Type} (fails : Fails) (junk : α × Nat) (h : Heap α) (i : Objects.Pool) (n : Nat) :
    Res ((Heap α × Objects.Pool × Nat) × Nat) :=
  if i.free.headD 0 = 0 then
    (xreq fails n).bind fun n => (bareReq fails n).bind fun n => .ok (Objects.getObject junk h i, n)
  else .ok (Objects.getObject junk h i, n)

/-- `mem_get_empty_object`, maa/memory.c:326-334. -/
def getEmptyObject {α : Type} (fails : Fails) (zero junk : α × Nat) (h : Heap α) (i : Objects.Pool) (n : Nat) :
    Res ((Heap α × Objects.Pool × Nat) × Nat) :=
  (getObject fails junk h i n).bind fun r =>
    quiet ((r.1.1.write r.1.2.2 zero).bind fun h' => .ok (h', r.1.2.1, r.1.2.2)) r.2

/-- `mem_free_object`, maa/memory.c:341-349: pushes the object on a stack. -/
def freeObject (fails : Fails) (i : Objects.Pool) (obj n : Nat) : Res (Objects.Pool × Nat) :=
  (bareReq fails n).bind fun n => .ok (Objects.freeObject i obj, n)

/-- One call (dispatch only; maa/memory.c:303-349). -/
def objStep {α : Type} (fails : Fails) (zero junk : α × Nat) (s : (Heap α × Objects.Pool) × Nat) :
    Spec.ObjOp → Res (((Heap α × Objects.Pool) × Nat) × Nat)
  | .get => (getObject fails junk s.1.1 s.1.2 s.2).bind fun r => .ok (((r.1.1, r.1.2.1), r.2), r.1.2.2)
  | .getEmpty => (getEmptyObject fails zero junk s.1.1 s.1.2 s.2).bind fun r => .ok (((r.1.1, r.1.2.1), r.2), r.1.2.2)
  | .free p => (freeObject fails s.1.2 p s.2).bind fun r => .ok (((s.1.1, r.1), r.2), 0)

/-! ## memory.c, string memories -/

/-- `mem_create_strings`, maa/memory.c:79-92: the structure and a stack. -/
def createStrings (fails : Fails) (n : Nat) : Res (StrMem.SInfo × Nat) :=
  (xreq fails n).bind fun n => (xreq fails n).bind fun n => .ok (StrMem.create, n)

/-- `mem_strcpy`, maa/memory.c:119-135: `strlen` first, then the copy, then the stack. -/
def strcpy (fails : Fails) (h : StrMem.Mem) (i : StrMem.SInfo) (string : List Byte) (n : Nat) : Res (((StrMem.Mem × StrMem.SInfo) × Nat) × Nat) :=
  (CStr.cstr string).bind fun _ =>
    (xreq fails n).bind fun n => (bareReq fails n).bind fun n => quiet (StrMem.strcpy h i string) n

/-- `mem_strncpy`, maa/memory.c:141-158. -/
def strncpy (fails : Fails) (h : StrMem.Mem) (i : StrMem.SInfo) (string : List Byte) (len n : Nat) :
    Res (((StrMem.Mem × StrMem.SInfo) × Nat) × Nat) :=
  (xreq fails n).bind fun n =>
    if string.length < len + 1 then .ub
    else (bareReq fails n).bind fun n => quiet (StrMem.strncpy h i string len) n

/-- `mem_grow`, maa/memory.c:165-185: a new or a larger block, then the stack. -/
def grow (fails : Fails) (h : StrMem.Mem) (i : StrMem.SInfo) (string : List Byte) (len n : Nat) : Res ((StrMem.Mem × StrMem.SInfo) × Nat) :=
  (xreq fails n).bind fun n =>
    if string.length < len then .ub
    else (bareReq fails n).bind fun n => quiet (StrMem.grow h i string len) n

/-- `mem_finish`, maa/memory.c:190-203. -/
def finish (fails : Fails) (h : StrMem.Mem) (i : StrMem.SInfo) (n : Nat) : Res (((StrMem.Mem × StrMem.SInfo) × Nat) × Nat) :=
  (grow fails h i [0] 1 n).bind fun r =>
    let i := { r.1.2 with count := r.1.2.count + 1, growing := 0 }
    .ok (((r.1.1, i), i.allocated.headD 0), r.2)

/-- One call (dispatch only; maa/memory.c:119-203). -/
def strStep (fails : Fails) (s : (StrMem.Mem × StrMem.SInfo) × Nat) : Spec.StrOp → Res (((StrMem.Mem × StrMem.SInfo) × Nat) × Nat)
  | .strcpy b => out (strcpy fails s.1.1 s.1.2 b s.2)
  | .strncpy b k => out (strncpy fails s.1.1 s.1.2 b k s.2)
  | .grow b k => (grow fails s.1.1 s.1.2 b k s.2).bind fun r => .ok (r, 0)
  | .finish => out (finish fails s.1.1 s.1.2 s.2)

/-! ## list.c -/

/-- `lst_create`, maa/list.c:74-89: the structure, and the pool if there is none yet. -/
def lstCreate (fails : Fails) (σ : Lst.State) (n : Nat) : Res ((Lst.State × Nat) × Nat) :=
  (xreq fails n).bind fun n =>
    match σ.mem with
    | none => (createObjects fails 16 n).bind fun r => .ok (Lst.lstCreate σ, r.2)
    | some _ => .ok (Lst.lstCreate σ, n)

/-- `mem_get_object(mem)` as in Model/Lists.lean (maa/memory.c:303-321). -/
def memGet (fails : Fails) (σ : Lst.State) (n : Nat) : Res ((Lst.State × Nat) × Nat) :=
  match σ.mem with
  | none => .ub
  | some p => (getObject fails (0, 0) σ.heap p n).bind fun r => .ok (({ σ with heap := r.1.1, mem := some r.1.2.1 }, r.1.2.2), r.2)

/-- `mem_free_object(mem, d)` as in Model/Lists.lean (maa/memory.c:341-349). -/
def memFree (fails : Fails) (σ : Lst.State) (d n : Nat) : Res (Lst.State × Nat) :=
  match σ.mem with
  | none => .abort
  | some p => (freeObject fails p d n).bind fun r => .ok ({ σ with mem := some r.1 }, r.2)

/-- The freeing loops, maa/list.c:108-112,304-309,341-346; `k` bounds the rounds. -/
def freeRest (fails : Fails) : Nat → Lst.State → Nat → Nat → Res ((Lst.State × Nat) × Nat)
  | 0, _, _, _ => .ub
  | k + 1, σ, d, n =>
    if d = 0 then .ok ((σ, 0), n)
    else (σ.heap.read d).bind fun c =>
      (memFree fails σ d n).bind fun σ' => (freeRest fails k σ'.1 c.2 σ'.2).bind fun r => .ok ((r.1.1, r.1.2 + 1), r.2)

/-- `lst_destroy`, maa/list.c:101-118. -/
def lstDestroy (fails : Fails) (σ : Lst.State) (i n : Nat) : Res (Lst.State × Nat) :=
  (σ.check i).bind fun l =>
    (freeRest fails σ.heap.clock σ l.head n).bind fun r => .ok (r.1.1.set i none, r.2)

/-- What `lst_append` does after `mem_get_object`, maa/list.c:133-144. -/
def appendRest (g : Lst.State × Nat) (i datum : Nat) : Res Lst.State :=
  let σ := { g.1 with allocated := g.1.allocated + 16 }
  let d := g.2
  (σ.check i).bind fun l =>
    (σ.heap.write d (datum, 0)).bind fun h =>
      if l.tail ≠ 0 then
        (h.read l.tail).bind fun t =>
          if t.2 ≠ 0 then .abort
          else (h.write l.tail (t.1, d)).bind fun h =>
            .ok ({ σ with heap := h }.set i
              (some { head := (if l.head = 0 then d else l.head), tail := d, count := l.count + 1 }))
      else
        .ok ({ σ with heap := h }.set i
          (some { head := (if l.head = 0 then d else l.head), tail := d, count := l.count + 1 }))

/-- `lst_append`, maa/list.c:122-145. -/
def lstAppend (fails : Fails) (σ : Lst.State) (i datum n : Nat) : Res (Lst.State × Nat) :=
  if i = 0 then .ok (σ, n) else (memGet fails σ n).bind fun g => quiet (appendRest g.1 i datum) g.2

/-- `lst_push`, maa/list.c:149-162. -/
def lstPush (fails : Fails) (σ : Lst.State) (i datum n : Nat) : Res (Lst.State × Nat) :=
  (memGet fails σ n).bind fun g =>
    let σ := { g.1.1 with allocated := g.1.1.allocated + 16 }
    let d := g.1.2
    quiet ((σ.check i).bind fun l =>
      (σ.heap.write d (datum, l.head)).bind fun h =>
        .ok ({ σ with heap := h }.set i
          (some { head := d, tail := (if l.tail = 0 then d else l.tail), count := l.count + 1 }))) g.2

/-- `lst_pop`, maa/list.c:167-185. -/
def lstPop (fails : Fails) (σ : Lst.State) (i n : Nat) : Res ((Lst.State × Nat) × Nat) :=
  (σ.check i).bind fun l =>
    if l.head ≠ 0 then
      (σ.heap.read l.head).bind fun c =>
        (memFree fails (σ.set i (some (Lst.LObj.mk c.2 (if c.2 = 0 then 0 else l.tail) (l.count - 1)))) l.head n).bind fun r =>
          .ok ((r.1, c.1), r.2)
    else .ok ((σ, 0), n)

/-- `lst_truncate`, maa/list.c:277-312. -/
def lstTruncate (fails : Fails) (σ : Lst.State) (i length n : Nat) : Res (Lst.State × Nat) :=
  (σ.check i).bind fun l =>
    if l.count ≤ length then .ok (σ, n)
    else if length = 0 then
      (freeRest fails σ.heap.clock (σ.set i (some { l with head := 0, tail := 0 })) l.head n).bind fun r =>
        if l.count - r.1.2 ≠ length then .abort
        else .ok (r.1.1.set i (some { head := 0, tail := 0, count := l.count - r.1.2 }), r.2)
    else
      (Lst.truncLoop σ.heap.clock σ.heap length l.head).bind fun d =>
        (σ.heap.read d).bind fun c =>
          (σ.heap.write d (c.1, 0)).bind fun h =>
            (freeRest fails σ.heap.clock ({ σ with heap := h }.set i (some { l with tail := d })) c.2 n).bind fun r =>
              if l.count - r.1.2 ≠ length then .abort
              else .ok (r.1.1.set i (some { head := l.head, tail := d, count := l.count - r.1.2 }), r.2)

/-- `lst_truncate_position`, maa/list.c:320-347. -/
def lstTruncatePosition (fails : Fails) (σ : Lst.State) (i position n : Nat) : Res (Lst.State × Nat) :=
  (σ.check i).bind fun l =>
    if position = 0 then
      (freeRest fails σ.heap.clock (σ.set i (some { l with head := 0, tail := 0 })) l.head n).bind fun r =>
        .ok (r.1.1.set i (some { head := 0, tail := 0, count := l.count - r.1.2 }), r.2)
    else
      (σ.heap.read position).bind fun c =>
        (σ.heap.write position (c.1, 0)).bind fun h =>
          (freeRest fails σ.heap.clock ({ σ with heap := h }.set i (some { l with tail := position })) c.2 n).bind fun r =>
            .ok (r.1.1.set i (some { head := l.head, tail := position, count := l.count - r.1.2 }), r.2)

/-- One call (dispatch only; maa/list.c:67-457). -/
def lstStep (fails : Fails) (s : Lst.State × Nat) : Spec.LstOp → Res ((Lst.State × Nat) × Nat)
  | .create => out (lstCreate fails s.1 s.2)
  | .destroy i => (lstDestroy fails s.1 i s.2).bind fun r => .ok (r, 0)
  | .append i d => (lstAppend fails s.1 i d s.2).bind fun r => .ok (r, 0)
  | .push i d => (lstPush fails s.1 i d s.2).bind fun r => .ok (r, 0)
  | .pop i => out (lstPop fails s.1 i s.2)
  | .truncate i k => (lstTruncate fails s.1 i k s.2).bind fun r => .ok (r, 0)
  | .truncatePosition i p => (lstTruncatePosition fails s.1 i p s.2).bind fun r => .ok (r, 0)
  | o => out (quiet (Lst.step s.1 o) s.2)

/-! ## hash.c and set.c -/

open HashHeap (HTab hcreate hpush hdelete hretrieve hdestroy hgetStats freeAll findLoop)
open Tab (Entry)

variable {K D : Type}

/-- `_hsh_create` / `_set_create`, maa/hash.c:74-102, maa/set.c:76-102: the structure and the array of buckets. -/
def create (fails : Fails) (seed n : Nat) : Res (HTab × Nat) :=
  (xreq fails n).bind fun n => (xreq fails n).bind fun n => quiet (hcreate seed) n

/-- `_hsh_insert` / `_set_insert`, maa/hash.c:183-204, maa/set.c:199-215. -/
def push (fails : Fails) (h : Heap (Entry K D)) (t : HTab) (e : Entry K D) (n : Nat) : Res ((Heap (Entry K D) × HTab) × Nat) :=
  (xreq fails n).bind fun n => .ok (hpush h t e, n)

/-- Inner loop of the copying of buckets, maa/hash.c:237-238, maa/set.c:244-245. -/
def copyChain (fails : Fails) : Nat → Heap (Entry K D) → HTab → Nat → Nat → Res ((Heap (Entry K D) × HTab) × Nat)
  | 0, _, _, _, _ => .ub
  | k + 1, h, new, pt, n =>
    if pt = 0 then .ok ((h, new), n)
    else (h.read pt).bind fun c =>
      (push fails h new c.1 n).bind fun r =>
        (r.1.1.read pt).bind fun c' => copyChain fails k r.1.1 r.1.2 c'.2 r.2

/-- Outer loop, maa/hash.c:233-240, maa/set.c:240-247. -/
def copyAll (fails : Fails) (k : Nat) (b : Nat → Nat) : List Nat → Heap (Entry K D) → HTab → Nat →
    Res ((Heap (Entry K D) × HTab) × Nat)
  | [], h, new, n => .ok ((h, new), n)
  | i :: is, h, new, n => (copyChain fails k h new (b i) n).bind fun r => copyAll fails k b is r.1.1 r.1.2 r.2

/-- "Keep table less than half full", maa/hash.c:229-248, maa/set.c:236-255. -/
def growTab (fails : Fails) (h : Heap (Entry K D)) (t : HTab) (n : Nat) : Res ((Heap (Entry K D) × HTab) × Nat) :=
  if t.entries * 2 > t.prime then
    (create fails (t.prime * 3) n).bind fun new =>
      (copyAll fails h.clock t.buckets (List.range t.prime) h new.1 new.2).bind fun r =>
        (freeAll h.clock t.buckets (List.range t.prime) r.1.1).bind fun h' =>
          .ok ((h', { t with prime := r.1.2.prime, buckets := r.1.2.buckets, resizings := t.resizings + 1 }), r.2)
  else .ok ((h, t), n)

/-- `hsh_insert` / `set_insert`, maa/hash.c:216-262, maa/set.c:226-269. -/
def insert (fails : Fails) (ops : KeyOps K) (h : Heap (Entry K D)) (t : HTab) (key : K) (datum : D) (n : Nat) :
    Res (((Heap (Entry K D) × HTab) × Int) × Nat) :=
  let hashValue := ops.hash key
  if t.readonly ≠ 0 then .abort else
    (growTab fails h t n).bind fun r =>
      if r.1.2.prime = 0 then .ub else
        let s := hashValue % r.1.2.prime
        (findLoop ops key r.1.1.clock r.1.1 0 (r.1.2.buckets s)).bind fun f =>
          match f with
          | some _ => .ok ((r.1, 1), r.2)
          | none => (push fails r.1.1 r.1.2 { key := key, hash := hashValue, datum := datum } r.2).bind fun q => .ok ((q.1, 0), q.2)

/-- One call on a hash table (dispatch only; maa/hash.c:216-329,617-627). -/
def hashStep (fails : Fails) (ops : KeyOps K) (s : (Heap (Entry K Ptr) × HTab) × Nat) :
    Spec.HashOp K → Res (((Heap (Entry K Ptr) × HTab) × Nat) × Spec.Ret)
  | .insert k d => (insert fails ops s.1.1 s.1.2 k d s.2).bind fun r => .ok ((r.1.1, r.2), .int r.1.2)
  | o => out (quiet (HashHeap.heapStep ops s.1 o) s.2)

/-! ### Several sets -/

open SetHeap (HStore HSet check2 rounds putRo deleteBody equalBody)
open Set (FnEnv)

/-- `set_create`, maa/set.c:126-129. -/
def setCreate (fails : Fails) (s : HStore K) (h c n : Nat) : Res ((HStore K × Nat) × Nat) :=
  (xreq fails n).bind fun n => (xreq fails n).bind fun n => quiet (SetHeap.setCreate s h c) n

/-- `set_insert`, maa/set.c:226-269. -/
def setInsert (fails : Fails) (env : FnEnv K) (s : HStore K) (i : Nat) (e : K) (n : Nat) : Res ((HStore K × Int) × Nat) :=
  (s.get i).bind fun t => (insert fails (t.ops env) s.heap t.tab e () n).bind fun r => .ok ((s.upd i t r.1.1, r.1.2), r.2)

/-- The inner loops of the binary functions, e.g. maa/set.c:506-507, as in Model/SetHeap.lean. -/
def walkChain (body : HStore K → K → Nat → Res ((HStore K × Bool) × Nat)) : Nat → HStore K → Nat → Nat → Res ((HStore K × Bool) × Nat)
  | 0, _, _, _ => .ub
  | k + 1, s, pt, n =>
    if pt = 0 then .ok ((s, false), n)
    else (s.heap.read pt).bind fun c =>
      (body s c.1.key n).bind fun q =>
        if q.1.2 then .ok ((q.1.1, true), q.2)
        else (q.1.1.heap.read pt).bind fun c' => walkChain body k q.1.1 c'.2 q.2

/-- The outer loops, e.g. maa/set.c:502-509, as in Model/SetHeap.lean. -/
def walk (body : HStore K → K → Nat → Res ((HStore K × Bool) × Nat)) (i : Nat) : Nat → Nat → HStore K → Nat → Res ((HStore K × Bool) × Nat)
  | 0, _, _, _ => .ub
  | k + 1, j, s, n =>
    (s.get i).bind fun t =>
      if j < t.tab.prime then
        (walkChain body s.heap.clock s (t.tab.buckets j) n).bind fun q =>
          if q.1.2 then .ok q else walk body i k (j + 1) q.1.1 q.2
      else .ok ((s, false), n)

/-- `set_insert(set, pt->elem)` as a loop body, maa/set.c:507, 579, 588. -/
def insertBody (fails : Fails) (env : FnEnv K) (i : Nat) (s : HStore K) (e : K) (n : Nat) : Res ((HStore K × Bool) × Nat) :=
  (setInsert fails env s i e n).bind fun r => .ok ((r.1.1, false), r.2)

/-- The body of `set_inter` (`keep`) and `set_diff`, maa/set.c:629-630,672-673. -/
def selectBody (fails : Fails) (env : FnEnv K) (keep : Bool) (new j : Nat) (s : HStore K) (e : K) (n : Nat) : Res ((HStore K × Bool) × Nat) :=
  (SetHeap.setMember env s j e).bind fun r =>
    if (r.2 ≠ 0) = keep then (setInsert fails env r.1 new e n).bind fun q => .ok ((q.1.1, false), q.2) else .ok ((r.1, false), n)

/-- `set_add`, maa/set.c:485-512. -/
def setAdd (fails : Fails) (env : FnEnv K) (s : HStore K) (i j n : Nat) : Res ((HStore K × Nat) × Nat) :=
  (check2 s i j).bind fun t => (walk (insertBody fails env i) j (rounds t.2) 0 s n).bind fun q => .ok ((q.1.1, i), q.2)

/-- `set_union`, maa/set.c:554-593. -/
def setUnion (fails : Fails) (env : FnEnv K) (s : HStore K) (i j n : Nat) : Res ((HStore K × Nat) × Nat) :=
  (check2 s i j).bind fun t =>
  (setCreate fails s t.1.hashFn t.1.cmpFn n).bind fun c =>
  (walk (insertBody fails env c.1.2) i (rounds t.1) 0 c.1.1 c.2).bind fun q =>
  (walk (insertBody fails env c.1.2) j (rounds t.2) 0 q.1.1 q.2).bind fun q => .ok ((q.1.1, c.1.2), q.2)

/-- `set_inter`, maa/set.c:600-635 (`keep`), and `set_diff`, maa/set.c:643-678 (not `keep`). -/
def setSelect (fails : Fails) (env : FnEnv K) (keep : Bool) (s : HStore K) (i j n : Nat) : Res ((HStore K × Nat) × Nat) :=
  (check2 s i j).bind fun t =>
  (setCreate fails s t.1.hashFn t.1.cmpFn n).bind fun c =>
  let savedReadonly := t.2.tab.readonly
  (putRo c.1.1 j 1).bind fun s =>
  (walk (selectBody fails env keep c.1.2 j) i (rounds t.1) 0 s c.2).bind fun q =>
  (putRo q.1.1 j savedReadonly).bind fun s => .ok ((s, c.1.2), q.2)

/-- One call (dispatch; maa/set.c:126-773).  `set_get_stats` makes a request of its own for its answer (maa/set.c:737). -/
def setStep (fails : Fails) (env : FnEnv K) (s : HStore K × Nat) : Spec.SetOp K → Res ((HStore K × Nat) × Int)
  | .create h c => (setCreate fails s.1 h c s.2).bind fun r => .ok ((r.1.1, r.2), (r.1.2 : Int))
  | .insert i e => out (setInsert fails env s.1 i e s.2)
  | .stats i => (xreq fails s.2).bind fun n => out (quiet (SetHeap.hsetStep env s.1 (.stats i)) n)
  | .add i j => (setAdd fails env s.1 i j s.2).bind fun r => .ok ((r.1.1, r.2), (r.1.2 : Int))
  | .union i j => (setUnion fails env s.1 i j s.2).bind fun r => .ok ((r.1.1, r.2), (r.1.2 : Int))
  | .inter i j => (setSelect fails env true s.1 i j s.2).bind fun r => .ok ((r.1.1, r.2), (r.1.2 : Int))
  | .diff i j => (setSelect fails env false s.1 i j s.2).bind fun r => .ok ((r.1.1, r.2), (r.1.2 : Int))
  | o => out (quiet (SetHeap.hsetStep env s.1 o) s.2)

/-! ## string.c -/

/-- `str_pool_create`, maa/string.c:48-56. -/
def poolCreate (fails : Fails) (m : StrMem.Mem) (cells : Heap (Entry StrPool.SKey Ptr)) (n : Nat) : Res (StrPool.Pool × Nat) :=
  (xreq fails n).bind fun n => (createStrings fails n).bind fun i => (create fails 0 i.2).bind fun t =>
    .ok ({ mem := m, str := i.1, cells := cells, tab := t.1 }, t.2)

/-- `hsh_insert(p->hash, datum, datum)`, maa/string.c:98, 227. -/
def poolInsert (fails : Fails) (p : StrPool.Pool) (datum n : Nat) : Res (StrPool.Pool × Nat) :=
  if StrPool.keysReadable p = false ∨ StrPool.readable p.mem (.stored datum) = false then .ub else
    (insert fails (StrPool.ops p.mem) p.cells p.tab (.stored datum) datum n).bind fun r =>
      .ok ({ p with cells := r.1.1.1, tab := r.1.1.2 }, r.2)

/-- `str_pool_find`, maa/string.c:91-101. -/
def find (fails : Fails) (p : StrPool.Pool) (s : List Byte) (n : Nat) : Res ((StrPool.Pool × Nat) × Nat) :=
  (CStr.cstr s).bind fun t => (StrPool.retrieve p (.arg t)).bind fun r =>
    if r.2 ≠ 0 then .ok ((r.1, r.2), n)
    else
      (strcpy fails r.1.mem r.1.str s n).bind fun c =>
        (poolInsert fails { r.1 with mem := c.1.1.1, str := c.1.1.2 } c.1.2 c.2).bind fun p' => .ok ((p'.1, c.1.2), p'.2)

/-- `str_pool_copy`, maa/string.c:182-187. -/
def copy (fails : Fails) (p : StrPool.Pool) (s : List Byte) (n : Nat) : Res ((StrPool.Pool × Nat) × Nat) :=
  (strcpy fails p.mem p.str s n).bind fun c => .ok (({ p with mem := c.1.1.1, str := c.1.1.2 }, c.1.2), c.2)

/-- `str_pool_copyn`, maa/string.c:195-200. -/
def copyn (fails : Fails) (p : StrPool.Pool) (s : List Byte) (len n : Nat) : Res ((StrPool.Pool × Nat) × Nat) :=
  (strncpy fails p.mem p.str s len n).bind fun c => .ok (({ p with mem := c.1.1.1, str := c.1.1.2 }, c.1.2), c.2)

/-- `str_pool_grow`, maa/string.c:207-212. -/
def poolGrow (fails : Fails) (p : StrPool.Pool) (s : List Byte) (len n : Nat) : Res (StrPool.Pool × Nat) :=
  (grow fails p.mem p.str s len n).bind fun c => .ok ({ p with mem := c.1.1, str := c.1.2 }, c.2)

/-- `str_pool_finish`, maa/string.c:220-230. -/
def poolFinish (fails : Fails) (p : StrPool.Pool) (n : Nat) : Res ((StrPool.Pool × Nat) × Nat) :=
  (poolGrow fails p [0, 0] 1 n).bind fun p1 =>
    (finish fails p1.1.mem p1.1.str p1.2).bind fun c =>
      (poolInsert fails { p1.1 with mem := c.1.1.1, str := c.1.1.2 } c.1.2 c.2).bind fun p' => .ok ((p'.1, c.1.2), p'.2)

/-- One call (dispatch only; maa/string.c:76-230). -/
def poolStep (fails : Fails) (s : StrPool.Pool × Nat) : Spec.PoolOp → Res ((StrPool.Pool × Nat) × Spec.Ret)
  | .find b => (find fails s.1 b s.2).bind fun r => .ok ((r.1.1, r.2), .ptr r.1.2)
  | .copy b => (copy fails s.1 b s.2).bind fun r => .ok ((r.1.1, r.2), .ptr r.1.2)
  | .copyn b k => (copyn fails s.1 b k s.2).bind fun r => .ok ((r.1.1, r.2), .ptr r.1.2)
  | .grow b k => (poolGrow fails s.1 b k s.2).bind fun r => .ok (r, .int 0)
  | .finish => (poolFinish fails s.1 s.2).bind fun r => .ok ((r.1.1, r.2), .ptr r.1.2)
  | o => out (quiet (StrPool.step s.1 o) s.2)

/-! ## sl.c -/

/-- The skip lists of the program and the pool of their structures, maa/sl.c:72: `none` before the first `sl_create`, otherwise the
number of structures given back and not taken again. -/
structure Sls where
  sl : Sl.State
  pool : Option Nat

/-- `mem_get_object(_sl_Memory)`, maa/sl.c:187 (maa/memory.c:303-321): the number of free structures afterwards. -/
def slHeader (fails : Fails) (free n : Nat) : Res (Nat × Nat) :=
  if free = 0 then (xreq fails n).bind fun n => (bareReq fails n).bind fun n => .ok (0, n) else .ok (free - 1, n)

/-- `sl_create`, maa/sl.c:172-202. -/
def slCreate (fails : Fails) (s : Sls) (compare : Option (Nat → Nat → Int)) (key : Option (Nat → Nat)) (n : Nat) : Res ((Sls × Nat) × Nat) :=
  (match s.pool with
    | none => (createObjects fails 48 n).bind fun r => .ok (0, r.2)
    | some k => .ok (k, n)).bind fun free =>
  match compare, key with
  | some _, some _ =>
    (slHeader fails free.1 free.2).bind fun free =>
    (xreq fails free.2).bind fun n =>
    (Sl.create s.sl compare key).bind fun r => .ok (({ sl := r.1, pool := some free.1 }, r.2), n)
  | _, _ => .abort

/-- `sl_destroy`, maa/sl.c:209-227. -/
def slDestroy (fails : Fails) (s : Sls) (l n : Nat) : Res (Sls × Nat) :=
  (Sl.destroy s.sl l).bind fun σ =>
    match s.pool with
    | none => .abort
    | some k => (bareReq fails n).bind fun n => .ok ({ sl := σ, pool := some (k + 1) }, n)

/-- `sl_insert`, maa/sl.c:289-324: one entry (requested after the searches, which may end the program). -/
def slInsert (fails : Fails) (s : Sls) (l datum : Nat) (rnd : Nat → Nat) (n : Nat) : Res (Sls × Nat) :=
  (Sl.insert s.sl l datum rnd).bind fun σ => (xreq fails n).bind fun n => .ok ({ s with sl := σ }, n)

/-- One call (dispatch only; maa/sl.c:172-376). -/
def slStep (fails : Fails) (s : Sls × Nat) : Spec.SlOp → Res ((Sls × Nat) × Nat)
  | .create cmp key => out (slCreate fails s.1 cmp key s.2)
  | .destroy l => (slDestroy fails s.1 l s.2).bind fun r => .ok (r, 0)
  | .insert l d rnd => (slInsert fails s.1 l d rnd s.2).bind fun r => .ok (r, 0)
  | o => (Sl.step s.1.sl o).bind fun r => .ok (({ s.1 with sl := r.1 }, s.2), r.2)

end Maa.Oom
