import Verif.Model.Heap
import Verif.Model.Tab
import Verif.Spec.Table
import Verif.Spec.OneSet

/-! # Pointer-level model of maa/hash.c and maa/set.c

The same functions as Model/Tab.lean, but with buckets as linked cells in memory, statement by
statement: the two-pointer walks, unlinking, move-to-front, and the copying and freeing of all
buckets when the table grows.  `D` is `Ptr` for hash.c and `Unit` for set.c, as in Model/Tab.lean.

Loops over `next` pointers take a number of steps `n` and give `ub` when it runs out.  They are
called with `h.clock` steps; a chain that has not ended after that many steps runs in a circle (there
are fewer live cells), so the C loop would not end either. -/

namespace Maa.HashHeap

open Tab (Entry Tab)

variable {K D : Type}

/-- `struct table` / `struct set`, maa/hash.c:44-57, maa/set.c:48-62; `buckets i` is the pointer in slot
`i` of the array. -/
structure HTab where
  prime : Nat
  entries : Nat
  buckets : Nat → Nat
  resizings : Nat
  retrievals : Nat
  hits : Nat
  misses : Nat
  readonly : Int

/-- `t->buckets[i] = p`. -/
def setSlot (b : Nat → Nat) (i p : Nat) : Nat → Nat := fun j => if j = i then p else b j

/-- `_hsh_create` / `_set_create`, maa/hash.c:74-102, maa/set.c:76-102. -/
def hcreate (seed : Nat) : Res HTab :=
  match Prime.prmNextPrime seed with
  | none => .ub
  | some p => .ok
      { prime := p, entries := 0, buckets := fun _ => 0, resizings := 0, retrievals := 0,
        hits := 0, misses := 0, readonly := 0 }

/-- `_hsh_insert` / `_set_insert`, maa/hash.c:183-204, maa/set.c:199-215. -/
def hpush (h : Heap (Entry K D)) (t : HTab) (e : Entry K D) : Heap (Entry K D) × HTab :=
  let s := e.hash % t.prime
  let next := if t.buckets s ≠ 0 then t.buckets s else 0
  let r := h.alloc (e, next)
  (r.1, { t with buckets := setSlot t.buckets s r.2, entries := t.entries + 1 })

/-- Inner loop of the copying of buckets, maa/hash.c:237-238, maa/set.c:244-245. -/
def copyChain : Nat → Heap (Entry K D) → HTab → Nat → Res (Heap (Entry K D) × HTab)
  | 0, _, _, _ => .ub
  | n + 1, h, new, pt =>
    if pt = 0 then .ok (h, new)
    else (h.read pt).bind fun c =>
      let r := hpush h new c.1
      (r.1.read pt).bind fun c' => copyChain n r.1 r.2 c'.2

/-- Outer loop, maa/hash.c:233-240, maa/set.c:240-247. -/
def copyAll (n : Nat) (b : Nat → Nat) : List Nat → Heap (Entry K D) → HTab →
    Res (Heap (Entry K D) × HTab)
  | [], h, new => .ok (h, new)
  | i :: is, h, new => (copyChain n h new (b i)).bind fun r => copyAll n b is r.1 r.2

/-- Inner loop of `_hsh_destroy_buckets` / `_set_destroy_buckets`, maa/hash.c:142-147,
maa/set.c:156-161. -/
def freeChain : Nat → Heap (Entry K D) → Nat → Res (Heap (Entry K D))
  | 0, _, _ => .ub
  | n + 1, h, b =>
    if b = 0 then .ok h
    else (h.read b).bind fun c => (h.free b).bind fun h' => freeChain n h' c.2

/-- Outer loop, maa/hash.c:139-148, maa/set.c:153-162. -/
def freeAll (n : Nat) (b : Nat → Nat) : List Nat → Heap (Entry K D) → Res (Heap (Entry K D))
  | [], h => .ok h
  | i :: is, h => (freeChain n h (b i)).bind fun h' => freeAll n b is h'

/-- "Keep table less than half full", maa/hash.c:229-248, maa/set.c:236-255. -/
def hgrow (h : Heap (Entry K D)) (t : HTab) : Res (Heap (Entry K D) × HTab) :=
  if t.entries * 2 > t.prime then
    (hcreate (t.prime * 3)).bind fun new =>
      (copyAll h.clock t.buckets (List.range t.prime) h new).bind fun r =>
        (freeAll h.clock t.buckets (List.range t.prime) r.1).bind fun h' =>
          .ok (h', { t with
            prime := r.2.prime, buckets := r.2.buckets, resizings := t.resizings + 1 })
  else .ok (h, t)

/-- The search loops `for (prev = NULL, pt = t->buckets[h]; pt; prev = pt, pt = pt->next)` with the test
`!t->compare(pt->key, key)`: maa/hash.c:256-257,280-281,313-314, maa/set.c:263-264,286-287,317-318.
Returns `prev`, `pt` and the cell at `pt`. -/
def findLoop (ops : KeyOps K) (key : K) : Nat → Heap (Entry K D) → Nat → Nat →
    Res (Option (Nat × Nat × Entry K D × Nat))
  | 0, _, _, _ => .ub
  | n + 1, h, prev, pt =>
    if pt = 0 then .ok none
    else (h.read pt).bind fun c =>
      if ops.cmp c.1.key key == 0 then .ok (some (prev, pt, c))
      else findLoop ops key n h pt c.2

/-- `hsh_insert` / `set_insert`, maa/hash.c:216-262, maa/set.c:226-269. -/
def hinsert (ops : KeyOps K) (h : Heap (Entry K D)) (t : HTab) (key : K) (datum : D) :
    Res ((Heap (Entry K D) × HTab) × Int) :=
  let hashValue := ops.hash key
  if t.readonly ≠ 0 then .abort else
    (hgrow h t).bind fun r =>
      if r.2.prime = 0 then .ub else
        let s := hashValue % r.2.prime
        (findLoop ops key r.1.clock r.1 0 (r.2.buckets s)).bind fun f =>
          match f with
          | some _ => .ok (r, 1)
          | none => .ok (hpush r.1 r.2 { key := key, hash := hashValue, datum := datum }, 0)

/-- `hsh_delete` / `set_delete`, maa/hash.c:268-294, maa/set.c:274-300. -/
def hdelete (ops : KeyOps K) (h : Heap (Entry K D)) (t : HTab) (key : K) :
    Res ((Heap (Entry K D) × HTab) × Int) :=
  if t.prime = 0 then .ub else
    let s := ops.hash key % t.prime
    if t.readonly ≠ 0 then .abort else
      (findLoop ops key h.clock h 0 (t.buckets s)).bind fun f =>
        match f with
        | none => .ok ((h, t), 1)
        | some (prev, pt, c) =>
          if prev = 0 then
            (h.free pt).bind fun h' =>
              .ok ((h', { t with entries := t.entries - 1, buckets := setSlot t.buckets s c.2 }), 0)
          else
            (h.read prev).bind fun pc =>
              (h.write prev (pc.1, c.2)).bind fun h1 =>
                (h1.free pt).bind fun h2 => .ok ((h2, { t with entries := t.entries - 1 }), 0)

/-- `hsh_retrieve` / `set_member`, maa/hash.c:300-329, maa/set.c:305-333: the datum found, if any. -/
def hretrieve (ops : KeyOps K) (h : Heap (Entry K D)) (t : HTab) (key : K) :
    Res ((Heap (Entry K D) × HTab) × Option D) :=
  if t.prime = 0 then .ub else
    let s := ops.hash key % t.prime
    let t := { t with retrievals := t.retrievals + 1 }
    (findLoop ops key h.clock h 0 (t.buckets s)).bind fun f =>
      match f with
      | none => .ok ((h, { t with misses := t.misses + 1 }), none)
      | some (prev, pt, c) =>
        if prev = 0 then .ok ((h, { t with hits := t.hits + 1 }), some c.1.datum)
        else if t.readonly = 0 then
          (h.read prev).bind fun pc =>
            (h.write prev (pc.1, c.2)).bind fun h1 =>
              (h1.write pt (c.1, t.buckets s)).bind fun h2 =>
                .ok ((h2, { t with buckets := setSlot t.buckets s pt }), some c.1.datum)
        else .ok ((h, t), some c.1.datum)

/-- `hsh_destroy` / `set_destroy`, maa/hash.c:174-181, maa/set.c:188-197. -/
def hdestroy (h : Heap (Entry K D)) (t : HTab) : Res (Heap (Entry K D)) :=
  if t.readonly ≠ 0 then .abort else freeAll h.clock t.buckets (List.range t.prime) h

/-- The scan for the first non-empty slot in a list of slots: maa/hash.c:562-565,588-589,
maa/set.c:416-419,443-444. -/
def firstSlot (b : Nat → Nat) : List Nat → Nat
  | [] => 0
  | i :: is => if b i ≠ 0 then b i else firstSlot b is

/-- `hsh_init_position` / `set_init_position`, maa/hash.c:556-567, maa/set.c:410-421. -/
def initPosition (t : HTab) : HTab × Nat :=
  let p := firstSlot t.buckets (List.range t.prime)
  if p ≠ 0 then ({ t with readonly := 1 }, p) else (t, 0)

/-- `hsh_next_position` / `set_next_position`, maa/hash.c:573-594, maa/set.c:427-448. -/
def nextPosition (h : Heap (Entry K D)) (t : HTab) (pos : Nat) : Res (HTab × Nat) :=
  if pos = 0 then .ok ({ t with readonly := 0 }, 0)
  else (h.read pos).bind fun b =>
    if b.2 ≠ 0 then .ok (t, b.2)
    else if t.prime = 0 then .ub
    else
      let s := b.1.hash % t.prime
      let p := firstSlot t.buckets ((List.range t.prime).drop (s + 1))
      if p ≠ 0 then .ok (t, p) else .ok ({ t with readonly := 0 }, 0)

/-- `hsh_get_position` / `set_get_position` of a non-NULL position, maa/hash.c:600-609,
maa/set.c:453-459. -/
def getPosition (h : Heap (Entry K D)) (pos : Nat) : Res (K × D) :=
  (h.read pos).bind fun b => .ok (b.1.key, b.1.datum)

/-- One call on the pointer-level hash table (dispatch only; maa/hash.c:216-329,617-627). -/
def heapStep (ops : KeyOps K) (s : Heap (Entry K Ptr) × HTab) :
    Spec.HashOp K → Res ((Heap (Entry K Ptr) × HTab) × Spec.Ret)
  | .insert k d => (hinsert ops s.1 s.2 k d).bind fun r => .ok (r.1, .int r.2)
  | .delete k => (hdelete ops s.1 s.2 k).bind fun r => .ok (r.1, .int r.2)
  | .retrieve k => (hretrieve ops s.1 s.2 k).bind fun r =>
      .ok (r.1, .ptr (match r.2 with | some d => d | none => 0))
  | .readonly f => .ok ((s.1, { s.2 with readonly := f }), .int s.2.readonly)

/-- One call on the pointer-level set (dispatch only; maa/set.c:226-333,467-477). -/
def setHeapStep (ops : KeyOps K) (s : Heap (Entry K Unit) × HTab) :
    Spec.OneSetOp K → Res ((Heap (Entry K Unit) × HTab) × Int)
  | .insert k => hinsert ops s.1 s.2 k ()
  | .delete k => hdelete ops s.1 s.2 k
  | .member k => (hretrieve ops s.1 s.2 k).bind fun r =>
      .ok (r.1, match r.2 with | some _ => 1 | none => 0)
  | .readonly f => .ok ((s.1, { s.2 with readonly := f }), s.2.readonly)

/-- The body of a loop over positions may look keys up: perform these retrievals. -/
def lookups (ops : KeyOps K) : List K → Heap (Entry K D) × HTab → Res (Heap (Entry K D) × HTab)
  | [], s => .ok s
  | k :: ks, s => (hretrieve ops s.1 s.2 k).bind fun r => lookups ops ks r.1

/-- The loops `HSH_ITERATE` / `SET_ITERATE`, maa/maa.h:160-163,233-236: `for (p = init; p; p = next(p)) { get_position(p); ... }`, where the body also looks up
the keys `body p`.  Collects what `get_position` returned and the read-only flag at that moment.
`n` bounds the number of rounds; running out is reported as `ub`. -/
def positionLoop (ops : KeyOps K) (body : Nat → List K) : Nat → Heap (Entry K D) × HTab → Nat →
    List ((K × D) × Int) → Res ((Heap (Entry K D) × HTab) × List ((K × D) × Int))
  | 0, _, _, _ => .ub
  | n + 1, s, p, acc =>
    if p = 0 then .ok (s, acc)
    else (getPosition s.1 p).bind fun kd =>
      (lookups ops (body p) s).bind fun s1 =>
        (nextPosition s1.1 s1.2 p).bind fun q =>
          positionLoop ops body n (s1.1, q.1) q.2 (acc ++ [(kd, s.2.readonly)])

/-- The inner loop of `set_add(s,s)`, maa/set.c:506-507: walks the chain of the very set it inserts
into. -/
def addSelfChain (ops : KeyOps K) : Nat → Heap (Entry K Unit) × HTab → Nat → Res (Heap (Entry K Unit) × HTab)
  | 0, _, _ => .ub
  | n + 1, s, pt =>
    if pt = 0 then .ok s
    else (s.1.read pt).bind fun c =>
      (hinsert ops s.1 s.2 c.1.key ()).bind fun r =>
        (r.1.1.read pt).bind fun c' => addSelfChain ops n r.1 c'.2

/-- `set_add(s,s)`, maa/set.c:485-512 with both arguments the same set; `i` is the loop counter, re-read
bound `t2->prime` included. -/
def addSelf (ops : KeyOps K) : Nat → Nat → Heap (Entry K Unit) × HTab → Res (Heap (Entry K Unit) × HTab)
  | 0, _, _ => .ub
  | n + 1, i, s =>
    if i < s.2.prime then
      (addSelfChain ops s.1.clock s (s.2.buckets i)).bind fun s' => addSelf ops n (i + 1) s'
    else .ok s

/-- The inner loop of `set_del(s,s)`, maa/set.c:541-542. -/
def delSelfChain (ops : KeyOps K) : Nat → Heap (Entry K Unit) × HTab → Nat → Res (Heap (Entry K Unit) × HTab)
  | 0, _, _ => .ub
  | n + 1, s, pt =>
    if pt = 0 then .ok s
    else (s.1.read pt).bind fun c =>
      (hdelete ops s.1 s.2 c.1.key).bind fun r =>
        (r.1.1.read pt).bind fun c' => delSelfChain ops n r.1 c'.2

/-- `set_del(s,s)`, maa/set.c:520-547. -/
def delSelf (ops : KeyOps K) : Nat → Nat → Heap (Entry K Unit) × HTab → Res (Heap (Entry K Unit) × HTab)
  | 0, _, _ => .ub
  | n + 1, i, s =>
    if i < s.2.prime then
      (delSelfChain ops s.1.clock s (s.2.buckets i)).bind fun s' => delSelf ops n (i + 1) s'
    else .ok s

end Maa.HashHeap
