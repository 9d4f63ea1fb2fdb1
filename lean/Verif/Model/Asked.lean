import Verif.Model.HashHeap
import Verif.Spec.Asked

/-! # The calls that maa/hash.c and maa/set.c make to the functions of the program

The functions of Model/HashHeap.lean once more, with a record of the calls `t->hash(...)` and `t->compare(...)`.  A call that ends the program leaves no
record. -/

namespace Maa.HashHeap

open Tab (Entry Tab)
open Spec (Asked)

variable {K D : Type}

/-- The search loops, maa/hash.c:256-257,280-281,313-314, maa/set.c:263-264,286-287,317-318, with the keys given to `t->compare`. -/
def findLoopA (ops : KeyOps K) (key : K) : Nat → Heap (Entry K D) → Nat → Nat →
    Res (Option (Nat × Nat × Entry K D × Nat) × List K)
  | 0, _, _, _ => .ub
  | n + 1, h, prev, pt =>
    if pt = 0 then .ok (none, [])
    else (h.read pt).bind fun c =>
      if ops.cmp c.1.key key == 0 then .ok (some (prev, pt, c), [c.1.key])
      else (findLoopA ops key n h pt c.2).bind fun r => .ok (r.1, c.1.key :: r.2)

/-- The record of a call which hashed `key` and then compared the keys `seen` with it. -/
def record (key : K) (seen : List K) : List (Asked K) := .hash key :: seen.map (Asked.compare · key)

/-- `hsh_insert` / `set_insert`, maa/hash.c:216-262, maa/set.c:226-269; growing calls neither function, since hash values are kept
(maa/hash.c:237-238). -/
def hinsertA (ops : KeyOps K) (h : Heap (Entry K D)) (t : HTab) (key : K) (datum : D) :
    Res (((Heap (Entry K D) × HTab) × Int) × List (Asked K)) :=
  let hashValue := ops.hash key
  if t.readonly ≠ 0 then .abort else
    (hgrow h t).bind fun r =>
      if r.2.prime = 0 then .ub else
        let s := hashValue % r.2.prime
        (findLoopA ops key r.1.clock r.1 0 (r.2.buckets s)).bind fun f =>
          match f.1 with
          | some _ => .ok ((r, 1), record key f.2)
          | none => .ok ((hpush r.1 r.2 { key := key, hash := hashValue, datum := datum }, 0), record key f.2)

/-- `hsh_delete` / `set_delete`, maa/hash.c:268-294, maa/set.c:274-300. -/
def hdeleteA (ops : KeyOps K) (h : Heap (Entry K D)) (t : HTab) (key : K) :
    Res (((Heap (Entry K D) × HTab) × Int) × List (Asked K)) :=
  if t.prime = 0 then .ub else
    let s := ops.hash key % t.prime
    if t.readonly ≠ 0 then .abort else
      (findLoopA ops key h.clock h 0 (t.buckets s)).bind fun f =>
        match f.1 with
        | none => .ok (((h, t), 1), record key f.2)
        | some (prev, pt, c) =>
          if prev = 0 then
            (h.free pt).bind fun h' =>
              .ok (((h', { t with entries := t.entries - 1, buckets := setSlot t.buckets s c.2 }), 0), record key f.2)
          else
            (h.read prev).bind fun pc =>
              (h.write prev (pc.1, c.2)).bind fun h1 =>
                (h1.free pt).bind fun h2 => .ok (((h2, { t with entries := t.entries - 1 }), 0), record key f.2)

/-- `hsh_retrieve` / `set_member`, maa/hash.c:300-329, maa/set.c:305-333. -/
def hretrieveA (ops : KeyOps K) (h : Heap (Entry K D)) (t : HTab) (key : K) :
    Res (((Heap (Entry K D) × HTab) × Option D) × List (Asked K)) :=
  if t.prime = 0 then .ub else
    let s := ops.hash key % t.prime
    let t := { t with retrievals := t.retrievals + 1 }
    (findLoopA ops key h.clock h 0 (t.buckets s)).bind fun f =>
      match f.1 with
      | none => .ok (((h, { t with misses := t.misses + 1 }), none), record key f.2)
      | some (prev, pt, c) =>
        if prev = 0 then .ok (((h, { t with hits := t.hits + 1 }), some c.1.datum), record key f.2)
        else if t.readonly = 0 then
          (h.read prev).bind fun pc =>
            (h.write prev (pc.1, c.2)).bind fun h1 =>
              (h1.write pt (c.1, t.buckets s)).bind fun h2 =>
                .ok (((h2, { t with buckets := setSlot t.buckets s pt }), some c.1.datum), record key f.2)
        else .ok (((h, t), some c.1.datum), record key f.2)

/-- One call on the hash table and what it asks (dispatch only; maa/hash.c:216-329,617-627). -/
def heapStepA (ops : KeyOps K) (s : Heap (Entry K Ptr) × HTab) :
    Spec.HashOp K → Res (((Heap (Entry K Ptr) × HTab) × Spec.Ret) × List (Asked K))
  | .insert k d => (hinsertA ops s.1 s.2 k d).bind fun r => .ok ((r.1.1, .int r.1.2), r.2)
  | .delete k => (hdeleteA ops s.1 s.2 k).bind fun r => .ok ((r.1.1, .int r.1.2), r.2)
  | .retrieve k => (hretrieveA ops s.1 s.2 k).bind fun r =>
      .ok ((r.1.1, .ptr (match r.1.2 with | some d => d | none => 0)), r.2)
  | .readonly f => .ok (((s.1, { s.2 with readonly := f }), .int s.2.readonly), [])

/-- One call on the set and what it asks (dispatch only; maa/set.c:226-333,467-477). -/
def setHeapStepA (ops : KeyOps K) (s : Heap (Entry K Unit) × HTab) :
    Spec.OneSetOp K → Res (((Heap (Entry K Unit) × HTab) × Int) × List (Asked K))
  | .insert k => hinsertA ops s.1 s.2 k ()
  | .delete k => hdeleteA ops s.1 s.2 k
  | .member k => (hretrieveA ops s.1 s.2 k).bind fun r =>
      .ok ((r.1.1, match r.1.2 with | some _ => 1 | none => 0), r.2)
  | .readonly f => .ok (((s.1, { s.2 with readonly := f }), s.2.readonly), [])

end Maa.HashHeap
