import Verif.Model.Base
import Verif.Model.Prime

/-! # Model of the chained table code that maa/hash.c and maa/set.c contain twice

maa/set.c is maa/hash.c with `key` renamed `elem`, no `datum` field and otherwise the same
statements in the same order for create, insert, delete, member/retrieve, statistics and read-only
handling.  The common part is modelled once, generic in the type `D` of the payload (`Ptr` for hash
tables, `Unit` for sets); every definition cites both files.

Chain level: a bucket is the list of the entries of its `next` chain, first entry first.  The
pointer surgery on the chains is modelled in Model/HashHeap.lean and shown there to implement
these definitions.  Counters are unbounded (simplification: 2^64 calls do not happen). -/

namespace Maa

/-- A C pointer value; `0` is `NULL`. -/
abbrev Ptr := Nat

/-- The `hash` and `compare` callbacks of a table (maa/hash.c:55-56, maa/set.c:59-60), as pure
functions of the key (simplification: the callbacks have no side effects and key contents do not
change while the key is in the table). -/
structure KeyOps (K : Type) where
  hash : K → Nat
  cmp : K → K → Int

/-- The contract the documentation of `hsh_create` / `set_create` asks of the callbacks
(maa/hash.c:104-125): comparing equal is an equivalence and equal keys hash equally. -/
structure KeyOps.Lawful {K : Type} (ops : KeyOps K) : Prop where
  refl : ∀ a, ops.cmp a a = 0
  symm : ∀ a b, ops.cmp a b = 0 → ops.cmp b a = 0
  trans : ∀ a b c, ops.cmp a b = 0 → ops.cmp b c = 0 → ops.cmp a c = 0
  hash : ∀ a b, ops.cmp a b = 0 → ops.hash a = ops.hash b

/-- The user's notion of equal keys: `!compare(a, b)` (e.g. maa/hash.c:257). -/
def eqv {K : Type} (ops : KeyOps K) (a b : K) : Bool := ops.cmp a b == 0

namespace Tab

/-- `struct bucket` without its `next` link, maa/hash.c:37-42, maa/set.c:42-46. -/
structure Entry (K D : Type) where
  key : K
  hash : Nat
  datum : D
  deriving DecidableEq

/-- `struct table` / `struct set`, maa/hash.c:44-57, maa/set.c:48-62.  `buckets i` is the chain of
slot `i`; only slots below `prime` exist. -/
structure Tab (K D : Type) where
  prime : Nat
  entries : Nat
  buckets : Nat → List (Entry K D)
  resizings : Nat
  retrievals : Nat
  hits : Nat
  misses : Nat
  readonly : Int

variable {K D : Type}

/-- The entries in the order of the loops `for (i = 0; i < t->prime; i++) for (pt = t->buckets[i]; pt;
pt = pt->next)`, e.g. maa/hash.c:233-240, maa/set.c:240-247. -/
def all (t : Tab K D) : List (Entry K D) := (List.range t.prime).flatMap t.buckets

/-- `_hsh_create` / `_set_create`, maa/hash.c:74-102, maa/set.c:76-102.  The search for a prime
always ends (C02_next_prime_terminates), so the `none` branch is never taken. -/
def create (seed : Nat) : Res (Tab K D) :=
  match Prime.prmNextPrime seed with
  | none => .ub
  | some p => .ok
      { prime := p, entries := 0, buckets := fun _ => [], resizings := 0, retrievals := 0,
        hits := 0, misses := 0, readonly := 0 }

/-- Replace chain `h`. -/
def setBucket (b : Nat → List (Entry K D)) (h : Nat) (c : List (Entry K D)) :
    Nat → List (Entry K D) := fun i => if i = h then c else b i

/-- `_hsh_insert` / `_set_insert`, maa/hash.c:183-204, maa/set.c:199-215: push at the head of its
chain and count it. -/
def push (t : Tab K D) (e : Entry K D) : Tab K D :=
  let h := e.hash % t.prime
  { t with buckets := setBucket t.buckets h (e :: t.buckets h), entries := t.entries + 1 }

/-- The growth step of insert, maa/hash.c:229-248, maa/set.c:236-255.  `entries` is not copied from the
new table. -/
def resize (t : Tab K D) : Res (Tab K D) := do
  let new ← create (K := K) (D := D) (t.prime * 3)
  let new := (all t).foldl push new
  pure { t with prime := new.prime, buckets := new.buckets, resizings := t.resizings + 1 }

/-- "Keep table less than half full", maa/hash.c:229-230, maa/set.c:236-237. -/
def grow (t : Tab K D) : Res (Tab K D) :=
  if t.entries * 2 > t.prime then resize t else .ok t

/-- `hsh_insert` / `set_insert`, maa/hash.c:216-262, maa/set.c:226-269.  Returns the `int` result.
`% 0` would be a division by zero. -/
def insert (ops : KeyOps K) (t : Tab K D) (key : K) (datum : D) : Res (Tab K D × Int) :=
  let hashValue := ops.hash key
  if t.readonly ≠ 0 then .abort else
    (grow t).bind fun t =>
      if t.prime = 0 then .ub else
        let h := hashValue % t.prime
        if (t.buckets h).any (fun pt => ops.cmp pt.key key == 0) then
          .ok (t, 1)
        else
          .ok (push t { key := key, hash := hashValue, datum := datum }, 0)

/-- `hsh_delete` / `set_delete`, maa/hash.c:268-294, maa/set.c:274-300: unlink the first entry of the
chain that compares equal. -/
def delete (ops : KeyOps K) (t : Tab K D) (key : K) : Res (Tab K D × Int) :=
  if t.prime = 0 then .ub else
    let h := ops.hash key % t.prime
    if t.readonly ≠ 0 then .abort else
      let p : Entry K D → Bool := fun pt => ops.cmp pt.key key == 0
      if (t.buckets h).any p then
        .ok ({ t with
                entries := t.entries - 1
                buckets := setBucket t.buckets h ((t.buckets h).eraseP p) }, 0)
      else .ok (t, 1)

/-- The search of `hsh_retrieve` / `set_member`, maa/hash.c:300-329, maa/set.c:305-333: the first entry
comparing equal; a match at the head counts a hit, a later one is moved to the front unless the
table is read-only; no match counts a miss. -/
def retrieve (ops : KeyOps K) (t : Tab K D) (key : K) : Res (Tab K D × Option D) :=
  if t.prime = 0 then .ub else
    let h := ops.hash key % t.prime
    let t := { t with retrievals := t.retrievals + 1 }
    let p : Entry K D → Bool := fun pt => ops.cmp pt.key key == 0
    match t.buckets h with
    | [] => .ok ({ t with misses := t.misses + 1 }, none)
    | pt :: rest =>
      if p pt then .ok ({ t with hits := t.hits + 1 }, some pt.datum)
      else
        match rest.find? p with
        | some q =>
          if t.readonly = 0 then
            .ok ({ t with buckets := setBucket t.buckets h (q :: pt :: rest.eraseP p) },
                  some q.datum)
          else .ok (t, some q.datum)
        | none => .ok ({ t with misses := t.misses + 1 }, none)

/-- `hsh_Stats` / `set_Stats`, maa/maa.h. -/
structure Stats where
  size : Nat
  resizings : Nat
  entries : Nat
  buckets_used : Nat
  singletons : Nat
  maximum_length : Nat
  retrievals : Nat
  hits : Nat
  misses : Nat
  deriving DecidableEq

/-- Body of the loop of `hsh_get_stats` / `set_get_stats`, maa/hash.c:434-445, maa/set.c:753-764. -/
def statsStep (t : Tab K D) (s : Stats) (i : Nat) : Stats :=
  if (t.buckets i).isEmpty then s else
    let count := (t.buckets i).length
    { s with
      buckets_used := s.buckets_used + 1
      singletons := if count = 1 then s.singletons + 1 else s.singletons
      maximum_length := max s.maximum_length count
      entries := s.entries + count }

/-- `hsh_get_stats` / `set_get_stats`, maa/hash.c:416-453, maa/set.c:734-773. -/
def getStats (t : Tab K D) : Res Stats :=
  let s : Stats :=
    { size := t.prime, resizings := t.resizings, entries := 0, buckets_used := 0, singletons := 0,
      maximum_length := 0, retrievals := t.retrievals, hits := t.hits, misses := t.misses }
  let s := (List.range t.prime).foldl (statsStep t) s
  if t.entries ≠ s.entries then .abort else .ok s

/-- `hsh_readonly` / `set_readonly`, maa/hash.c:617-627, maa/set.c:467-477: returns the previous flag. -/
def setReadonly (t : Tab K D) (flag : Int) : Tab K D × Int :=
  ({ t with readonly := flag }, t.readonly)

/-- `hsh_destroy` / `set_destroy`, maa/hash.c:174-181, maa/set.c:188-197: only the read-only check can
fail. -/
def destroy (t : Tab K D) : Res Unit := if t.readonly ≠ 0 then .abort else .ok ()

/-- The loop shared by `hsh_iterate`, `hsh_iterate_arg`, `set_iterate`, `set_iterate_arg`: call the
user's function on each entry until it returns non-zero (maa/hash.c:349-358,381-390,
maa/set.c:354-364,390-400).  The function's own state and effects are the threaded `σ`; it is
assumed not to modify the table. -/
def iterLoop {σ : Type} (f : σ → Entry K D → σ × Int) : σ → List (Entry K D) → σ × Int
  | s, [] => (s, 0)
  | s, e :: es =>
    let r := f s e
    if r.2 ≠ 0 then (r.1, 1) else iterLoop f r.1 es

end Tab
end Maa
