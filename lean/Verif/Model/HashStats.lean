import Verif.Model.HashHeap
import Verif.Model.NameTab

/-! # Pointer-level model of hsh_get_stats, set_get_stats and hsh_key_strings (maa/hash.c, maa/set.c) -/

namespace Maa.HashHeap

open Tab (Entry Stats)

variable {K D : Type}

/-- `for (count = 0, pt = t->buckets[i]; pt; ++count, pt = pt->next);`, maa/hash.c:439, maa/set.c:758, from `pt` and `count` on.  The
first argument bounds the number of rounds, as elsewhere in this model. -/
def countChain : Nat → Heap (Entry K D) → Nat → Nat → Res Nat
  | 0, _, _, _ => .ub
  | n + 1, h, pt, count =>
    if pt = 0 then .ok count
    else (h.read pt).bind fun c => countChain n h c.2 (count + 1)

/-- The loop over the slots, maa/hash.c:434-445, maa/set.c:753-764. -/
def statsLoop (h : Heap (Entry K D)) (t : HTab) : List Nat → Stats → Res Stats
  | [], s => .ok s
  | i :: is, s =>
    if t.buckets i = 0 then statsLoop h t is s
    else
      (countChain h.clock h (t.buckets i) 0).bind fun count =>
        statsLoop h t is
          { s with
            buckets_used := s.buckets_used + 1
            singletons := if count = 1 then s.singletons + 1 else s.singletons
            maximum_length := max s.maximum_length count
            entries := s.entries + count }

/-- `hsh_get_stats` / `set_get_stats`, maa/hash.c:416-453, maa/set.c:734-773. -/
def hgetStats (h : Heap (Entry K D)) (t : HTab) : Res Stats :=
  (statsLoop h t (List.range t.prime)
    { size := t.prime, resizings := t.resizings, entries := 0, buckets_used := 0, singletons := 0,
      maximum_length := 0, retrievals := t.retrievals, hits := t.hits, misses := t.misses }).bind fun s =>
  if t.entries ≠ s.entries then .abort else .ok s

end Maa.HashHeap

namespace Maa.NameTab

/-- The `static int i` of `_hsh_key_strings`, maa/hash.c:395, and what has been printed. -/
structure Column where
  i : Nat
  out : List Byte

/-- `_hsh_key_strings` with a key, maa/hash.c:393-404.  The counter does not overflow (simplification). -/
def keyStrings (c : Column) (p : List Byte × Ptr) : Column :=
  let out := c.out ++ p.1 ++ [32, 32]
  let i := c.i + (p.1.length + 2)
  if i ≥ 60 then { i := 0, out := out ++ [10] } else { i := i, out := out }

/-- `hsh_key_strings`, maa/hash.c:407-411, on a table of strings: the table, the counter and the text printed.  The call
`_hsh_key_strings(NULL,NULL)` (maa/hash.c:397) sets the counter to 0, whatever it was. -/
def hshKeyStrings (t : Table) (_i : Nat) : Res (Table × Nat × List Byte) :=
  (iterate t (quiet keyStrings) { i := 0, out := [] }).bind fun q => .ok (q.1, q.2.1.i, q.2.1.out ++ [10])

end Maa.NameTab
