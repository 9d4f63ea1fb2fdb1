import Verif.Model.HashStats
import Verif.Model.StrStats
import Verif.Model.Objects
import Verif.Model.Source
import Verif.Model.Lists
import Verif.Spec.Source

/-! # Model of the functions that print statistics (maa/hash.c, maa/set.c, maa/memory.c, maa/string.c,
maa/source.c)

The result is the stream written to and the text written.  `%lu` and `%d` write decimal digits (`Spec.decimal`, `Spec.decimalInt`); what
`%p` and `%.1f` write is up to the C library (`showP`, `showF`).  Streams are numbers, NULL is 0.  Simplifications: writing never
fails; the block of numbers is not kept in memory (it is freed at the end of each of these functions). -/

namespace Maa.PrintStats

open HashHeap (HTab hgetStats)
open Tab (Entry)
open Spec (decimal decimalInt)

variable {K D α : Type}

/-- The bytes of a text in a format string. -/
def lit (s : String) : List Byte := s.toUTF8.toList

/-- `FILE *str = stream ? stream : stdout`, maa/hash.c:461, maa/set.c:781, maa/memory.c:228, 383, maa/string.c:269. -/
def pick (stdout stream : Nat) : Nat := if stream ≠ 0 then stream else stdout

/-- `hsh_print_stats`, maa/hash.c:459-480, and `set_print_stats`, maa/set.c:778-801, which differ in the first line only; the table
is at `pt`, NULL ends the program (`hsh_get_stats` checks it). -/
def printTable (kind : String) (showP : Nat → List Byte) (showF : Nat → Nat → List Byte) (h : Heap (Entry K D)) (pt : Nat) (t : HTab)
    (stdout stream : Nat) : Res (Nat × List Byte) :=
  let str := pick stdout stream
  if pt = 0 then .abort else
    (hgetStats h t).bind fun s =>
      let out := lit "Statistics for " ++ lit kind ++ lit " at " ++ showP pt ++ lit ":\n"
      let out := out ++ lit "   " ++ decimal s.resizings ++ lit " resizings to " ++ decimal s.size ++ lit " total\n"
      let out := out ++ lit "   " ++ decimal s.entries ++ lit " entries (" ++ decimal s.buckets_used ++ lit " buckets used, " ++
        decimal s.singletons ++ lit " without overflow)\n"
      let out := out ++ lit "   maximum list length is " ++ decimal s.maximum_length
      let out := if s.buckets_used ≠ 0 then out ++ lit " (optimal is " ++ showF s.entries s.buckets_used ++ lit ")\n" else out ++ lit "\n"
      let out := out ++ lit "   " ++ decimal s.retrievals ++ lit " retrievals (" ++ decimal s.hits ++ lit " from top, " ++
        decimal s.misses ++ lit " failed)\n"
      .ok (str, out)

/-- `mem_print_object_stats`, maa/memory.c:381-395; NULL ends the program. -/
def printObjects (showP : Nat → List Byte) (info : Nat) (i : Objects.Pool) (stdout stream : Nat) : Res (Nat × List Byte) :=
  let str := pick stdout stream
  if info = 0 then .abort else
    let s := Objects.stats i
    let out := lit "Statistics for object memory manager at " ++ showP info ++ lit ":\n"
    let out := out ++ lit "   " ++ decimalInt s.1 ++ lit " objects allocated, of which " ++ decimalInt s.2.1 ++ lit " are in use\n"
    let out := out ++ lit "   " ++ decimalInt s.2.2.1 ++ lit " objects have been reused\n"
    .ok (str, out)

/-- `mem_print_string_stats`, maa/memory.c:226-237; NULL ends the program. -/
def printStrings (showP : Nat → List Byte) (info : Nat) (i : StrMem.SInfo) (stdout stream : Nat) : Res (Nat × List Byte) :=
  let str := pick stdout stream
  if info = 0 then .abort else
    let s := StrMem.stats i
    let out := lit "Statistics for string memory manager at " ++ showP info ++ lit ":\n"
    let out := out ++ lit "   " ++ decimal s.1 ++ lit " strings, using " ++ decimal s.2 ++ lit " bytes\n"
    .ok (str, out)

/-- `str_pool_print_stats`, maa/string.c:267-278; `pool` and `global` are pointers, the pool is `p` unless it is NULL. -/
def printPool (showP : Nat → List Byte) (global pool : Nat) (p : Option StrPool.Pool) (stdout stream : Nat) : Res (Nat × List Byte) :=
  let str := pick stdout stream
  (StrPool.getStats p).bind fun s =>
    let out := lit "Statistics for " ++ (if pool = global then lit "global " else []) ++ lit "string pool at " ++ showP pool ++ lit ":\n"
    let out := out ++ lit "   " ++ decimal s.count ++ lit " strings using " ++ decimal s.bytes ++ lit " bytes\n"
    let out := out ++ lit "   " ++ decimal s.retrievals ++ lit " retrievals (" ++ decimal s.hits ++ lit " from top, " ++
      decimal s.misses ++ lit " failed)\n"
    .ok (str, out)

/-- `str_print_stats`, maa/string.c:405-408; `global` is the pointer to the global pool, NULL if there is none. -/
def printGlobal (showP : Nat → List Byte) (global : Nat) (g : StrPool.Global) (stdout stream : Nat) : Res (Nat × List Byte) :=
  printPool showP global global
    (g.pool.map fun q => { mem := g.mem, str := q.1, cells := g.cells, tab := q.2 }) stdout stream

/-- `src_print_stats`, maa/source.c:296-308: `tokenSize` is `sizeof(struct source)` as `mem_create_objects` rounded it (the `size` that
`src_get_stats` reports while the manager exists); `src_*` never calls `mem_free_object`, so `tokens_reused` is 0. -/
def printSource (tokenSize : Nat) (σ : Source.State) (stdout stream : Nat) : Nat × List Byte :=
  let str := pick stdout stream
  let s := Source.srcStats σ
  let out := lit "Statistics for source manager:\n"
  let out := out ++ lit "   " ++ decimal (s.getD 0 0) ++ lit " lines using " ++ decimal (s.getD 2 0) ++ lit " bytes (" ++
    decimal (s.getD 1 0) ++ lit " allocated)\n"
  let out := out ++ lit "   " ++ decimal (s.getD 3 0) ++ lit " tokens using " ++ decimal (s.getD 3 0 * tokenSize) ++ lit " bytes (" ++
    decimal 0 ++ lit " reused)\n"
  (str, out)

/-- `_lst_dump_node`, maa/list.c:463-467; the state is what has been written to `stdout`. -/
def dumpNode (showP : Nat → List Byte) (out : List Byte) (datum : Nat) : List Byte × Int :=
  (out ++ lit " 0x" ++ showP datum ++ lit "\n", 0)

/-- `lst_dump`, maa/list.c:469-472: what is written to `stdout`. -/
def lstDump (showP : Nat → List Byte) (σ : Lst.State) (l : Nat) : Res (List Byte) :=
  (Lst.lstIterate σ l (dumpNode showP) []).bind fun r => .ok r.1

end Maa.PrintStats
