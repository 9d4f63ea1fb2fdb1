import Verif.Spec.StrPool
import Verif.Spec.Source

/-! # The texts of the printed statistics

Every report is a list of lines; numbers are decimal. -/

namespace Maa.Spec.Report

/-- The bytes of a text. -/
def ascii (s : String) : List Byte := s.toUTF8.toList

/-- Lines, each ended by a newline. -/
def lines (ls : List (List (List Byte))) : List Byte := ls.flatMap fun l => l.flatten ++ [10]

/-- What `hsh_print_stats` and `set_print_stats` say: `kind` is "hash table" or "set", `at_` the address as the C library
prints pointers, `ratio` the average number of entries of the non-empty slots as the C library prints numbers with one digit, absent when
there is no entry. -/
def table (kind : String) (at_ : List Byte) (resizings size entries used single longest retrievals hits misses : Nat)
    (ratio : Option (List Byte)) : List Byte :=
  lines
    [[ascii "Statistics for ", ascii kind, ascii " at ", at_, ascii ":"],
     [ascii "   ", decimal resizings, ascii " resizings to ", decimal size, ascii " total"],
     [ascii "   ", decimal entries, ascii " entries (", decimal used, ascii " buckets used, ", decimal single, ascii " without overflow)"],
     [ascii "   maximum list length is ", decimal longest,
       match ratio with | none => [] | some r => ascii " (optimal is " ++ r ++ ascii ")"],
     [ascii "   ", decimal retrievals, ascii " retrievals (", decimal hits, ascii " from top, ", decimal misses, ascii " failed)"]]

/-- What `mem_print_object_stats` says. -/
def objects (at_ : List Byte) (total used reused : Int) : List Byte :=
  lines
    [[ascii "Statistics for object memory manager at ", at_, ascii ":"],
     [ascii "   ", decimalInt total, ascii " objects allocated, of which ", decimalInt used, ascii " are in use"],
     [ascii "   ", decimalInt reused, ascii " objects have been reused"]]

/-- What `mem_print_string_stats` says. -/
def strings (at_ : List Byte) (count bytes : Nat) : List Byte :=
  lines
    [[ascii "Statistics for string memory manager at ", at_, ascii ":"],
     [ascii "   ", decimal count, ascii " strings, using ", decimal bytes, ascii " bytes"]]

/-- What `str_pool_print_stats` says. -/
def pool (global : Bool) (at_ : List Byte) (count bytes retrievals hits misses : Nat) : List Byte :=
  lines
    [[ascii "Statistics for ", if global then ascii "global " else [], ascii "string pool at ", at_, ascii ":"],
     [ascii "   ", decimal count, ascii " strings using ", decimal bytes, ascii " bytes"],
     [ascii "   ", decimal retrievals, ascii " retrievals (", decimal hits, ascii " from top, ", decimal misses, ascii " failed)"]]

/-- What `src_print_stats` says. -/
def source (used bytes allocated tokens size reused : Nat) : List Byte :=
  lines
    [[ascii "Statistics for source manager:"],
     [ascii "   ", decimal used, ascii " lines using ", decimal bytes, ascii " bytes (", decimal allocated, ascii " allocated)"],
     [ascii "   ", decimal tokens, ascii " tokens using ", decimal (tokens * size), ascii " bytes (", decimal reused, ascii " reused)"]]

/-- The lines `_sl_dump` prints for entries: address and datum of each, numbered from `i` on.  The key of a NULL datum is not asked for. -/
def entries (showP : Nat → List Byte) (key : Nat → Nat) : Nat → List (Nat × Nat) → List (List (List Byte))
  | _, [] => []
  | i, (at_, d) :: es =>
    let k := if d = 0 then 0 else key d
    [ascii "  Entry ", showP at_, ascii " (", decimal i, ascii "/", showP d, ascii "/0x", showP k, ascii "=", decimal k, ascii ")"] ::
      entries showP key (i + 1) es

/-- What `_sl_dump` says of a skip list: level and number of data, then the head (an entry without a datum) and the data with the addresses of
their entries. -/
def skipList (showP : Nat → List Byte) (key : Nat → Nat) (level : Nat) (head : Nat) (data : List (Nat × Nat)) : List Byte :=
  lines ([ascii "Level = ", decimal level, ascii ", count = ", decimal data.length] :: entries showP key 0 ((head, 0) :: data))

end Maa.Spec.Report
