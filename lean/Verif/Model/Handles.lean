import Verif.Model.Base
import Verif.Model.Tab

/-! # Handles and their magic numbers

maa/maa.h:36-45 promises that "important structures will be tagged with a magic number which will be
checked for integrity at each access".  This file models just that: what lies at the address a
function is given, and what every function that takes a handle does with it before it relies on the
handle being good.  What the functions do afterwards is modelled in the other files, which take the
handle to be good.

Only the handle is modelled here: the other arguments (strings, positions, functions) are taken to be
usable, user supplied hash functions to return, and memory not to run out. -/

namespace Maa.Handles

/-- The structures that carry a magic number (maa/hash.c:44-58, maa/set.c:48-62, maa/list.c:43-50,
maa/memory.c:36-44, maa/memory.c:46-56, maa/arg.c:35-43, maa/sl.c:60-70).  It is the first member of each. -/
inductive Kind
  | table | set | list | strings | objects | args | sl
  deriving DecidableEq, Repr

/-- The magic numbers, maa/maa.h:47-66, as the 32 bit pattern of the `int` or `unsigned` member. -/
def magic : Kind → Nat
  | .table => 0x01020304
  | .set => 0x02030405
  | .list => 0x03040506
  | .strings => 0x23232323
  | .objects => 0x42424242
  | .args => 0xfeedbead
  | .sl => 0xabcdef01

/-- What lies at an address that may be read: a structure of the library; a destroyed skip list, whose memory
stays with the library (maa/sl.c:222-226); anything else, of which only the first 32 bits matter. -/
inductive Struct
  | live (k : Kind)
  | slFreed
  | other (w : Nat)
  deriving DecidableEq, Repr

/-- The first 32 bits of a structure.  SL_LIST_MAGIC_FREED is maa/maa.h:64. -/
def firstWord : Struct → Nat
  | .live k => magic k
  | .slFreed => 0xbadcfe10
  | .other w => w

/-- The memory, and the static variables `mem` of maa/list.c:52 and `_sl_Memory` of maa/sl.c:72 with the free structures of
the latter, last freed first. -/
structure World where
  /-- What may be read at an address; `none` for memory that was freed or never allocated. -/
  at? : Ptr → Option Struct
  lstMem : Ptr
  slMem : Ptr
  slFree : List Ptr

/-- How far a function gets: it begins its work on a handle it takes to be good, or it returns at once. -/
inductive Entry
  | inside
  | returned
  deriving DecidableEq, Repr

/-- `_hsh_check` maa/hash.c:60-72, `_set_check` maa/set.c:64-74, `_lst_check` maa/list.c:55-65, `_mem_magic_strings` maa/memory.c:65-74,
`_mem_magic_objects` maa/memory.c:244-253, `_arg_check` maa/arg.c:45-56, `_sl_check_list` maa/sl.c:78-88: a null handle and a wrong
magic number are internal errors.  (The test for a table without buckets, maa/hash.c:70-71, never fails for a table that
was not destroyed and is left out.) -/
def check (w : World) (k : Kind) (p : Ptr) : Res Entry :=
  if p = 0 then .abort
  else match w.at? p with
    | none => .ub
    | some s => if firstWord s ≠ magic k then .abort else .ok .inside

/-- `t->hash(key)`, maa/hash.c:222, 271, 304 and maa/set.c:229, 277, 308.  Hash tables and sets have the same layout (maa/hash.c:44-58,
maa/set.c:48-62), so the call also works if the one is taken for the other; for anything else it calls something that is no
function, or follows a null pointer. -/
def callHash (w : World) (p : Ptr) : Res Unit :=
  match w.at? p with
  | some (.live .table) => .ok ()
  | some (.live .set) => .ok ()
  | _ => .ub

/-- `stk_pop(i->stack)`, maa/memory.c:306: only a `mem_Object` has a stack there. -/
def popStack (w : World) (p : Ptr) : Res Unit :=
  match w.at? p with
  | some (.live .objects) => .ok ()
  | _ => .ub

/-- `mem_get_object`, maa/memory.c:303-321, up to the check. -/
def memGetObject (w : World) (p : Ptr) : Res Entry := (popStack w p).bind fun _ => check w .objects p

/-- The functions of maa.h that take one handle of a tagged structure. -/
inductive Fn
  | hsh_destroy | hsh_insert | hsh_delete | hsh_retrieve | hsh_iterate | hsh_iterate_arg | hsh_get_stats | hsh_print_stats
  | hsh_key_strings | hsh_init_position | hsh_next_position | hsh_readonly
  | set_get_hash | set_get_compare | set_destroy | set_insert | set_delete | set_member | set_iterate | set_iterate_arg
  | set_get_stats | set_print_stats | set_count | set_init_position | set_next_position | set_readonly
  | lst_destroy | lst_append | lst_push | lst_pop | lst_top | lst_nth_get | lst_nth_set | lst_member | lst_length | lst_iterate
  | lst_iterate_arg | lst_truncate | lst_truncate_position | lst_init_position | lst_last_position | lst_nth_position | lst_dump
  | mem_destroy_strings | mem_strcpy | mem_strncpy | mem_grow | mem_finish | mem_get_string_stats | mem_print_string_stats
  | mem_destroy_objects | mem_get_object | mem_get_empty_object | mem_free_object | mem_get_object_stats
  | mem_print_object_stats
  | arg_destroy | arg_add | arg_addn | arg_grow | arg_finish | arg_get | arg_count | arg_get_vector
  | sl_destroy | sl_insert | sl_delete | sl_find | sl_iterate | sl_iterate_arg | sl_dump
  deriving DecidableEq, Repr

/-- The kind of handle a function is declared to take, maa/maa.h:126-151, 200-225, 260-286, 342-360, 476-483, 522-529. -/
def Fn.kind : Fn → Kind
  | .hsh_destroy | .hsh_insert | .hsh_delete | .hsh_retrieve | .hsh_iterate | .hsh_iterate_arg | .hsh_get_stats | .hsh_print_stats
  | .hsh_key_strings | .hsh_init_position | .hsh_next_position | .hsh_readonly => .table
  | .set_get_hash | .set_get_compare | .set_destroy | .set_insert | .set_delete | .set_member | .set_iterate | .set_iterate_arg
  | .set_get_stats | .set_print_stats | .set_count | .set_init_position | .set_next_position | .set_readonly => .set
  | .lst_destroy | .lst_append | .lst_push | .lst_pop | .lst_top | .lst_nth_get | .lst_nth_set | .lst_member | .lst_length
  | .lst_iterate | .lst_iterate_arg | .lst_truncate | .lst_truncate_position | .lst_init_position | .lst_last_position
  | .lst_nth_position | .lst_dump => .list
  | .mem_destroy_strings | .mem_strcpy | .mem_strncpy | .mem_grow | .mem_finish | .mem_get_string_stats
  | .mem_print_string_stats => .strings
  | .mem_destroy_objects | .mem_get_object | .mem_get_empty_object | .mem_free_object | .mem_get_object_stats
  | .mem_print_object_stats => .objects
  | .arg_destroy | .arg_add | .arg_addn | .arg_grow | .arg_finish | .arg_get | .arg_count | .arg_get_vector => .args
  | .sl_destroy | .sl_insert | .sl_delete | .sl_find | .sl_iterate | .sl_iterate_arg | .sl_dump => .sl

/-- What each function does with its handle before it relies on it. -/
def enter (w : World) (p : Ptr) : Fn → Res Entry
  | .hsh_destroy => check w .table p -- maa/hash.c:174-176
  | .hsh_insert => (callHash w p).bind fun _ => check w .table p -- maa/hash.c:216-225
  | .hsh_delete => (callHash w p).bind fun _ => check w .table p -- maa/hash.c:268-273
  | .hsh_retrieve => (callHash w p).bind fun _ => check w .table p -- maa/hash.c:300-306
  | .hsh_iterate => check w .table p -- maa/hash.c:338-347
  | .hsh_iterate_arg => check w .table p -- maa/hash.c:368-379
  | .hsh_get_stats => check w .table p -- maa/hash.c:416-423
  | .hsh_print_stats => (check w .table p).bind fun _ => check w .table p -- maa/hash.c:459-464, by way of hsh_get_stats
  | .hsh_key_strings => check w .table p -- maa/hash.c:407-409, by way of hsh_iterate
  | .hsh_init_position => check w .table p -- maa/hash.c:556-561
  | .hsh_next_position => check w .table p -- maa/hash.c:573-580
  | .hsh_readonly => check w .table p -- maa/hash.c:617-622
  | .set_get_hash => check w .set p -- maa/set.c:131-135
  | .set_get_compare => check w .set p -- maa/set.c:139-143
  | .set_destroy => check w .set p -- maa/set.c:188-192
  | .set_insert => (callHash w p).bind fun _ => check w .set p -- maa/set.c:226-232
  | .set_delete => (callHash w p).bind fun _ => check w .set p -- maa/set.c:274-279
  | .set_member => (callHash w p).bind fun _ => check w .set p -- maa/set.c:305-310
  | .set_iterate => check w .set p -- maa/set.c:342-349
  | .set_iterate_arg => check w .set p -- maa/set.c:377-385
  | .set_get_stats => check w .set p -- maa/set.c:734-741
  | .set_print_stats => (check w .set p).bind fun _ => check w .set p -- maa/set.c:778-784, by way of set_get_stats
  | .set_count => check w .set p -- maa/set.c:723-727
  | .set_init_position => check w .set p -- maa/set.c:410-415
  | .set_next_position => check w .set p -- maa/set.c:427-434
  | .set_readonly => check w .set p -- maa/set.c:467-472
  | .lst_destroy => check w .list p -- maa/list.c:101-106
  | .lst_append => -- maa/list.c:122-134
    if p = 0 then .ok .returned else (memGetObject w w.lstMem).bind fun _ => check w .list p
  | .lst_push => (memGetObject w w.lstMem).bind fun _ => check w .list p -- maa/list.c:149-155
  | .lst_pop => check w .list p -- maa/list.c:167-172
  | .lst_top => check w .list p -- maa/list.c:191-195
  | .lst_nth_get => check w .list p -- maa/list.c:206-212
  | .lst_nth_set => check w .list p -- maa/list.c:227-233
  | .lst_member => check w .list p -- maa/list.c:251-256
  | .lst_length => check w .list p -- maa/list.c:266-270
  | .lst_iterate => check w .list p -- maa/list.c:354-359
  | .lst_iterate_arg => check w .list p -- maa/list.c:370-377
  | .lst_truncate => check w .list p -- maa/list.c:277-284
  | .lst_truncate_position => check w .list p -- maa/list.c:320-326
  | .lst_init_position => check w .list p -- maa/list.c:387-391
  | .lst_last_position => check w .list p -- maa/list.c:399-403
  | .lst_nth_position => check w .list p -- maa/list.c:422-428
  | .lst_dump => check w .list p -- maa/list.c:469-472, by way of lst_iterate
  | .mem_destroy_strings => check w .strings p -- maa/memory.c:99-103
  | .mem_strcpy => check w .strings p -- maa/memory.c:119-125
  | .mem_strncpy => check w .strings p -- maa/memory.c:141-147
  | .mem_grow => check w .strings p -- maa/memory.c:165-170
  | .mem_finish => (check w .strings p).bind fun _ => check w .strings p -- maa/memory.c:190-196, then mem_grow
  | .mem_get_string_stats => check w .strings p -- maa/memory.c:209-214
  | .mem_print_string_stats => (check w .strings p).bind fun _ => check w .strings p -- maa/memory.c:226-231, by way of mem_get_string_stats
  | .mem_destroy_objects => check w .objects p -- maa/memory.c:281-285
  | .mem_get_object => memGetObject w p -- maa/memory.c:303-308
  | .mem_get_empty_object => memGetObject w p -- maa/memory.c:327-330, by way of mem_get_object
  | .mem_free_object => check w .objects p -- maa/memory.c:342-346
  | .mem_get_object_stats => check w .objects p -- maa/memory.c:356-361
  | .mem_print_object_stats => (check w .objects p).bind fun _ => check w .objects p -- maa/memory.c:382-387, by way of mem_get_object_stats
  | .arg_destroy => check w .args p -- maa/arg.c:80-84
  | .arg_add => check w .args p -- maa/arg.c:95-100
  | .arg_addn => check w .args p -- maa/arg.c:114-119
  | .arg_grow => check w .args p -- maa/arg.c:135-139
  | .arg_finish => check w .args p -- maa/arg.c:146-151
  | .arg_get => check w .args p -- maa/arg.c:164-168
  | .arg_count => check w .args p -- maa/arg.c:179-181
  | .arg_get_vector => check w .args p -- maa/arg.c:188-192
  | .sl_destroy => check w .sl p -- maa/sl.c:209-215
  | .sl_insert => check w .sl p -- maa/sl.c:289-299
  | .sl_delete => check w .sl p -- maa/sl.c:328-336
  | .sl_find => check w .sl p -- maa/sl.c:364-370
  | .sl_iterate => if p = 0 then .ok .returned else check w .sl p -- maa/sl.c:383-394
  | .sl_iterate_arg => if p = 0 then .ok .returned else check w .sl p -- maa/sl.c:420-431
  | .sl_dump => check w .sl p -- maa/sl.c:456-462

/-- The functions of maa.h that take two sets. -/
inductive Fn2
  | set_add | set_del | set_union | set_inter | set_diff | set_equal
  deriving DecidableEq, Repr

/-- All of them check both handles first: maa/set.c:491-492, 526-527, 561-562, 608-609, 651-652, 692-693. -/
def enter2 (w : World) (p q : Ptr) : Fn2 → Res Entry
  | .set_add | .set_del | .set_union | .set_inter | .set_diff | .set_equal => (check w .set p).bind fun _ => check w .set q

/-! ## Handles come and go -/

/-- What a program does to its handles. -/
inductive Ev
  /-- `hsh_create`, `set_create`, `lst_create`, `mem_create_strings`, `mem_create_objects`, `arg_create`, `sl_create`. -/
  | create (k : Kind)
  /-- A call of a function that takes one handle. -/
  | call (f : Fn) (p : Ptr)
  /-- A call of a function that takes two handles. -/
  | call2 (f : Fn2) (p q : Ptr)
  /-- The program, or the library for other purposes, allocates memory with these first 32 bits … -/
  | alloc (v : Nat)
  /-- … changes it … -/
  | write (p : Ptr) (v : Nat)
  /-- … and gives it back. -/
  | free (p : Ptr)
  deriving DecidableEq, Repr

/-- What the program gets. -/
inductive Ret
  | handle (p : Ptr)
  | entered
  | returned
  deriving DecidableEq, Repr

def World.set (w : World) (p : Ptr) (s : Option Struct) : World := { w with at? := fun q => if q = p then s else w.at? q }

/-- `xmalloc` of a new structure, at an address chosen by the allocator; without memory the program ends (maa/xmalloc.c:30-38). -/
def newStruct (place : World → Ptr) (w : World) (s : Struct) : Res (World × Ptr) :=
  if place w = 0 then .fatal else .ok (w.set (place w) (some s), place w)

/-- The create functions: maa/hash.c:127-133, maa/set.c:126-129, maa/list.c:74-89, maa/memory.c:79-92, 258-274, maa/arg.c:60-75,
maa/sl.c:174-203.  `lst_create` and `sl_create` make the object memory of their module if there is none; `sl_create` takes
the structure that was freed last (maa/memory.c:303-321).  (Left out: the stacks in memory objects, buckets, the string memory in
an `arg_List`: their addresses are never given out as handles.) -/
def create (place : World → Ptr) (w : World) : Kind → Res (World × Ptr)
  | .list => (newStruct place w (.live .list)).bind fun r =>
    if r.1.lstMem = 0 then (newStruct place r.1 (.live .objects)).bind fun m => .ok ({ m.1 with lstMem := m.2 }, r.2)
    else .ok r
  | .sl =>
    (if w.slMem = 0 then (newStruct place w (.live .objects)).bind fun m => .ok { m.1 with slMem := m.2 } else .ok w).bind fun w =>
      match w.slFree with
      | p :: ps => .ok ({ w.set p (some (.live .sl)) with slFree := ps }, p)
      | [] => newStruct place w (.live .sl)
  | k => newStruct place w (.live k)

/-- What is left of the structure when a function is done: the destroy functions mark it and free it (maa/hash.c:158-165,
maa/set.c:168-178, maa/list.c:114-117, maa/memory.c:104-114, 286-297, maa/arg.c:85-90); `sl_destroy` marks it and keeps it
(maa/sl.c:223-226).  All others leave the magic number alone. -/
def after (w : World) (p : Ptr) : Fn → World
  | .hsh_destroy | .set_destroy | .lst_destroy | .mem_destroy_strings | .mem_destroy_objects | .arg_destroy => w.set p none
  | .sl_destroy => { w.set p (some .slFreed) with slFree := p :: w.slFree }
  | _ => w

/-- One step of a program.  A function that took something else for its structure has undefined behaviour, as has writing to
memory that is not the program's own or freeing it, and destroying the object memory which the library keeps for itself. -/
def step (place : World → Ptr) (w : World) : Ev → Res (World × Ret)
  | .create k => (create place w k).bind fun r => .ok (r.1, .handle r.2)
  | .call f p => (enter w p f).bind fun
    | .inside =>
      if w.at? p ≠ some (.live f.kind) then .ub
      else if f = .mem_destroy_objects ∧ (p = w.lstMem ∨ p = w.slMem) then .ub
      else .ok (after w p f, .entered)
    | .returned => .ok (w, .returned)
  | .call2 f p q => (enter2 w p q f).bind fun _ =>
    if w.at? p ≠ some (.live .set) ∨ w.at? q ≠ some (.live .set) then .ub else .ok (w, .entered)
  | .alloc v => (newStruct place w (.other v)).bind fun r => .ok (r.1, .handle r.2)
  | .write p v => match w.at? p with
    | some (.other _) => .ok (w.set p (some (.other v)), .returned)
    | _ => .ub
  | .free p => match w.at? p with
    | some (.other _) => .ok (w.set p none, .returned)
    | _ => .ub

/-- The program starts with no structures. -/
def start : World := { at? := fun _ => none, lstMem := 0, slMem := 0, slFree := [] }

end Maa.Handles
