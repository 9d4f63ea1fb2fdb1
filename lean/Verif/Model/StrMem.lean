import Verif.Model.Heap
import Verif.Model.Objects
import Verif.Model.CStr
import Verif.Spec.StrMem

/-! # Model of the string memories of maa/memory.c

Memory cells hold the bytes of one `malloc`ed block (the second component of a cell is not used).
The stack of blocks is a list, top first (C17).  Simplifications: `int` counters and lengths do not
overflow and lengths are not negative; `xrealloc` frees the block and allocates the larger one, which the allocator may put at the same or another address; bytes of a block not yet
written are zero (nothing here reads them). -/

namespace Maa.StrMem

open CStr (cstr)

/-- `struct stringInfo`, maa/memory.c:36-44. -/
structure SInfo where
  count : Nat
  bytes : Nat
  growing : Nat
  allocated : List Nat

/-- Memory. -/
abbrev Mem := Heap (List Byte)

/-- `mem_create_strings`, maa/memory.c:79-92. -/
def create : SInfo := { count := 0, bytes := 0, growing := 0, allocated := [] }

/-- `mem_destroy_strings`, maa/memory.c:99-114: `xfree` of everything on the stack. -/
def destroy (h : Mem) (i : SInfo) : Res Mem := Objects.destroyLoop i.allocated h

/-- `mem_strcpy`, maa/memory.c:119-135; `xstrdup`, maa/xmalloc.c:68-78. -/
def strcpy (h : Mem) (i : SInfo) (string : List Byte) : Res ((Mem × SInfo) × Nat) :=
  (cstr string).bind fun s =>
    let i := { i with count := i.count + 1, bytes := i.bytes + (s.length + 1), growing := 0 }
    let r := h.alloc (string.take (s.length + 1), 0)
    .ok ((r.1, { i with allocated := r.2 :: i.allocated }), r.2)

/-- `mem_strncpy`, maa/memory.c:141-158: copies `len + 1` bytes. -/
def strncpy (h : Mem) (i : SInfo) (string : List Byte) (len : Nat) : Res ((Mem × SInfo) × Nat) :=
  if string.length < len + 1 then .ub else
    let i := { i with count := i.count + 1, bytes := i.bytes + (len + 1), growing := 0 }
    let r := h.alloc (string.take (len + 1), 0)
    .ok ((r.1, { i with allocated := r.2 :: i.allocated }), r.2)

/-- `realloc` of a block to `n` bytes (C library). -/
def resized (n : Nat) (old : List Byte) : List Byte := old.take n ++ List.replicate (n - old.length) 0

/-- `memcpy((char *)p + growing_size, string, len)` into the block `blk`, maa/memory.c:181: undefined when the block ends
before the copy does. -/
def pasted (blk : List Byte) (growing : Nat) (piece : List Byte) : Res (List Byte) :=
  if blk.length < growing + piece.length then .ub
  else .ok (blk.take growing ++ piece ++ blk.drop (growing + piece.length))

/-- `mem_grow`, maa/memory.c:165-185.  `stk_pop` of an empty stack would give NULL, which `xrealloc`
turns into a new block. -/
def grow (h : Mem) (i : SInfo) (string : List Byte) (len : Nat) : Res (Mem × SInfo) :=
  if string.length < len then .ub else
    let i := { i with bytes := i.bytes + len }
    let piece := string.take len
    if i.growing ≠ 0 then
      match i.allocated with
      | [] =>
        (pasted (resized (i.growing + len) []) i.growing piece).bind fun blk =>
          let r := h.alloc (blk, 0)
          .ok (r.1, { i with growing := i.growing + len, allocated := [r.2] })
      | p :: rest =>
        (h.read p).bind fun c => (h.free p).bind fun h' =>
          (pasted (resized (i.growing + len) c.1) i.growing piece).bind fun blk =>
            let r := h'.alloc (blk, 0)
            .ok (r.1, { i with growing := i.growing + len, allocated := r.2 :: rest })
    else
      (pasted (resized len []) i.growing piece).bind fun blk =>
        let r := h.alloc (blk, 0)
        .ok (r.1, { i with growing := i.growing + len, allocated := r.2 :: i.allocated })

/-- `mem_finish`, maa/memory.c:190-203. -/
def finish (h : Mem) (i : SInfo) : Res ((Mem × SInfo) × Nat) :=
  (grow h i [0] 1).bind fun r =>
    let i := { r.2 with count := r.2.count + 1, growing := 0 }
    .ok ((r.1, i), i.allocated.headD 0)

/-- `mem_get_string_stats`, maa/memory.c:209-220: count, bytes. -/
def stats (i : SInfo) : Nat × Nat := (i.count, i.bytes)

/-- One call (dispatch only; maa/memory.c:119-203). -/
def step (s : Mem × SInfo) : Spec.StrOp → Res ((Mem × SInfo) × Nat)
  | .strcpy b => strcpy s.1 s.2 b
  | .strncpy b n => strncpy s.1 s.2 b n
  | .grow b n => (grow s.1 s.2 b n).bind fun r => .ok (r, 0)
  | .finish => finish s.1 s.2

end Maa.StrMem
