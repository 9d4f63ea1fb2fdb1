import Verif.Spec.Blocks

/-! # Model of maa/xmalloc.c over one flat memory -/

namespace Maa.Xmalloc

open Spec (Allocator MemOp)

/-- The process: one memory of bytes, the blocks handed out by the C library and not yet given back (address, size), and the number of
requests so far. -/
structure Proc where
  mem : Nat → UInt8
  live : List (Nat × Nat)
  time : Nat

/-- Program start (maa/xmalloc.c has no state of its own, maa/xmalloc.c:27-28). -/
def Proc.init (mem : Nat → UInt8) : Proc := { mem := mem, live := [], time := 0 }

/-- Memory with the `n` bytes from `p` on replaced. -/
def fillMem (mem : Nat → UInt8) (p n : Nat) (g : Nat → UInt8) : Nat → UInt8 := fun a => if p ≤ a ∧ a < p + n then g (a - p) else mem a

/-- `malloc(n)` (C library, called in maa/xmalloc.c:32): a null pointer or a block with arbitrary contents. -/
def cMalloc (e : Allocator) (s : Proc) (n : Nat) : Proc × Option Nat :=
  match e.malloc s.time s.live n with
  | none => ({ s with time := s.time + 1 }, none)
  | some p => ({ mem := fillMem s.mem p n (e.fill s.time), live := (p, n) :: s.live, time := s.time + 1 }, some p)

/-- `calloc(num,size)` (C library, called in maa/xmalloc.c:42): a null pointer or a cleared block. -/
def cCalloc (e : Allocator) (s : Proc) (num size : Nat) : Proc × Option Nat :=
  match e.calloc s.time s.live num size with
  | none => ({ s with time := s.time + 1 }, none)
  | some p => ({ mem := fillMem s.mem p (num * size) (fun _ => 0), live := (p, num * size) :: s.live, time := s.time + 1 }, some p)

/-- `realloc(pt,n)` (C library, called in maa/xmalloc.c:52): `ub` for an address that is not a live block; the old block disappears, the
new one starts with the bytes of the old. -/
def cRealloc (e : Allocator) (s : Proc) (pt n : Nat) : Res (Proc × Option Nat) :=
  if pt = 0 then
    match e.realloc s.time s.live 0 n with
    | none => .ok ({ s with time := s.time + 1 }, none)
    | some q => .ok ({ mem := fillMem s.mem q n (e.fill s.time), live := (q, n) :: s.live, time := s.time + 1 }, some q)
  else
    match s.live.find? (·.1 = pt) with
    | none => .ub
    | some b =>
      match e.realloc s.time s.live pt n with
      | none => .ok ({ s with time := s.time + 1 }, none)
      | some q =>
        .ok ({ mem := fillMem s.mem q n (fun i => if i < b.2 then s.mem (pt + i) else e.fill s.time i)
               live := (q, n) :: s.live.filter (·.1 ≠ pt), time := s.time + 1 }, some q)

/-- `free(pt)` (C library, called in maa/xmalloc.c:64) for a pointer that is not null. -/
def cFree (s : Proc) (pt : Nat) : Res Proc :=
  if s.live.any (·.1 = pt) then .ok { s with live := s.live.filter (·.1 ≠ pt) } else .ub

/-- `xmalloc`, maa/xmalloc.c:30-38. -/
def xmalloc (e : Allocator) (s : Proc) (n : Nat) : Res (Proc × Nat) :=
  match cMalloc e s n with
  | (_, none) => .fatal
  | (s', some p) => .ok (s', p)

/-- `xcalloc`, maa/xmalloc.c:40-48. -/
def xcalloc (e : Allocator) (s : Proc) (num size : Nat) : Res (Proc × Nat) :=
  match cCalloc e s num size with
  | (_, none) => .fatal
  | (s', some p) => .ok (s', p)

/-- `xrealloc`, maa/xmalloc.c:50-60. -/
def xrealloc (e : Allocator) (s : Proc) (pt n : Nat) : Res (Proc × Nat) :=
  (cRealloc e s pt n).bind fun r =>
    match r with
    | (_, none) => .fatal
    | (s', some p) => .ok (s', p)

/-- `xfree`, maa/xmalloc.c:62-66. -/
def xfree (s : Proc) (pt : Nat) : Res Proc := if pt ≠ 0 then cFree s pt else .fatal

/-- `strlen` of the string at `a`, of which `n` bytes may be read (C library, called in maa/xmalloc.c:70). -/
def strlen (mem : Nat → UInt8) : Nat → Nat → Option Nat
  | 0, _ => none
  | n + 1, a => if mem a = 0 then some 0 else (strlen mem n (a + 1)).map (· + 1)

/-- `xstrdup`, maa/xmalloc.c:68-78.  The argument points into a live block; a string that does not end in it is `ub`.  (The test of the
pointer returned by xmalloc, maa/xmalloc.c:73-74, never succeeds.) -/
def xstrdup (e : Allocator) (s : Proc) (a : Nat) : Res (Proc × Nat) :=
  match s.live.find? (fun b => b.1 ≤ a && a < b.1 + b.2) with
  | none => .ub
  | some b =>
    match strlen s.mem (b.1 + b.2 - a) a with
    | none => .ub
    | some len =>
      (xmalloc e s (len + 1)).bind fun r =>
        .ok ({ r.1 with mem := fillMem r.1.mem r.2 (len + 1) (fun i => r.1.mem (a + i)) }, r.2)

/-- One operation of the program (dispatch; maa/xmalloc.c:30-78); storing and fetching are the program's own. -/
def step (e : Allocator) (s : Proc) : MemOp → Res (Proc × Nat)
  | .malloc n => xmalloc e s n
  | .calloc num size => xcalloc e s num size
  | .realloc p n => xrealloc e s p n
  | .free p => (xfree s p).bind fun s => .ok (s, 0)
  | .strdup a => xstrdup e s a
  | .store a v =>
    if s.live.any (fun b => b.1 ≤ a && a < b.1 + b.2) then .ok ({ s with mem := fun x => if x = a then v else s.mem x }, 0) else .ub
  | .fetch a => if s.live.any (fun b => b.1 ≤ a && a < b.1 + b.2) then .ok (s, (s.mem a).toNat) else .ub

end Maa.Xmalloc
