import Verif.Model.Base

/-! # Allocated blocks as independent byte arrays

The program's view of dynamic memory: every block is an array of bytes of its own.  The C library's allocator is arbitrary: it decides for
every request where the block goes or that there is no memory, under the guarantees of the C standard (`Allocator.Ok`). -/

namespace Maa.Spec

/-- A block of `n` bytes at `p` overlaps no live block and has an address of its own. -/
def Fits (live : List (Nat × Nat)) (p n : Nat) : Prop := p ≠ 0 ∧ ∀ b m, (b, m) ∈ live → p ≠ b ∧ (p + n ≤ b ∨ b + m ≤ p)

/-- The C library's allocator.  Its answers may depend on anything: the number of earlier requests (first argument), the live blocks (address
and size) and the request.  `none` is a null pointer.  `fill t i` is the byte it leaves at offset `i` of a block it has not cleared. -/
structure Allocator where
  malloc : Nat → List (Nat × Nat) → Nat → Option Nat
  calloc : Nat → List (Nat × Nat) → Nat → Nat → Option Nat
  realloc : Nat → List (Nat × Nat) → Nat → Nat → Option Nat
  fill : Nat → Nat → UInt8

/-- What the C standard guarantees. -/
structure Allocator.Ok (e : Allocator) : Prop where
  malloc : ∀ t live n p, e.malloc t live n = some p → Fits live p n
  calloc : ∀ t live num size p, e.calloc t live num size = some p → num * size < 2 ^ 64 ∧ Fits live p (num * size)
  realloc : ∀ t live old n p, e.realloc t live old n = some p → Fits (live.filter (·.1 ≠ old)) p n

/-- What a program does with dynamic memory: xmalloc, xcalloc, xrealloc, xfree, xstrdup, and storing and fetching one byte. -/
inductive MemOp where
  | malloc (n : Nat)
  | calloc (num size : Nat)
  | realloc (p n : Nat)
  | free (p : Nat)
  | strdup (s : Nat)
  | store (a : Nat) (v : UInt8)
  | fetch (a : Nat)

/-- The blocks that exist: address and bytes. -/
structure Blocks where
  blocks : List (Nat × List UInt8)
  time : Nat

/-- Addresses and sizes. -/
def Blocks.live (s : Blocks) : List (Nat × Nat) := s.blocks.map fun b => (b.1, b.2.length)

/-- Address `a` lies in block `b`. -/
def inBlock (a : Nat) (b : Nat × List UInt8) : Bool := b.1 ≤ a && a < b.1 + b.2.length

/-- `n` bytes that nobody has written. -/
def freshBytes (e : Allocator) (t n : Nat) : List UInt8 := (List.range n).map (e.fill t)

/-- What every operation does; the value is the pointer or byte it gives.  No operation touches any block but its own. -/
def memStep (e : Allocator) (s : Blocks) : MemOp → Res (Blocks × Nat)
  | .malloc n =>
    match e.malloc s.time s.live n with
    | none => .fatal
    | some p => .ok ({ blocks := (p, freshBytes e s.time n) :: s.blocks, time := s.time + 1 }, p)
  | .calloc num size =>
    match e.calloc s.time s.live num size with
    | none => .fatal
    | some p => .ok ({ blocks := (p, List.replicate (num * size) 0) :: s.blocks, time := s.time + 1 }, p)
  | .realloc p n =>
    if p = 0 then
      match e.realloc s.time s.live 0 n with
      | none => .fatal
      | some q => .ok ({ blocks := (q, freshBytes e s.time n) :: s.blocks, time := s.time + 1 }, q)
    else
      match s.blocks.find? (·.1 = p) with
      | none => .ub
      | some b =>
        match e.realloc s.time s.live p n with
        | none => .fatal
        | some q => .ok ({ blocks := (q, b.2.take n ++ (freshBytes e s.time n).drop b.2.length) :: s.blocks.filter (·.1 ≠ p), time := s.time + 1 }, q)
  | .free p =>
    if p = 0 then .fatal
    else if s.blocks.any (·.1 = p) then .ok ({ s with blocks := s.blocks.filter (·.1 ≠ p) }, 0) else .ub
  | .strdup a =>
    match s.blocks.find? (inBlock a) with
    | none => .ub
    | some b =>
      if 0 ∈ b.2.drop (a - b.1) then
        let str := (b.2.drop (a - b.1)).takeWhile (· ≠ 0)
        match e.malloc s.time s.live (str.length + 1) with
        | none => .fatal
        | some p => .ok ({ blocks := (p, str ++ [0]) :: s.blocks, time := s.time + 1 }, p)
      else .ub
  | .store a v =>
    if s.blocks.any (inBlock a) then
      .ok ({ s with blocks := s.blocks.map fun b => if inBlock a b then (b.1, b.2.set (a - b.1) v) else b }, 0)
    else .ub
  | .fetch a =>
    match s.blocks.find? (inBlock a) with
    | none => .ub
    | some b => .ok (s, (b.2.getD (a - b.1) 0).toNat)

end Maa.Spec
