import Verif.Model.Base
import Verif.Model.Tab

/-! # Linked cells in memory

Memory holding cells made of a payload and one `next` pointer, as used by maa/hash.c:37-42,
maa/set.c:42-46, maa/stack.c:38-41 and maa/list.c:43-46.  Reading, writing or freeing an address that
holds no live cell is undefined behaviour.  Which address `xmalloc` (maa/xmalloc.c:30-38) returns is up
to the allocator: `place` is an arbitrary policy, which may hand out an address again once the cell there
has been freed.  The policy of most examples, `neverAgain`, takes every address once, so that every use after
free shows up as `ub` instead of hitting some other cell.  Simplification: `xmalloc` always succeeds (it
ends the program otherwise, see Model/Xmalloc.lean). -/

namespace Maa

/-- The address an allocator picks: a function of the time and of which addresses are live. -/
abbrev Policy := Nat → (Nat → Bool) → Nat

/-- Memory: `mem p` is the live cell at address `p`; `clock` counts the calls of `xmalloc`; `place t f` is
the address the allocator picks at time `t` when the live addresses are those where `f` holds. -/
structure Heap (α : Type) where
  mem : Nat → Option (α × Nat)
  clock : Nat
  place : Policy

namespace Heap
variable {α : Type}

/-- An allocator: the largest free address up to `t`.  Asked at the times 1, 2, 3, ... it hands out the
addresses 1, 2, 3, ... and never one of them twice. -/
def neverAgain : Nat → (Nat → Bool) → Nat
  | 0, _ => 0
  | t + 1, f => if f (t + 1) then neverAgain t f else t + 1

/-- Another one: the smallest free address up to `t`; a freed address is handed out again at once. -/
def atOnce (t : Nat) (f : Nat → Bool) : Nat := (((List.range t).map (· + 1)).find? fun a => !f a).getD 0

/-- Memory at program start: nothing allocated; the `clock` starts at 1. -/
def init (place : Policy := neverAgain) : Heap α :=
  { mem := fun _ => none, clock := 1, place := place }

/-- The address the next `xmalloc` returns. -/
def addr (h : Heap α) : Nat := h.place h.clock fun a => (h.mem a).isSome

/-- `*p`, e.g. maa/hash.c:257 (`pt->key`, `pt->next`). -/
def read (h : Heap α) (p : Nat) : Res (α × Nat) :=
  match h.mem p with
  | some c => .ok c
  | none => .ub

/-- `*p = c` for a live cell, e.g. maa/hash.c:286, 318-319. -/
def write (h : Heap α) (p : Nat) (c : α × Nat) : Res (Heap α) :=
  match h.mem p with
  | some _ => .ok { h with mem := fun a => if a = p then some c else h.mem a }
  | none => .ub

/-- `xmalloc` of a cell and the assignments that fill it, e.g. maa/hash.c:195-202. -/
def alloc (h : Heap α) (c : α × Nat) : Heap α × Nat :=
  ({ h with mem := fun a => if a = h.addr then some c else h.mem a, clock := h.clock + 1 }, h.addr)

/-- `xfree(p)`, e.g. maa/hash.c:288. -/
def free (h : Heap α) (p : Nat) : Res (Heap α) :=
  match h.mem p with
  | some _ => .ok { h with mem := fun a => if a = p then none else h.mem a }
  | none => .ub

/-- What `malloc` promises: it returns an address that is neither `NULL` nor live, at any time `t` at which
fewer than `t` addresses are live (the clock starts at 1, so there are never more). -/
def Allocator (place : Policy) : Prop :=
  ∀ (t : Nat) (f : Nat → Bool) (l : List Nat), (∀ a, f a = true → a ∈ l) → l.length < t →
    f (place t f) = false ∧ place t f ≠ 0

/-- A memory a program can be in: its allocator keeps that promise, nothing is live at `NULL`, and there are
no more live cells than `xmalloc` has been called. -/
structure Ok (h : Heap α) : Prop where
  policy : Allocator h.place
  fin : ∃ l : List Nat, (∀ a, (h.mem a).isSome → a ∈ l) ∧ l.length < h.clock
  null : h.mem 0 = none

end Heap
end Maa
