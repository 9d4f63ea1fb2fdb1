import Verif.Model.Heap

/-! # A container in a program that does other things too

The container (an object pool, a string memory, a hash table, a set) and the rest of the program share one
memory.  Between two calls on the container the rest of the program may run for any time: it may allocate,
write and free whatever it likes, as long as it leaves alone the live cells that it did not allocate itself.
`theirs a` says that the cell at `a` belongs to the rest of the program: it was live before the container was
created, or it became live while the rest of the program was running. -/

namespace Maa.Spec

variable {α I Op R V : Type}

/-- `Shared … theirs s v`: the container can be in state `s.2`, with memory `s.1`, when its users know `v`.

* `step` is one call, `see v o r v'` says that users who knew `v` and got `r` from the call `o` then know `v'`;
* `start`: it is created, in any memory;
* `call`: a call on it that returns;
* `others`: the rest of the program runs and leaves memory `h'` behind.  `keeps c c'` says what the rest of the
  program may do to the contents of the container's cells. -/
inductive Shared (step : Heap α × I → Op → Res ((Heap α × I) × R)) (see : V → Op → R → V → Prop)
    (keeps : α × Nat → α × Nat → Prop) (i0 : I) (v0 : V) : (Nat → Bool) → Heap α × I → V → Prop
  | start (h : Heap α) : h.Ok → Shared step see keeps i0 v0 (fun a => (h.mem a).isSome) (h, i0) v0
  | call {theirs s v} (o : Op) (s' : Heap α × I) (r : R) (v' : V) : Shared step see keeps i0 v0 theirs s v →
      step s o = .ok (s', r) → see v o r v' → Shared step see keeps i0 v0 theirs s' v'
  | others {theirs s v} (h' : Heap α) : Shared step see keeps i0 v0 theirs s v → h'.Ok →
      (∀ a c, s.1.mem a = some c → theirs a = false → ∃ c', h'.mem a = some c' ∧ keeps c c') →
      Shared step see keeps i0 v0 (fun a => (h'.mem a).isSome && (theirs a || (s.1.mem a).isNone)) (h', s.2) v

end Maa.Spec

namespace Maa.Spec

variable {α I Op R V : Type}

/-- Any number of containers of one kind, numbered, in a program: all share one memory, calls on them come in any order and
interleaved with whatever the rest of the program does.  A container that is destroyed makes room for a new one
of the same number.  `outside a`: the cell at `a` belongs to the rest of the program. -/
inductive Many (step : Heap α × I → Op → Res ((Heap α × I) × R)) (see : V → Op → R → V → Prop)
    (keeps : α × Nat → α × Nat → Prop) (destroy : Heap α → I → Res (Heap α)) (i0 : I) (v0 : V) :
    (Nat → Bool) → Heap α × (Nat → I) → (Nat → V) → Prop
  | start (h : Heap α) : h.Ok →
      Many step see keeps destroy i0 v0 (fun a => (h.mem a).isSome) (h, fun _ => i0) (fun _ => v0)
  | call {outside σ v} (k : Nat) (o : Op) (s' : Heap α × I) (r : R) (v' : V) :
      Many step see keeps destroy i0 v0 outside σ v → step (σ.1, σ.2 k) o = .ok (s', r) → see (v k) o r v' →
      Many step see keeps destroy i0 v0 outside (s'.1, fun j => if j = k then s'.2 else σ.2 j) (fun j => if j = k then v' else v j)
  | destroy {outside σ v} (k : Nat) (h' : Heap α) :
      Many step see keeps destroy i0 v0 outside σ v → destroy σ.1 (σ.2 k) = .ok h' →
      Many step see keeps destroy i0 v0 outside (h', fun j => if j = k then i0 else σ.2 j) (fun j => if j = k then v0 else v j)
  | others {outside σ v} (h' : Heap α) :
      Many step see keeps destroy i0 v0 outside σ v → h'.Ok →
      (∀ a c, σ.1.mem a = some c → outside a = false → ∃ c', h'.mem a = some c' ∧ keeps c c') →
      Many step see keeps destroy i0 v0 (fun a => (h'.mem a).isSome && (outside a || (σ.1.mem a).isNone)) (h', σ.2) v

end Maa.Spec
