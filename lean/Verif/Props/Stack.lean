import Verif.Lemmas.Stack

/-! # Property C17: maa/stack.c -/

namespace Maa.Stack

theorem init_rep {place : Policy} (hp : Heap.Allocator place) : ∃ A, Rep (State.init place) Spec.Stacks.empty A :=
  ⟨fun _ => [], Heap.Ok.init hp, rfl, fun _ => by simp [State.init, Spec.Stacks.empty],
    fun i p h => by simp [State.init] at h, fun i l h => by simp [Spec.Stacks.empty] at h,
    fun i j _ h => by simp [State.init] at h,
    fun a h => by simp [State.init, Heap.init] at h, fun _ _ => rfl⟩

/-- C17: for every history of calls on any number of stacks, every returned value is that of independent
LIFO sequences (Spec/Stack.lean), whatever addresses the allocator chooses; the only undefined behaviour is using a stack that does not exist. -/
theorem C17_stacks_are_lifo (place : Policy) (hp : Heap.Allocator place) (hist : List Spec.StackOp) :
    Spec.observe (Spec.run step (State.init place) hist) =
      Spec.observe (Spec.run Spec.stackStep Spec.Stacks.empty hist) :=
  Spec.ResRel.observe (R := fun σ s => ∃ A, Rep σ s A)
    (Spec.run_sim (fun σ s => ∃ A, Rep σ s A) _ _ step_rep _ _ hist (init_rep hp))

/-- C17, memory: when, after any history, every stack has been destroyed or emptied, no cell is left
allocated. -/
theorem C17_no_leak (place : Policy) (hp : Heap.Allocator place) (hist : List Spec.StackOp) (σ : State) (s : Spec.Stacks) (outs outs' : List Int)
    (h1 : Spec.run step (State.init place) hist = .ok (σ, outs))
    (h2 : Spec.run Spec.stackStep Spec.Stacks.empty hist = .ok (s, outs'))
    (hempty : ∀ i l, s.stk i = some l → l = []) (a : Nat) : σ.heap.mem a = none := by
  have h := Spec.run_sim (fun σ s => ∃ A, Rep σ s A) _ _ step_rep _ _ hist (init_rep hp)
  rw [h1, h2] at h
  obtain ⟨-, A, r⟩ := h
  by_contra hn
  obtain ⟨i, h3, h4⟩ := r.live a (Option.isSome_iff_ne_none.2 hn)
  cases hs : s.stk i with
  | none => exact h3 ((r.dom i).2 hs)
  | some l =>
    have := r.vals i l hs
    rw [hempty i l hs] at this
    simp only [List.map_eq_nil_iff] at this
    rw [this] at h4; simp at h4

/-- What the sequences of C17 mean: `pop` after `push` gives the datum back and restores the stack, and
`isempty` is 1 exactly for the empty stack. -/
theorem C17_push_pop (s : Spec.Stacks) (i d : Nat) (l : List Nat) (h : s.stk i = some l) :
    Spec.run Spec.stackStep s [.push i d, .top i, .isempty i, .pop i] =
      .ok (s, [0, (d : Int), 0, (d : Int)]) := by
  have : ((s.set i (some (d :: l))).set i (some l)) = s := by
    cases s with
    | mk f n =>
      simp only [Spec.Stacks.set, Spec.Stacks.mk.injEq, and_true]
      funext j
      by_cases hj : j = i
      · simp only [hj, if_true]; exact h.symm
      · simp [hj]
  simp [Spec.run, Spec.stackStep, Spec.Stacks.get, h, Res.bind, Spec.Stacks.set]
  cases s with
  | mk f n =>
    simp only [Spec.Stacks.mk.injEq, and_true]
    funext j
    split
    · rename_i hj; rw [hj]; exact h.symm
    · rfl

/-- Non-vacuity: two interleaved stacks. -/
example : Spec.observe (Spec.run step State.init
    [.create, .create, .push 0 5, .push 1 6, .push 0 7, .pop 0, .top 0, .pop 0, .pop 0, .isempty 0,
     .isempty 1, .pop 1, .destroy 0, .destroy 1]) =
    .ok [0, 1, 0, 0, 0, 7, 5, 5, 0, 1, 0, 6, 0, 0] := by
  rw [C17_stacks_are_lifo _ Heap.neverAgain_ok]; rfl

/-- Non-vacuity: an allocator that hands out the address freed last.  The cell of the second `push` is the cell
of the first. -/
example : Heap.Allocator Heap.atOnce ∧ ∃ σ, Spec.run step (State.init Heap.atOnce)
    [.create, .push 0 5, .pop 0, .push 0 6, .pop 0] = .ok (σ, [0, 0, 5, 0, 6]) ∧
    (Spec.run step (State.init Heap.atOnce) [.create, .push 0 5]).bind (fun r => .ok (r.1.stk 0)) =
      (Spec.run step (State.init Heap.atOnce) [.create, .push 0 5, .pop 0, .push 0 6]).bind (fun r => .ok (r.1.stk 0)) :=
  ⟨Heap.atOnce_ok, _, rfl, rfl⟩

end Maa.Stack
