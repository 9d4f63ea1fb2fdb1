import Verif.Lemmas.Objects

/-! # Property C22: object pools of maa/memory.c

The pool is created in a memory `h0` that may already hold anything; `junk` is what freshly allocated
memory contains. -/

namespace Maa.Objects

variable {α : Type}

/-- C22: after any history in which users free only objects they hold (`Client.after` is defined), all
objects in use are distinct, non-NULL and allocated; the statistics are the true numbers, `total` being
the largest number of objects ever in use at one time. -/
theorem C22_pool_books (h0 : Heap α) (ok0 : h0.Ok) (zero junk : α × Nat) (size : Int)
    (hist : List Spec.ObjOp) (s : Heap α × Pool) (outs : List Nat) (c : Spec.Client)
    (hr : Spec.run (step zero junk) (h0, create size) hist = .ok (s, outs))
    (hc : Spec.Client.after {} hist outs = some c) :
    c.held.Nodup ∧ (∀ a ∈ c.held, a ≠ 0 ∧ (s.1.mem a).isSome ∧ h0.mem a = none) ∧
    stats s.2 = ((c.peak : Int), (c.held.length : Int), (c.gets : Int) - c.peak, size) ∧
    c.held.length = c.gets - c.frees := by
  have v := run_inv zero junk hist _ s {} c outs (create_inv h0 ok0 size) hr hc
  have hmem : ∀ a ∈ c.held, a ∈ s.2.allocated := fun a ha => v.pool.perm.subset (by simp [ha])
  refine ⟨(List.nodup_append.1 v.pool.nodup').2.1, ?_, ?_, ?_⟩
  · intro a ha
    exact ⟨(v.pool.live a (hmem a ha)).2, (v.pool.live a (hmem a ha)).1, v.above a (hmem a ha)⟩
  · have h1 := v.total
    have h2 := v.reused
    have h3 := v.peak
    have h4 : s.2.size = size := Spec.run_inv (fun s => s.2.size = size) (step zero junk)
      (fun s o s' x h hs => (step_size zero junk s o s' x hs).trans h) (h0, create size) hist rfl s outs hr
    simp only [stats, Prod.mk.injEq]
    refine ⟨by omega, v.used, by omega, h4⟩
  · have := v.books; omega

/-- C22, the next call: it always succeeds (a `free` of an object in use, any `get`), and an object handed
out is one nobody holds, not NULL, allocated, not part of anybody else's memory; `mem_get_empty_object`
hands it out zeroed; the contents of all objects in use are unchanged. -/
theorem C22_next_call (h0 : Heap α) (ok0 : h0.Ok) (zero junk : α × Nat) (size : Int)
    (hist : List Spec.ObjOp) (s : Heap α × Pool) (outs : List Nat) (c : Spec.Client)
    (hr : Spec.run (step zero junk) (h0, create size) hist = .ok (s, outs))
    (hc : Spec.Client.after {} hist outs = some c) (o : Spec.ObjOp)
    (ho : ∀ p, o = .free p → p ∈ c.held) :
    ∃ s' r, step zero junk s o = .ok (s', r) ∧
      ((∀ p, o ≠ .free p) → r ∉ c.held ∧ r ≠ 0 ∧ h0.mem r = none ∧ (s'.1.mem r).isSome) ∧
      (o = .getEmpty → s'.1.mem r = some zero) ∧
      (∀ a ∈ c.held, s'.1.mem a = s.1.mem a) ∧ (∀ a, (h0.mem a).isSome → s'.1.mem a = h0.mem a) := by
  have v := run_inv zero junk hist _ s {} c outs (create_inv h0 ok0 size) hr hc
  obtain ⟨s', r, h1, ⟨⟨c', h2⟩, h3⟩, h4, h5, h6⟩ := step_inv zero junk s c o v (by
    intro r
    cases o <;> simp only [Spec.Client.see] <;> try simp
    rename_i p
    exact ho p rfl)
  exact ⟨s', r, h1, h4, h5, h6, (h3 c' h2).old⟩

/-- C22, end of the pool: after any such history `mem_destroy_objects` frees every object of the pool
exactly once and gives memory as it was before the pool was created. -/
theorem C22_destroy (h0 : Heap α) (ok0 : h0.Ok) (zero junk : α × Nat) (size : Int)
    (hist : List Spec.ObjOp) (s : Heap α × Pool) (outs : List Nat) (c : Spec.Client)
    (hr : Spec.run (step zero junk) (h0, create size) hist = .ok (s, outs))
    (hc : Spec.Client.after {} hist outs = some c) :
    ∃ h', destroy s.1 s.2 = .ok h' ∧ h'.mem = h0.mem := by
  have v := run_inv zero junk hist _ s {} c outs (create_inv h0 ok0 size) hr hc
  obtain ⟨h', h1, -, h3⟩ := destroyLoop_ok s.2.allocated v.pool.nodup (fun a ha => (v.pool.live a ha).1)
  refine ⟨h', h1, ?_⟩
  funext a
  rw [h3 a]
  by_cases hin : a ∈ s.2.allocated
  · rw [if_pos hin, v.above a hin]
  · rw [if_neg hin]
    cases hm : h0.mem a with
    | some c => rw [← hm]; exact v.old a (by rw [hm]; rfl)
    | none =>
      by_contra hn
      exact hin (v.new a hm (Option.isSome_iff_ne_none.2 hn))

/-- Non-vacuity: objects are reused, and the books agree. -/
example : ∃ (s : Heap Nat × Pool) (c : Spec.Client),
    Spec.run (step (0, 0) (77, 0)) (Heap.init, create 16)
      [.get, .getEmpty, .free 1, .get, .get, .free 2] = .ok (s, [1, 2, 0, 1, 3, 0]) ∧
    Spec.Client.after {} [.get, .getEmpty, .free 1, .get, .get, .free 2] [1, 2, 0, 1, 3, 0] = some c ∧
    c.held = [3, 1] ∧ c.peak = 3 ∧ stats s.2 = (3, 2, 1, 16) := by
  refine ⟨_, _, rfl, rfl, ?_, ?_, ?_⟩ <;> decide

end Maa.Objects
