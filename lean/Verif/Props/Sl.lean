import Verif.Lemmas.SlInv

/-! # Properties C38, C39, C40: skip lists, maa/sl.c -/

namespace Maa.Sl

open Spec (SlOp Coll Colls TotalOrder run observe SlCallback ResRel)

theorem runs_sim {place : Policy} (hp : Maa.Heap.Allocator place) (ops : List SlOp) (h : ∀ o ∈ ops, o.Ok) :
    ResRel (fun a b => a.2 = b.2 ∧ ∃ N, Inv a.1 b.1 N) (run step (State.init place) ops) (run Colls.step Colls.empty ops) :=
  Spec.run_sim_of SlOp.Ok (fun σ S => ∃ N, Inv σ S N) step Colls.step (fun _ _ o ho ⟨_, I⟩ => step_sim I o ho) _ _ ops h ⟨_, inv_init hp⟩

/-- **C38** For every history of `sl_create`, `sl_insert`, `sl_delete`, `sl_find` and `sl_destroy` on any number of lists with any
total orders, and whatever `random()` returns, the calls return, and end the program, exactly as specified for collections
of data with an order: inserting a key that is present and deleting one that is not abort, nothing else does. -/
theorem C38_ordered_map (place : Policy) (hp : Maa.Heap.Allocator place)
    (ops : List SlOp) (h : ∀ o ∈ ops, o.Ok) :
    observe (run step (State.init place) ops) = observe (run Colls.step Colls.empty ops) :=
  Spec.ResRel.observe (R := fun σ S => ∃ N, Inv σ S N) (runs_sim hp ops h)

/-- numbers as keys of themselves, in the usual order -/
def byNumber : SlOp := .create (some fun a b => (a : Int) - b) (some id)

theorem byNumber_ok : byNumber.Ok := ⟨fun a b => by omega, fun a b c => by omega⟩

/-- a history with three levels of entries -/
def sample : List SlOp :=
  [byNumber, .insert 1 50 fun _ => 0, .insert 1 20 fun _ => 0x80, .insert 1 70 fun k => if k < 2 then 0x80 else 0, .insert 1 60 fun _ => 0x80,
   .find 1 60, .find 1 55, .delete 1 50, .find 1 50, .find 1 70, .delete 1 60, .find 1 20]

example : observe (run step State.init sample) = .ok [1, 0, 0, 0, 0, 60, 0, 0, 0, 70, 0, 20] := by decide +kernel
-- an allocator that hands out a freed entry again at once: the entry of 60 is reused for 65, and 70 is still found behind it
example : observe (run step (State.init Maa.Heap.atOnce) (sample ++ [.insert 1 65 fun _ => 0, .find 1 65, .find 1 70, .find 1 60])) =
    .ok [1, 0, 0, 0, 0, 60, 0, 0, 0, 70, 0, 20, 0, 65, 70, 0] := by decide +kernel
example : ∀ o ∈ sample, o.Ok := by
  intro o ho
  simp only [sample, List.mem_cons, List.not_mem_nil, or_false] at ho
  rcases ho with rfl | rfl | rfl | rfl | rfl | rfl | rfl | rfl | rfl | rfl | rfl | rfl
  · exact byNumber_ok
  all_goals trivial
example : observe (run step State.init [byNumber, .insert 1 5 fun _ => 0, .insert 1 5 fun _ => 0]) = .abort := by decide +kernel
example : observe (run step State.init [byNumber, .delete 1 5]) = .abort := by decide +kernel

/-- **C38** Read on the specification: a datum is found exactly when it was inserted and not deleted since.  After any history in
which list `l` exists, `sl_find (l, k)` returns a datum of the collection whose key compares equal to `k`, or NULL if there
is none. -/
theorem C38_find (place : Policy) (hp : Maa.Heap.Allocator place)
    (ops : List SlOp) (h : ∀ o ∈ ops, o.Ok) (σ : State) (S : Colls) (xs ys : List Nat) (l k : Nat) (c : Coll)
    (h1 : run step (State.init place) ops = .ok (σ, xs)) (h2 : run Colls.step Colls.empty ops = .ok (S, ys)) (hc : S.colls l = some c) :
    ∃ d, find σ l k = .ok d ∧
      ((d ∈ c.data ∧ c.cmp (c.key d) k = 0) ∨ (d = 0 ∧ ∀ e ∈ c.data, c.cmp (c.key e) k ≠ 0)) := by
  have hs := runs_sim hp ops h
  rw [h1, h2] at hs
  obtain ⟨_, N, I⟩ := hs
  have hl : l ≠ 0 := by
    rintro rfl
    cases hl : σ.lists 0 with
    | none => rw [I.none' 0 hl] at hc; simp at hc
    | some s => exact absurd (I.small 0 s hl).1 (by omega)
  have := step_sim I (.find l k) trivial
  simp only [step, Colls.step, Colls.on] at this
  rw [if_neg hl, hc] at this
  cases hf : find σ l k with
  | ok d =>
    rw [hf] at this
    simp only [Res.bind, ResRel] at this
    refine ⟨d, rfl, ?_⟩
    rw [this.1]
    unfold Coll.lookup
    cases hq : c.data.find? (fun d => decide (c.cmp (c.key d) k = 0)) with
    | none =>
      right
      rw [List.find?_eq_none] at hq
      exact ⟨rfl, fun e he => by simpa using hq e he⟩
    | some d' =>
      left
      exact ⟨List.mem_of_find?_eq_some hq, by simpa using List.find?_some hq⟩
  | abort => rw [hf] at this; simp [Res.bind, ResRel] at this
  | fatal => rw [hf] at this; simp [Res.bind, ResRel] at this
  | ub => rw [hf] at this; simp [Res.bind, ResRel] at this

/-- **C39** After any history, `sl_iterate` on an existing list calls `f` on a fixed arrangement of the data the list has at
that moment, in strictly increasing order of keys, until `f` returns non-zero, which is then the result: whatever calls on
this list or others `f` makes (even destroying the list), and whatever calls follow. -/
theorem C39_iterate {X : Type} (place : Policy) (hp : Maa.Heap.Allocator place)
    (ops : List SlOp) (h : ∀ o ∈ ops, o.Ok) (σ : State) (S : Colls) (xs ys : List Nat) (l : Nat) (c : Coll)
    (h1 : run step (State.init place) ops = .ok (σ, xs)) (h2 : run Colls.step Colls.empty ops = .ok (S, ys)) (hc : S.colls l = some c) :
    ∃ vs : List Nat, vs.Perm c.data ∧ vs.Pairwise (fun a b => c.cmp (c.key a) (c.key b) < 0) ∧
      ∀ (f : SlCallback X), (∀ x d, ∀ o ∈ (f x d).1, o.Ok) → ∀ (x : X) (later : List SlOp), (∀ o ∈ later, o.Ok) →
        ((iterate σ l f x).bind fun r => (observe (run step r.1 later)).bind fun zs => Res.ok (r.2, zs)) =
        ((Colls.visit f S x vs).bind fun r => (observe (run Colls.step r.1 later)).bind fun zs => Res.ok (r.2, zs)) := by
  have hs := runs_sim hp ops h
  rw [h1, h2] at hs
  obtain ⟨_, N, I⟩ := hs
  cases hl : σ.lists l with
  | none => rw [I.none' l hl] at hc; simp at hc
  | some s =>
    obtain ⟨c', hc', m1, m2, m3, m4, m5⟩ := I.mat l s hl
    rw [hc, Option.some.injEq] at hc'
    subst hc'
    refine ⟨(N l).map Node.datum, m4.symm, ?_, ?_⟩
    · rw [List.pairwise_map, ← m1, ← m2]
      exact m5
    · intro f hf x later hlater
      have hsim := iterate_sim I f hf x hl
      cases ha : iterate σ l f x <;> cases hb : Colls.visit f S x ((N l).map Node.datum) <;> rw [ha, hb] at hsim <;> simp only [ResRel] at hsim
      · rename_i a b
        obtain ⟨e1, e2⟩ := hsim
        have hr := Spec.ResRel.observe (R := fun σ S => ∃ N, Inv σ S N) (Spec.run_sim_of SlOp.Ok (fun σ S => ∃ N, Inv σ S N) step Colls.step
          (fun _ _ o ho ⟨_, I⟩ => step_sim I o ho) a.1 b.1 later hlater e2)
        rw [okBind, okBind, hr, e1]
      · rfl
      · rfl
      · rfl

/-- the callback of the next example deletes the datum 20 and inserts 25 when it sees 10, and stops at 70 -/
def busy : SlCallback Unit := fun _ d =>
  if d = 10 then ([.delete 1 20, .insert 1 25 fun _ => 0x80], (), 0) else ([], (), if d = 70 then 7 else 0)

example : (match run step State.init [byNumber, .insert 1 50 fun _ => 0, .insert 1 20 fun _ => 0x80, .insert 1 10 fun _ => 0x80, .insert 1 70 fun _ => 0,
      .insert 1 90 fun _ => 0] with
    | .ok (σ, _) => (iterate σ 1 busy ()).bind fun r => .ok (r.2.2.1, r.2.2.2)
    | _ => .ub) = .ok (7, [10, 20, 50, 70]) := by decide +kernel

/-- **C39** `sl_iterate (NULL, f)` returns 0 and calls nothing. -/
theorem C39_null {X : Type} (σ : State) (f : SlCallback X) (x : X) : iterate σ 0 f x = .ok (σ, x, 0, []) := rfl

/-- **C39** `sl_iterate_arg` behaves as `sl_iterate` with the argument passed on. -/
theorem C39_iterate_arg {A X : Type} (σ : State) (l : Nat) (f : A → SlCallback X) (arg : A) (x : X) :
    iterateArg σ l f arg x = iterate σ l (f arg) x := rfl

/-- **C40** No history that uses existing lists only ever reads a forward pointer that was not written or lies outside its entry, reads an
element of `update` that was not written or lies outside it, touches freed memory, or writes outside the buffer of an
iteration. -/
theorem C40_no_undefined_behaviour (place : Policy) (hp : Maa.Heap.Allocator place)
    (ops : List SlOp) (h : ∀ o ∈ ops, o.Ok) (hu : observe (run Colls.step Colls.empty ops) ≠ .ub) :
    observe (run step (State.init place) ops) ≠ .ub := by
  rw [C38_ordered_map place hp ops h]; exact hu

example : observe (run Colls.step Colls.empty sample) ≠ .ub := by decide +kernel

/-- **C40** After every history: the level of a list is at most 16, its count is the number of its data, and every live entry
belongs to exactly one existing list and is its head or one of its data. -/
theorem C40_bookkeeping (place : Policy) (hp : Maa.Heap.Allocator place)
    (ops : List SlOp) (h : ∀ o ∈ ops, o.Ok) (σ : State) (S : Colls) (xs ys : List Nat)
    (h1 : run step (State.init place) ops = .ok (σ, xs)) (h2 : run Colls.step Colls.empty ops = .ok (S, ys)) :
    (∀ l s, σ.lists l = some s → s.level ≤ 16 ∧ ∃ c, S.colls l = some c ∧ s.count = c.data.length) ∧
    ∃ owned : Nat → List Nat, (∀ p, σ.heap.mem p ≠ none ↔ ∃ l s, σ.lists l = some s ∧ p ∈ owned l) ∧
      (∀ l l' p, l ≠ l' → (σ.lists l).isSome → (σ.lists l').isSome → p ∈ owned l → p ∉ owned l') ∧
      ∀ l s c, σ.lists l = some s → S.colls l = some c → (owned l).Nodup ∧ (owned l).length = c.data.length + 1 := by
  have hs := runs_sim hp ops h
  rw [h1, h2] at hs
  obtain ⟨_, N, I⟩ := hs
  refine ⟨?_, fun l => match σ.lists l with | none => [] | some s => ids (hd s :: N l), ?_, ?_, ?_⟩
  · intro l s hl
    have r := I.rep l s hl
    obtain ⟨c, hc, m1, m2, m3, m4, m5⟩ := I.mat l s hl
    refine ⟨r.top, c, hc, ?_⟩
    rw [r.size, m4.length_eq]; simp
  · intro p
    constructor
    · intro hp
      obtain ⟨l, s, hl, hm⟩ := I.own p hp
      have hl' : σ.lists l = some s := hl
      exact ⟨l, s, hl, by simp only [hl']; exact hm⟩
    · rintro ⟨l, s, hl, hm⟩
      simp only [hl] at hm
      unfold ids at hm
      obtain ⟨n, hn, rfl⟩ := List.mem_map.1 hm
      obtain ⟨e, he⟩ := (I.rep l s hl).linked.live hn
      rw [he]; simp
  · intro l l' p hll hl hl' hp
    obtain ⟨s, hl⟩ := Option.isSome_iff_exists.1 hl
    obtain ⟨s', hl'⟩ := Option.isSome_iff_exists.1 hl'
    simp only [hl, hl'] at hp ⊢
    exact I.disj l l' s s' hll hl hl' p hp
  · intro l s c hl hc
    obtain ⟨c', hc', m1, m2, m3, m4, m5⟩ := I.mat l s hl
    rw [hc, Option.some.injEq] at hc'
    subst hc'
    simp only [hl]
    refine ⟨(I.rep l s hl).nodup, ?_⟩
    rw [m4.length_eq]
    simp [ids]

/-- **C40** `sl_destroy` frees all entries: when every list has been destroyed, no entry is left. -/
theorem C40_no_leak (place : Policy) (hp : Maa.Heap.Allocator place)
    (ops : List SlOp) (h : ∀ o ∈ ops, o.Ok) (σ : State) (xs : List Nat) (h1 : run step (State.init place) ops = .ok (σ, xs))
    (hd : ∀ l, σ.lists l = none) (p : Nat) : σ.heap.mem p = none := by
  have hs := runs_sim hp ops h
  rw [h1] at hs
  cases h2 : run Colls.step Colls.empty ops with
  | ok b =>
    rw [h2] at hs
    obtain ⟨_, N, I⟩ := hs
    by_contra hp
    obtain ⟨l, s, hl, _⟩ := I.own p hp
    rw [hd l] at hl
    simp at hl
  | abort => rw [h2] at hs; simp [ResRel] at hs
  | fatal => rw [h2] at hs; simp [ResRel] at hs
  | ub => rw [h2] at hs; simp [ResRel] at hs

example : observe (run step State.init (sample ++ [.destroy 1])) = .ok [1, 0, 0, 0, 0, 60, 0, 0, 0, 70, 0, 20, 0] := by decide +kernel

/-- **C40** The level chosen for an entry is between 1 and 16, whatever `random()` returns. -/
theorem C40_random_level (rnd : Nat → Nat) : 1 ≤ randomLevel rnd ∧ randomLevel rnd ≤ 16 := randomLevel_range rnd

example : randomLevel (fun _ => 0x80) = 16 ∧ randomLevel (fun _ => 0x7f) = 1 := by decide +kernel

end Maa.Sl
