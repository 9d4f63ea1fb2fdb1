import Verif.Lemmas.Shared
import Verif.Props.Objects
import Verif.Props.StrMem
import Verif.Props.HashHeap

/-! # Property C71: containers in a program that does other things too

`Spec.Shared` (Spec/Shared.lean) lets the rest of the program allocate, write and free anything but the cells of the
container between any two calls.  `theirs a` says that the cell at `a` belongs to the rest of the program. -/

namespace Maa.Objects

variable {α : Type}

/-- An object pool and its users (who may also write anything into its objects) in a program. -/
abbrev InProgram (zero junk : α × Nat) (size : Int) : (Nat → Bool) → Heap α × Pool → Spec.Client → Prop :=
  Spec.Shared (step zero junk) (fun v o r v' => v.see o r = some v') (fun _ _ => True) (create size) {}

theorem InProgram.inv {zero junk : α × Nat} {size : Int} {theirs : Nat → Bool} {s : Heap α × Pool} {c : Spec.Client}
    (w : InProgram zero junk size theirs s c) :
    s.2.size = size ∧ ∃ h0 : Heap α, (∀ a, theirs a = (h0.mem a).isSome) ∧ Inv h0 s c := by
  have := Spec.Shared.inv (fun (h0 : Heap α) (s : Heap α × Pool) (c : Spec.Client) => s.2.size = size ∧ Inv h0 s c) (fun h ok => ⟨rfl, create_inv h ok size⟩)
    (fun h0 s v o s' r v' i h1 h2 => ⟨(step_size zero junk s o s' r h1).trans i.1, by
      have hsee : ∀ r', v.see o r' ≠ none := by
        intro r'
        cases o <;> simp only [Spec.Client.see] at h2 ⊢ <;> try simp
        split at h2
        · assumption
        · simp at h2
      obtain ⟨s1, r1, e1, ⟨-, e2⟩, -⟩ := step_inv zero junk s v o i.2 hsee
      rw [h1] at e1
      simp only [Res.ok.injEq, Prod.mk.injEq] at e1
      rw [← e1.1, ← e1.2] at e2
      exact e2 v' h2⟩)
    (fun h0 s v h' i ok hk => ⟨i.1, i.2.others ok hk⟩) w
  obtain ⟨h0, e, h1, h2⟩ := this
  exact ⟨h1, h0, e, h2⟩

/-- **C71**, object pools: whatever the rest of the program does between the calls, objects in use are distinct,
allocated and not part of anybody else's memory, the statistics are right, every permitted call succeeds, hands out
an object nobody uses (zeroed, if asked for) and changes neither the objects in use nor the memory of the rest of the program,
and `mem_destroy_objects` frees exactly what is not the rest of the program's. -/
theorem C71_objects (zero junk : α × Nat) (size : Int) (theirs : Nat → Bool) (s : Heap α × Pool) (c : Spec.Client)
    (w : InProgram zero junk size theirs s c) :
    c.held.Nodup ∧ (∀ a ∈ c.held, a ≠ 0 ∧ (s.1.mem a).isSome ∧ theirs a = false) ∧
    stats s.2 = ((c.peak : Int), (c.held.length : Int), (c.gets : Int) - c.peak, size) ∧
    (∀ o : Spec.ObjOp, (∀ p, o = .free p → p ∈ c.held) → ∃ s' r c', step zero junk s o = .ok (s', r) ∧
      c.see o r = some c' ∧ InProgram zero junk size theirs s' c' ∧
      ((∀ p, o ≠ .free p) → r ∉ c.held ∧ r ≠ 0 ∧ theirs r = false ∧ (s'.1.mem r).isSome) ∧
      (o = .getEmpty → s'.1.mem r = some zero) ∧ (∀ a, a ∈ c.held ∨ theirs a → s'.1.mem a = s.1.mem a)) ∧
    ∃ h', destroy s.1 s.2 = .ok h' ∧ ∀ a, h'.mem a = if theirs a then s.1.mem a else none := by
  obtain ⟨hz, h0, e, v⟩ := w.inv
  have hmem : ∀ a ∈ c.held, a ∈ s.2.allocated := fun a ha => v.pool.perm.subset (by simp [ha])
  have hth : ∀ a, h0.mem a = none → theirs a = false := fun a ha => by rw [e, ha]; rfl
  refine ⟨(List.nodup_append.1 v.pool.nodup').2.1, ?_, ?_, ?_, ?_⟩
  · intro a ha
    exact ⟨(v.pool.live a (hmem a ha)).2, (v.pool.live a (hmem a ha)).1, hth a (v.above a (hmem a ha))⟩
  · have h1 := v.total
    have h2 := v.reused
    have h3 := v.peak
    simp only [stats, Prod.mk.injEq]
    exact ⟨by omega, v.used, by omega, hz⟩
  · intro o ho
    obtain ⟨s', r, h1, ⟨⟨c', h2⟩, h3⟩, h4, h5, h6⟩ := step_inv zero junk s c o v (by
      intro r
      cases o <;> simp only [Spec.Client.see] <;> try simp
      rename_i p
      exact ho p rfl)
    refine ⟨s', r, c', h1, h2, .call o s' r c' w h1 h2, fun h => ?_, h5, ?_⟩
    · obtain ⟨k1, k2, k3, k4⟩ := h4 h
      exact ⟨k1, k2, hth r k3, k4⟩
    · rintro a (ha | ha)
      · exact h6 a ha
      · rw [e] at ha
        rw [(h3 c' h2).old a ha, v.old a ha]
  · obtain ⟨h', h1, -, h3⟩ := destroyLoop_ok s.2.allocated v.pool.nodup (fun a ha => (v.pool.live a ha).1)
    refine ⟨h', h1, fun a => ?_⟩
    rw [h3 a]
    cases hm : h0.mem a with
    | some x =>
      have ht : theirs a = true := by rw [e, hm]; rfl
      rw [if_neg (fun hin => by rw [v.above a hin] at hm; simp at hm), if_pos ht]
    | none =>
      rw [hth a hm]
      by_cases hin : a ∈ s.2.allocated
      · simp [hin]
      · simp only [hin, if_false, Bool.false_eq_true]
        by_contra hn
        exact hin (v.new a hm (Option.isSome_iff_ne_none.2 hn))

/-- a pool in a program: an object is taken, the rest of the program allocates the next address and writes into
the object, another object is taken -/
example : ∃ (theirs : Nat → Bool) (s : Heap Nat × Pool) (c : Spec.Client),
    InProgram (0, 0) (77, 0) 16 theirs s c ∧ c.held = [3, 1] ∧ theirs 2 = true ∧ s.1.mem 1 = some (5, 5) := by
  have ok1 : (((Heap.init (α := Nat)).alloc (77, 0)).1).Ok := Heap.Ok.init0.alloc _
  have ok2 : (((Heap.init (α := Nat)).alloc (77, 0)).1.alloc (8, 8)).1.Ok := ok1.alloc _
  obtain ⟨h3, e3⟩ : ∃ h3, (((Heap.init (α := Nat)).alloc (77, 0)).1.alloc (8, 8)).1.write 1 (5, 5) = .ok h3 := ⟨_, rfl⟩
  have ok3 := ok2.write e3
  cases e3
  refine ⟨_, _, _, .call .get _ _ _ (.others _ (.call .get _ _ _ (.start Heap.init Heap.Ok.init0) rfl rfl) ok3 ?_) rfl rfl, rfl, rfl, rfl⟩
  intro a c h1 h2
  simp only [getObject, Heap.alloc, Heap.init] at h1 ⊢
  refine ⟨if a = 1 then (5, 5) else if a = 2 then (8, 8) else c, ?_, trivial⟩
  by_cases h3 : a = 1
  · simp [h3]
  · exfalso
    revert h1
    simp [create, Heap.addr, Heap.neverAgain, h3]

/-- Any number of object pools in a program. -/
abbrev ManyInProgram (zero junk : α × Nat) (size : Int) : (Nat → Bool) → Heap α × (Nat → Pool) → (Nat → Spec.Client) → Prop :=
  Spec.Many (step zero junk) (fun v o r v' => v.see o r = some v') (fun _ _ => True) destroy (create size) {}

theorem manyOk (zero junk : α × Nat) (size : Int) :
    Spec.ManyOk (step zero junk) (fun (v : Spec.Client) o r v' => v.see o r = some v') (fun _ _ => True) destroy (create size) {} where
  ok w := by obtain ⟨-, h0, -, v⟩ := InProgram.inv w; exact v.ok
  live w a ha := by
    obtain ⟨-, h0, e, v⟩ := InProgram.inv w
    rw [e] at ha
    rw [v.old a ha]; exact ha
  frame w h1 h2 a ha := by
    rename_i T s v o s' r v'
    obtain ⟨-, -, -, h3, -⟩ := C71_objects zero junk size _ _ _ w
    obtain ⟨s1, r1, v1, e1, -, -, -, -, e2⟩ := h3 o (by
      rintro p rfl
      simp only [Spec.Client.see] at h2
      split at h2
      · assumption
      · simp at h2)
    rw [h1] at e1
    cases e1
    exact e2 a (.inr ha)
  gone w h1 := by
    obtain ⟨-, h0, e, v⟩ := InProgram.inv w
    obtain ⟨-, -, -, -, h', h2, h3⟩ := C71_objects zero junk size _ _ _ w
    rw [h1] at h2
    cases h2
    obtain ⟨h'', k1, k2, k3⟩ := destroyLoop_ok _ v.pool.nodup (fun a ha => (v.pool.live a ha).1)
    rw [show destroyLoop _ _ = _ from h1] at k1
    cases k1
    exact ⟨v.ok.of k2.2 (by rw [k2.1]) (fun a ha => by
      rw [h3] at ha; split at ha
      · exact ha
      · simp at ha), h3⟩
  refl _ := trivial

/-- **C71**, several object pools in one memory: no object is in use twice, neither in one pool nor in two; a call on one pool
succeeds as it would alone and leaves objects in use in other pools, and the rest of the program, alone; destroying a
pool succeeds and leaves those alone; when all pools have been destroyed, nothing is left but what belongs to the rest of
the program. -/
theorem C71_many_objects (zero junk : α × Nat) (size : Int) (outside : Nat → Bool) (σ : Heap α × (Nat → Pool))
    (c : Nat → Spec.Client) (w : ManyInProgram zero junk size outside σ c) :
    (∀ k, (c k).held.Nodup ∧ ∀ a ∈ (c k).held, a ≠ 0 ∧ (σ.1.mem a).isSome ∧ outside a = false) ∧
    (∀ j k a, a ∈ (c j).held → a ∈ (c k).held → j = k) ∧
    (∀ k (o : Spec.ObjOp), (∀ p, o = .free p → p ∈ (c k).held) → ∃ s' r c', step zero junk (σ.1, σ.2 k) o = .ok (s', r) ∧
      (c k).see o r = some c' ∧
      ((∀ p, o ≠ .free p) → r ≠ 0 ∧ (∀ j, r ∉ (c j).held) ∧ outside r = false ∧ (s'.1.mem r).isSome) ∧
      (o = .getEmpty → s'.1.mem r = some zero) ∧
      ∀ a, ((∃ j, a ∈ (c j).held) ∨ outside a) → s'.1.mem a = σ.1.mem a) ∧
    (∀ k, ∃ h', destroy σ.1 (σ.2 k) = .ok h' ∧
      ∀ a, ((∃ j, j ≠ k ∧ a ∈ (c j).held) ∨ outside a) → h'.mem a = σ.1.mem a) ∧
    ((∀ k, σ.2 k = create size) → ∀ a, outside a = false → σ.1.mem a = none) := by
  obtain ⟨hl, T, e1, e2, e3, e4⟩ := Spec.Many.each (manyOk zero junk size) w
  have hown : ∀ k, ∀ a ∈ (c k).held, (σ.1.mem a).isSome ∧ T k a = false := fun k a ha => by
    obtain ⟨-, h1, -⟩ := C71_objects zero junk size _ _ _ (e1 k)
    exact ⟨(h1 a ha).2.1, (h1 a ha).2.2⟩
  have hoth : ∀ j k, j ≠ k → ∀ a ∈ (c j).held, T k a = true := fun j k hjk a ha => by
    obtain ⟨h1, h2⟩ := hown j a ha
    rcases e2 j k a hjk h1 with h3 | h3
    · rw [h2] at h3; simp at h3
    · exact h3
  refine ⟨fun k => ?_, fun j k a h1 h2 => ?_, fun k o ho => ?_, fun k => ?_, fun hz a ha => ?_⟩
  · obtain ⟨h1, h2, -⟩ := C71_objects zero junk size _ _ _ (e1 k)
    refine ⟨h1, fun a ha => ⟨(h2 a ha).1, (h2 a ha).2.1, ?_⟩⟩
    cases ho : outside a with
    | false => rfl
    | true => have := e3 k a ho; rw [(h2 a ha).2.2] at this; simp at this
  · by_contra hjk
    have := hoth j k hjk a h1
    rw [(hown k a h2).2] at this; simp at this
  · obtain ⟨-, -, -, h1, -⟩ := C71_objects zero junk size _ _ _ (e1 k)
    obtain ⟨s', r, c', h2, h3, -, h4, h5, h6⟩ := h1 o ho
    refine ⟨s', r, c', h2, h3, fun hg => ?_, h5, ?_⟩
    · obtain ⟨k1, k2, k3, k4⟩ := h4 hg
      refine ⟨k2, fun j hj => ?_, ?_, k4⟩
      · by_cases hjk : j = k
        · subst hjk; exact k1 hj
        · have := hoth j k hjk r hj
          rw [k3] at this; simp at this
      · cases hq : outside r with
        | false => rfl
        | true => have := e3 k r hq; rw [k3] at this; simp at this
    · rintro a (⟨j, hj⟩ | ha)
      · by_cases hjk : j = k
        · subst hjk; exact h6 a (.inl hj)
        · exact h6 a (.inr (hoth j k hjk a hj))
      · exact h6 a (.inr (e3 k a ha))
  · obtain ⟨-, -, -, -, h', h1, h2⟩ := C71_objects zero junk size _ _ _ (e1 k)
    refine ⟨h', h1, ?_⟩
    rintro a (⟨j, hjk, hj⟩ | ha)
    · rw [h2, if_pos (hoth j k hjk a hj)]
    · rw [h2, if_pos (e3 k a ha)]
  · by_contra hn
    obtain ⟨k, hk⟩ := e4 a (Option.isSome_iff_ne_none.2 hn) ha
    obtain ⟨-, h0, e, v⟩ := InProgram.inv (e1 k)
    rw [e] at hk
    have := v.new a (by simpa using hk) (Option.isSome_iff_ne_none.2 hn)
    rw [hz k] at this
    simp [create] at this

/-- two pools, an object of each in use, and the first pool destroyed -/
example : ∃ (outside : Nat → Bool) (σ : Heap Nat × (Nat → Pool)) (c : Nat → Spec.Client),
    ManyInProgram (0, 0) (77, 0) 16 outside σ c ∧ (c 0).held = [1] ∧ (c 1).held = [2] ∧ σ.1.mem 2 = some (0, 0) :=
  ⟨_, _, _, .call 1 .getEmpty _ _ _ (.call 0 .get _ _ _ (.start Heap.init Heap.Ok.init0) rfl rfl) rfl rfl, rfl, rfl, rfl⟩

end Maa.Objects

namespace Maa.StrMem

open Spec (StrView StrOp)

/-- A string memory in a program; nobody writes into its strings. -/
abbrev InProgram : (Nat → Bool) → Mem × SInfo → StrView → Prop :=
  Spec.Shared step (fun v o r v' => v.see o r = some v') (fun c c' => c' = c) create {}

theorem InProgram.inv {theirs : Nat → Bool} {s : Mem × SInfo} {v : StrView} (w : InProgram theirs s v) :
    ∃ h0 : Mem, (∀ a, theirs a = (h0.mem a).isSome) ∧ Inv h0 s v :=
  Spec.Shared.inv Inv (fun h ok => create_inv h ok)
    (fun h0 s v o s' r v' i h1 h2 => by
      obtain ⟨s1, r1, v1, e1, e2, e3, -⟩ := step_inv i o (see_all (r := r) (by rw [h2]; simp))
      rw [h1] at e1
      simp only [Res.ok.injEq, Prod.mk.injEq] at e1
      rw [← e1.2, h2, Option.some.injEq] at e2
      rw [e1.1, e2]
      exact e3)
    (fun h0 s v h' i ok hk => i.others ok hk) w

/-- **C71**, string memories: whatever the rest of the program does between the calls, all strings handed out stay as
they are, at different addresses and outside anybody else's memory, the statistics are right, every permitted call
succeeds and leaves the memory of the rest of the program alone, and `mem_destroy_strings` frees exactly what is not the rest of
the program's. -/
theorem C71_strings (theirs : Nat → Bool) (s : Mem × SInfo) (v : StrView) (w : InProgram theirs s v) :
    (∀ p b, (p, b) ∈ v.strings → s.1.mem p = some (b, 0) ∧ p ≠ 0 ∧ theirs p = false) ∧ (v.strings.map Prod.fst).Nodup ∧
    stats s.2 = (v.strings.length, (v.strings.map fun p => p.2.length).sum + v.pending.length + v.abandoned) ∧
    (∀ o : StrOp, v.see o 0 ≠ none → ∃ s' p v', step s o = .ok (s', p) ∧ v.see o p = some v' ∧ InProgram theirs s' v' ∧
      ((∀ b n, o ≠ .grow b n) → p ≠ 0 ∧ p ∉ v.strings.map Prod.fst) ∧ (∀ a, theirs a → s'.1.mem a = s.1.mem a)) ∧
    ∃ h', destroy s.1 s.2 = .ok h' ∧ ∀ a, h'.mem a = if theirs a then s.1.mem a else none := by
  obtain ⟨h0, e, i⟩ := w.inv
  have hth : ∀ a, h0.mem a = none → theirs a = false := fun a ha => by rw [e, ha]; rfl
  refine ⟨fun p b hm => ?_, i.nodup, ?_, fun o ho => ?_, ?_⟩
  · obtain ⟨h1, h2⟩ := i.strs _ hm
    exact ⟨h1, by rintro rfl; rw [i.ok.null] at h1; simp at h1, hth _ (i.above _ h2)⟩
  · simp only [stats, i.count, i.bytes, sizes]
  · obtain ⟨s', p, v', h1, h2, h3, h4⟩ := step_inv i o (see_all ho)
    refine ⟨s', p, v', h1, h2, .call o s' p v' w h1 h2, h4, fun a ha => ?_⟩
    rw [e] at ha
    rw [h3.old a ha, i.old a ha]
  · obtain ⟨h', h1, -, h3⟩ := Objects.destroyLoop_ok s.2.allocated i.anodup i.live
    refine ⟨h', h1, fun a => ?_⟩
    rw [h3 a]
    cases hm : h0.mem a with
    | some x =>
      have ht : theirs a = true := by rw [e, hm]; rfl
      rw [if_neg (fun hin => by rw [i.above a hin] at hm; simp at hm), if_pos ht]
    | none =>
      rw [hth a hm]
      by_cases hin : a ∈ s.2.allocated
      · simp [hin]
      · simp only [hin, if_false, Bool.false_eq_true]
        by_contra hn
        exact hin (i.new a hm (Option.isSome_iff_ne_none.2 hn))

/-- a string is copied, the rest of the program allocates, a string is grown around the foreign cell, finished at
another address, and the first string is still there -/
example : ∃ (theirs : Nat → Bool) (s : Mem × SInfo) (v : StrView),
    InProgram theirs s v ∧ v.strings = [(5, [120, 121, 0]), (1, [97, 0])] ∧ s.1.mem 3 = some ([7], 7) ∧ theirs 3 = true := by
  obtain ⟨s1, e1⟩ : ∃ s1, step (Heap.init, create) (.strcpy [97, 0]) = .ok s1 := ⟨_, rfl⟩
  obtain ⟨s2, e2⟩ : ∃ s2, step s1.1 (.grow [120] 1) = .ok s2 := by cases e1; exact ⟨_, rfl⟩
  have w1 : InProgram _ s1.1 _ := .call (.strcpy [97, 0]) s1.1 s1.2 _ (.start Heap.init Heap.Ok.init0) e1 rfl
  have w2 : InProgram _ s2.1 _ := .call (.grow [120] 1) s2.1 s2.2 _ w1 e2 rfl
  have w3 : InProgram _ ((s2.1.1.alloc ([7], 7)).1, s2.1.2) _ := .others _ w2 (by
      obtain ⟨h0, -, i⟩ := w2.inv
      exact i.ok.alloc _) (fun a c h1 _ => ⟨c, by
      obtain ⟨h0, -, i⟩ := w2.inv
      simp only [Heap.alloc]
      rw [if_neg (i.ok.ne (by rw [h1]; rfl))]
      exact h1, rfl⟩)
  cases e1
  cases e2
  exact ⟨_, _, _, .call .finish _ _ _ (.call (.grow [121] 1) _ _ _ w3 rfl rfl) rfl rfl, rfl, rfl, rfl⟩

/-- Any number of string memories in a program. -/
abbrev ManyInProgram : (Nat → Bool) → Mem × (Nat → SInfo) → (Nat → StrView) → Prop :=
  Spec.Many step (fun v o r v' => v.see o r = some v') (fun c c' => c' = c) destroy create {}

theorem manyOk : Spec.ManyOk step (fun (v : StrView) o r v' => v.see o r = some v') (fun c c' => c' = c) destroy create {} where
  ok w := by obtain ⟨h0, -, i⟩ := InProgram.inv w; exact i.ok
  live w a ha := by
    obtain ⟨h0, e, i⟩ := InProgram.inv w
    rw [e] at ha
    rw [i.old a ha]; exact ha
  frame w h1 h2 a ha := by
    rename_i T s v o s' r v'
    obtain ⟨-, -, -, h3, -⟩ := C71_strings _ _ _ w
    obtain ⟨s1, r1, v1, e1, -, -, -, e2⟩ := h3 o (see_all (r := r) (by rw [h2]; simp) 0)
    rw [h1] at e1
    cases e1
    exact e2 a ha
  gone w h1 := by
    obtain ⟨h0, e, i⟩ := InProgram.inv w
    obtain ⟨-, -, -, -, h', h2, h3⟩ := C71_strings _ _ _ w
    rw [h1] at h2
    cases h2
    obtain ⟨h'', k1, k2, k3⟩ := Objects.destroyLoop_ok _ i.anodup i.live
    rw [show Objects.destroyLoop _ _ = _ from h1] at k1
    cases k1
    exact ⟨i.ok.of k2.2 (by rw [k2.1]) (fun a ha => by
      rw [h3] at ha; split at ha
      · exact ha
      · simp at ha), h3⟩
  refl _ := rfl

/-- **C71**, several string memories in one memory: all strings of all memories are there, unchanged and at different
addresses; a call on one memory succeeds as it would alone and leaves the strings of all others, and the rest of the
program, alone; destroying one succeeds and leaves those alone; when all have been destroyed, nothing is left but what
belongs to the rest of the program. -/
theorem C71_many_strings (outside : Nat → Bool) (σ : Mem × (Nat → SInfo)) (v : Nat → StrView)
    (w : ManyInProgram outside σ v) :
    (∀ k p b, (p, b) ∈ (v k).strings → σ.1.mem p = some (b, 0) ∧ p ≠ 0 ∧ outside p = false) ∧
    (∀ k, ((v k).strings.map Prod.fst).Nodup) ∧
    (∀ j k p b c, (p, b) ∈ (v j).strings → (p, c) ∈ (v k).strings → j = k) ∧
    (∀ k (o : StrOp), (v k).see o 0 ≠ none → ∃ s' p v', step (σ.1, σ.2 k) o = .ok (s', p) ∧ (v k).see o p = some v' ∧
      ((∀ b n, o ≠ .grow b n) → p ≠ 0 ∧ ∀ j, p ∉ (v j).strings.map Prod.fst) ∧
      (∀ j q b, (q, b) ∈ (v j).strings → s'.1.mem q = some (b, 0)) ∧ (∀ a, outside a → s'.1.mem a = σ.1.mem a)) ∧
    (∀ k, stats (σ.2 k) =
      ((v k).strings.length, ((v k).strings.map fun p => p.2.length).sum + (v k).pending.length + (v k).abandoned)) ∧
    (∀ k, ∃ h', destroy σ.1 (σ.2 k) = .ok h' ∧ (∀ j q b, j ≠ k → (q, b) ∈ (v j).strings → h'.mem q = some (b, 0)) ∧
      ∀ a, outside a → h'.mem a = σ.1.mem a) ∧
    ((∀ k, σ.2 k = create) → ∀ a, outside a = false → σ.1.mem a = none) := by
  obtain ⟨hl, T, e1, e2, e3, e4⟩ := Spec.Many.each manyOk w
  have hown : ∀ k p b, (p, b) ∈ (v k).strings → σ.1.mem p = some (b, 0) ∧ T k p = false := fun k p b hb => by
    obtain ⟨h1, -⟩ := C71_strings _ _ _ (e1 k)
    exact ⟨(h1 p b hb).1, (h1 p b hb).2.2⟩
  have hoth : ∀ j k, j ≠ k → ∀ p b, (p, b) ∈ (v j).strings → T k p = true := fun j k hjk p b hb => by
    obtain ⟨h1, h2⟩ := hown j p b hb
    rcases e2 j k p hjk (by rw [h1]; rfl) with h3 | h3
    · rw [h2] at h3; simp at h3
    · exact h3
  refine ⟨fun k p b hb => ?_, fun k => ?_, fun j k p b c h1 h2 => ?_, fun k o ho => ?_, fun k => ?_, fun k => ?_, fun hz a ha => ?_⟩
  · obtain ⟨h1, -⟩ := C71_strings _ _ _ (e1 k)
    obtain ⟨h2, h3, h4⟩ := h1 p b hb
    refine ⟨h2, h3, ?_⟩
    cases ho : outside p with
    | false => rfl
    | true => have := e3 k p ho; rw [h4] at this; simp at this
  · exact (C71_strings _ _ _ (e1 k)).2.1
  · by_contra hjk
    have := hoth j k hjk p b h1
    rw [(hown k p c h2).2] at this; simp at this
  · obtain ⟨-, -, -, h1, -⟩ := C71_strings _ _ _ (e1 k)
    obtain ⟨s', p, v', h2, h3, h4, h5, h6⟩ := h1 o ho
    obtain ⟨k1, k2, -⟩ := C71_strings _ _ _ h4
    refine ⟨s', p, v', h2, h3, fun hg => ?_, fun j q b hb => ?_, fun a ha => h6 a (e3 k a ha)⟩
    · obtain ⟨j1, j2⟩ := h5 hg
      refine ⟨j1, fun j hj => ?_⟩
      by_cases hjk : j = k
      · subst hjk; exact j2 hj
      · obtain ⟨⟨q, b⟩, hq, rfl⟩ := List.mem_map.1 hj
        have h7 := hoth j k hjk q b hq
        have h8 : ∃ b', (q, b') ∈ v'.strings := by
          cases o with
          | strcpy b =>
            simp only [StrView.see, Option.map_eq_some_iff] at h3
            obtain ⟨t, -, h3⟩ := h3
            exact ⟨t ++ [0], by rw [← h3]; simp⟩
          | strncpy b n =>
            simp only [StrView.see] at h3
            split at h3 <;> simp at h3
            exact ⟨b.take (n + 1), by rw [← h3]; simp⟩
          | grow b n => exact absurd rfl (hg b n)
          | finish =>
            simp only [StrView.see, Option.some.injEq] at h3
            exact ⟨(v k).pending ++ [0], by rw [← h3]; simp⟩
        obtain ⟨b', hb'⟩ := h8
        rw [(k1 q b' hb').2.2] at h7; simp at h7
    · by_cases hjk : j = k
      · subst hjk
        have hin : (q, b) ∈ v'.strings := by
          cases o with
          | strcpy b =>
            simp only [StrView.see, Option.map_eq_some_iff] at h3
            obtain ⟨t, -, h3⟩ := h3
            rw [← h3]; simp [hb]
          | strncpy b n =>
            simp only [StrView.see] at h3
            split at h3 <;> simp at h3
            rw [← h3]; simp [hb]
          | grow b n =>
            simp only [StrView.see] at h3
            split at h3 <;> simp at h3
            rw [← h3]; exact hb
          | finish =>
            simp only [StrView.see, Option.some.injEq] at h3
            rw [← h3]; simp [hb]
        exact (k1 q b hin).1
      · rw [h6 q (hoth j k hjk q b hb)]; exact (hown j q b hb).1
  · exact (C71_strings _ _ _ (e1 k)).2.2.1
  · obtain ⟨-, -, -, -, h', h1, h2⟩ := C71_strings _ _ _ (e1 k)
    refine ⟨h', h1, fun j q b hjk hb => ?_, fun a ha => by rw [h2, if_pos (e3 k a ha)]⟩
    rw [h2, if_pos (hoth j k hjk q b hb)]; exact (hown j q b hb).1
  · by_contra hn
    obtain ⟨k, hk⟩ := e4 a (Option.isSome_iff_ne_none.2 hn) ha
    obtain ⟨h0, e, i⟩ := InProgram.inv (e1 k)
    rw [e] at hk
    have := i.new a (by simpa using hk) (Option.isSome_iff_ne_none.2 hn)
    rw [hz k] at this
    simp [create] at this

/-- two memories: a string is grown in one while the other copies one -/
example : ∃ (outside : Nat → Bool) (σ : Mem × (Nat → SInfo)) (v : Nat → StrView),
    ManyInProgram outside σ v ∧ (v 0).strings = [(1, [120, 121, 0])] ∧ (v 1).strings = [(2, [97, 0])] := by
  refine ⟨_, _, _, .call 0 .finish _ _ _ (.call 0 (.grow [121] 1) _ _ _ (.call 1 (.strcpy [97, 0]) _ _ _
    (.call 0 (.grow [120] 1) _ _ _ (.start (Heap.init Heap.atOnce) (Heap.Ok.init Heap.atOnce_ok)) rfl rfl) rfl rfl) rfl rfl) rfl rfl, ?_, ?_⟩
  · decide +kernel
  · decide +kernel

end Maa.StrMem

namespace Maa.HashHeap

open Tab (Entry Tab)

variable {K : Type}

/-- A hash table in a program. -/
abbrev InProgram (ops : KeyOps K) (t0 : HTab) : (Nat → Bool) → Heap (Entry K Ptr) × HTab → Spec.MapState K → Prop :=
  Spec.Shared (heapStep ops) (fun m o r m' => Spec.hashStep (eqv ops) m o = .ok (m', r)) (fun c c' => c' = c) t0 {}

theorem InProgram.inv {ops : KeyOps K} (law : ops.Lawful) {t0 : HTab} (hc : hcreate 0 = .ok t0) {theirs : Nat → Bool}
    {s : Heap (Entry K Ptr) × HTab} {m : Spec.MapState K} (w : InProgram ops t0 theirs s m) :
    ∃ h0 : Heap (Entry K Ptr), (∀ a, theirs a = (h0.mem a).isSome) ∧ PSim ops h0 s m :=
  Spec.Shared.inv (PSim ops)
    (fun h ok => by
      obtain ⟨ht, h1, h2⟩ := heap_history law h ok []
      rw [hc] at h1
      cases h1
      exact h2.2)
    (fun h0 s v o s' r v' i h1 h2 => by
      have := heapStep_sim law h0 s v o i
      rw [h1, h2] at this
      exact this.2)
    (fun h0 s v h' i ok hk => by
      obtain ⟨t, A, r, sim, ow⟩ := i
      obtain ⟨r', ow'⟩ := r.others ow ok hk
      exact ⟨t, A, r', sim, ow'⟩) w

/-- **C71**, hash tables: whatever the rest of the program does between the calls, any further calls return what the finite map
of the calls so far returns; each call leaves the memory of the rest of the program alone; and `hsh_destroy` of a table
that is not read-only frees exactly what is not the rest of the program's. -/
theorem C71_hash (ops : KeyOps K) (law : ops.Lawful) (t0 : HTab) (hc : hcreate 0 = .ok t0) (theirs : Nat → Bool)
    (s : Heap (Entry K Ptr) × HTab) (m : Spec.MapState K) (w : InProgram ops t0 theirs s m) :
    (∀ hist : List (Spec.HashOp K),
      Spec.observe (Spec.run (heapStep ops) s hist) = Spec.observe (Spec.run (Spec.hashStep (eqv ops)) m hist)) ∧
    (∀ o s' r, heapStep ops s o = .ok (s', r) → (∃ m', Spec.hashStep (eqv ops) m o = .ok (m', r) ∧ InProgram ops t0 theirs s' m') ∧
      ∀ a, theirs a → s'.1.mem a = s.1.mem a) ∧
    (s.2.readonly = m.readonly) ∧
    (m.readonly = 0 → ∃ h', hdestroy s.1 s.2 = .ok h' ∧ ∀ a, h'.mem a = if theirs a then s.1.mem a else none) := by
  obtain ⟨h0, e, i⟩ := w.inv law hc
  refine ⟨fun hist => (Spec.run_sim (PSim ops h0) _ _ (heapStep_sim law h0) s m hist i).observe, ?_, ?_, ?_⟩
  · intro o s' r h1
    have h2 := heapStep_sim law h0 s m o i
    rw [h1] at h2
    cases h3 : Spec.hashStep (eqv ops) m o <;> rw [h3] at h2 <;> simp only [Spec.ResRel] at h2
    rename_i q
    obtain ⟨h4, h5⟩ := h2
    have h6 : Spec.hashStep (eqv ops) m o = .ok (q.1, r) := by rw [h3, h4]
    refine ⟨⟨q.1, by rw [h4], .call o s' r q.1 w h1 h6⟩, fun a ha => ?_⟩
    rw [e] at ha
    obtain ⟨_, _, _, _, ow⟩ := i
    obtain ⟨_, _, _, _, ow'⟩ := h5
    rw [ow'.old a ha, ow.old a ha]
  · obtain ⟨t, A, r, sim, ow⟩ := i
    exact r.ro.trans sim.ro
  · intro hro
    obtain ⟨t, A, r, sim, ow⟩ := i
    obtain ⟨h', h1, h2, -⟩ := destroy_ok r ow (r.ro.trans (sim.ro.trans hro))
    refine ⟨h', h1, fun a => ?_⟩
    rw [h2, e]
    cases hm : h0.mem a with
    | none => simp
    | some x => simp only [Option.isSome_some, if_true]; rw [ow.old a (by rw [hm]; rfl), hm]

/-- a pair is inserted, the rest of the program allocates a cell, the table grows, a pair is found again -/
example : ∃ (t0 : HTab) (theirs : Nat → Bool) (s : Heap (Entry Nat Ptr) × HTab) (m : Spec.MapState Nat) (p : Nat),
    hcreate 0 = .ok t0 ∧ InProgram Hash.exOps t0 theirs s m ∧ m.map = [(3, 30), (1, 10)] ∧ theirs p = true := by
  obtain ⟨t0, h0, -⟩ := heap_history Hash.exOps_lawful Heap.init Heap.Ok.init0 []
  have w0 : InProgram Hash.exOps t0 _ (Heap.init, t0) {} := .start Heap.init Heap.Ok.init0
  obtain ⟨h1, -⟩ := C71_hash Hash.exOps Hash.exOps_lawful t0 h0 _ _ _ w0
  have h2 := h1 [.insert 1 10]
  have hcall : ∀ (s : Heap (Entry Nat Ptr) × HTab) (m : Spec.MapState Nat) T, InProgram Hash.exOps t0 T s m → ∀ o m' r,
      Spec.hashStep (eqv Hash.exOps) m o = .ok (m', r) → ∃ s', heapStep Hash.exOps s o = .ok (s', r) := by
    intro s m T w o m' r hm
    have := (C71_hash Hash.exOps Hash.exOps_lawful t0 h0 _ _ _ w).1 [o]
    simp only [Spec.run, hm, Res.bind, Spec.observe] at this
    cases hq : heapStep Hash.exOps s o <;> rw [hq] at this <;> simp at this
    rename_i q
    exact ⟨q.1, by rw [← this]⟩
  obtain ⟨s1, e1⟩ := hcall _ _ _ w0 (.insert 1 10) _ _ rfl
  have w1 : InProgram Hash.exOps t0 _ s1 _ := .call (.insert 1 10) s1 _ _ w0 e1 rfl
  obtain ⟨b0, k0, t, A, r, -, ow⟩ := w1.inv Hash.exOps_lawful h0
  have w2 : InProgram Hash.exOps t0 _ ((s1.1.alloc (⟨5, 5, 5⟩, 0)).1, s1.2) _ := .others _ w1 (r.ok.alloc _)
    (fun a c h3 _ => ⟨c, by simp only [Heap.alloc]; rw [if_neg (r.ok.ne (by rw [h3]; rfl))]; exact h3, rfl⟩)
  obtain ⟨s3, e3⟩ := hcall _ _ _ w2 (.insert 3 30) _ _ rfl
  refine ⟨t0, _, s3, _, s1.1.addr, h0, .call (.insert 3 30) s3 _ _ w2 e3 rfl, rfl, ?_⟩
  simp [Heap.alloc, r.ok.addr.1]

/-- Any number of hash tables in a program, with the same comparison. -/
abbrev ManyInProgram (ops : KeyOps K) (t0 : HTab) :
    (Nat → Bool) → Heap (Entry K Ptr) × (Nat → HTab) → (Nat → Spec.MapState K) → Prop :=
  Spec.Many (heapStep ops) (fun m o r m' => Spec.hashStep (eqv ops) m o = .ok (m', r)) (fun c c' => c' = c) hdestroy t0 {}

theorem manyOk {ops : KeyOps K} (law : ops.Lawful) {t0 : HTab} (hc : hcreate 0 = .ok t0) :
    Spec.ManyOk (heapStep ops) (fun (m : Spec.MapState K) o r m' => Spec.hashStep (eqv ops) m o = .ok (m', r))
      (fun c c' => c' = c) hdestroy t0 {} where
  ok w := by obtain ⟨h0, -, t, A, r, -⟩ := InProgram.inv law hc w; exact r.ok
  live w a ha := by
    obtain ⟨h0, e, t, A, -, -, ow⟩ := InProgram.inv law hc w
    rw [e] at ha
    rw [ow.old a ha]; exact ha
  frame w h1 _ a ha := ((C71_hash ops law t0 hc _ _ _ w).2.1 _ _ _ h1).2 a ha
  gone w h1 := by
    rename_i T s v h'
    have hro : s.2.readonly = 0 := by
      by_contra hn
      simp [hdestroy, hn] at h1
    obtain ⟨-, -, h2, h3⟩ := C71_hash ops law t0 hc _ _ _ w
    obtain ⟨h'', k1, k2⟩ := h3 (by rw [← h2]; exact hro)
    rw [h1] at k1
    cases k1
    obtain ⟨h0, e, t, A, r, -, ow⟩ := InProgram.inv law hc w
    obtain ⟨h'', k3, -, k4⟩ := destroy_ok r ow hro
    rw [h1] at k3
    cases k3
    exact ⟨k4, k2⟩
  refl _ := rfl

/-- **C71**, several hash tables in one memory, in a program that does other things too: at any time each of them answers any
further calls as its own map, whatever was done to the others. -/
theorem C71_many_hash (ops : KeyOps K) (law : ops.Lawful) (t0 : HTab) (hc : hcreate 0 = .ok t0) (outside : Nat → Bool)
    (σ : Heap (Entry K Ptr) × (Nat → HTab)) (m : Nat → Spec.MapState K) (w : ManyInProgram ops t0 outside σ m) :
    (∀ k (hist : List (Spec.HashOp K)), Spec.observe (Spec.run (heapStep ops) (σ.1, σ.2 k) hist) =
      Spec.observe (Spec.run (Spec.hashStep (eqv ops)) (m k) hist)) ∧
    (∀ k o s' r, heapStep ops (σ.1, σ.2 k) o = .ok (s', r) → ∀ a, outside a → s'.1.mem a = σ.1.mem a) ∧
    (∀ k, (m k).readonly = 0 → ∃ h', hdestroy σ.1 (σ.2 k) = .ok h' ∧ ∀ a, outside a → h'.mem a = σ.1.mem a) ∧
    ((∀ k, σ.2 k = t0) → ∀ a, outside a = false → σ.1.mem a = none) := by
  obtain ⟨hl, T, e1, e2, e3, e4⟩ := Spec.Many.each (manyOk law hc) w
  refine ⟨fun k hist => (C71_hash ops law t0 hc _ _ _ (e1 k)).1 hist, fun k o s' r h1 a ha => ?_, fun k hro => ?_, fun hz a ha => ?_⟩
  · exact ((C71_hash ops law t0 hc _ _ _ (e1 k)).2.1 o s' r h1).2 a (e3 k a ha)
  · obtain ⟨h', h1, h2⟩ := (C71_hash ops law t0 hc _ _ _ (e1 k)).2.2.2 hro
    exact ⟨h', h1, fun a ha => by rw [h2, if_pos (e3 k a ha)]⟩
  · by_contra hn
    obtain ⟨k, hk⟩ := e4 a (Option.isSome_iff_ne_none.2 hn) ha
    obtain ⟨h0, e, t, A, r, sim, ow⟩ := InProgram.inv law hc (e1 k)
    rw [e] at hk
    obtain ⟨i, hi, hin⟩ := (ow.live a (by simpa using hk)).1 (Option.isSome_iff_ne_none.2 hn)
    have hch := r.chain i hi
    simp only [hz k] at hch
    have hb : t0.buckets i = 0 := by
      unfold hcreate at hc
      split at hc
      · simp at hc
      · cases hc; rfl
    rw [hb] at hch
    cases hA : A i with
    | nil => rw [hA] at hin; simp [addrs] at hin
    | cons x xs =>
      rw [hA] at hch
      obtain ⟨h5, h6, -⟩ := hch
      exact h6 h5.symm

end Maa.HashHeap
