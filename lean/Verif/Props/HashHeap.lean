import Verif.Lemmas.HashPos
import Verif.Props.Hash

/-! # Properties C05, C08, C09, C13, C16 at pointer level: maa/hash.c and maa/set.c

`Heap` is memory made of linked cells (Model/Heap.lean); using a cell that is not allocated is `ub`.
The table is created in an arbitrary memory `h0` that may hold anything else. -/

namespace Maa.HashHeap

open Tab (Entry Tab)
open Hash (exOps exOps_lawful)

variable {K : Type}

/-- C05 at pointer level: with real linked chains, unlinking, move-to-front and copying on growth, every
history returns what a plain finite map returns; in particular it never runs into undefined behaviour
(no use after free, no lost or circular chain). -/
theorem C05_pointers (ops : KeyOps K) (law : ops.Lawful) (h0 : Heap (Entry K Ptr)) (ok0 : h0.Ok)
    (hist : List (Spec.HashOp K)) :
    ((hcreate 0).bind fun t => Spec.observe (Spec.run (heapStep ops) (h0, t) hist)) =
      Spec.observe (Spec.run (Spec.hashStep (eqv ops)) {} hist) := by
  obtain ⟨ht, h1, h2⟩ := heap_history law h0 ok0 hist
  rw [h1]
  exact h2.observe

/-- C05, memory: a table never touches memory it did not allocate, and destroying it after any history
(with the read-only flag off) gives memory exactly as it was before the table was created: no leak, no
double free. -/
theorem C05_pointers_memory (ops : KeyOps K) (law : ops.Lawful) (h0 : Heap (Entry K Ptr)) (ok0 : h0.Ok)
    (hist : List (Spec.HashOp K)) (t0 t : HTab) (h : Heap (Entry K Ptr)) (outs : List Spec.Ret)
    (hc : hcreate 0 = .ok t0) (hr : Spec.run (heapStep ops) (h0, t0) hist = .ok ((h, t), outs)) :
    (∀ a, (h0.mem a).isSome → h.mem a = h0.mem a) ∧
    (t.readonly ≠ 0 → hdestroy h t = .abort) ∧
    (t.readonly = 0 → ∃ h', hdestroy h t = .ok h' ∧ h'.mem = h0.mem) := by
  obtain ⟨ht, h1, h2⟩ := heap_history law h0 ok0 hist
  rw [hc] at h1
  cases h1
  rw [hr] at h2
  cases ha : Spec.run (Spec.hashStep (eqv ops)) {} hist <;> rw [ha] at h2 <;> simp only [Spec.ResRel] at h2
  obtain ⟨-, t', A, r, -, ow⟩ := h2
  exact ⟨ow.old, fun hro => by simp [hdestroy, hro], fun hro => by
    obtain ⟨h', h1, h2, -⟩ := destroy_ok r ow hro
    exact ⟨h', h1, h2⟩⟩

/-- C08: after any history on a fresh table, `HSH_ITERATE` visits each pair of the map exactly once
(`log` is a permutation of the map), whatever lookups the body makes; the read-only flag is set at
every visit; afterwards the table still holds the same map and, unless it was empty, is writable.
`rounds` only bounds the loop of the model: any number larger than the number of entries will do, so
the loop ends after exactly that many visits. -/
theorem C08_position_iteration (ops : KeyOps K) (law : ops.Lawful) (h0 : Heap (Entry K Ptr)) (ok0 : h0.Ok)
    (hist : List (Spec.HashOp K)) (t0 t : HTab) (h : Heap (Entry K Ptr)) (outs : List Spec.Ret)
    (m : Spec.MapState K) (hc : hcreate 0 = .ok t0)
    (hr : Spec.run (heapStep ops) (h0, t0) hist = .ok ((h, t), outs))
    (hm : Spec.run (Spec.hashStep (eqv ops)) {} hist = .ok (m, outs))
    (body : Nat → List K) (rounds : Nat) (hn : m.map.length < rounds) :
    ∃ t' log,
      positionLoop ops body rounds (h, (initPosition t).1) (initPosition t).2 [] = .ok ((h, t'), log) ∧
      (log.map Prod.fst).Perm m.map ∧ (∀ visit ∈ log, visit.2 = 1) ∧
      (m.map ≠ [] → t'.readonly = 0) ∧ (m.map = [] → t' = t) ∧
      -- the table goes on as the same map
      ∀ more : List (Spec.HashOp K),
        Spec.observe (Spec.run (heapStep ops) (h, t') more) =
        Spec.observe (Spec.run (Spec.hashStep (eqv ops)) { m with readonly := t'.readonly } more) := by
  obtain ⟨ht, h1, h2⟩ := heap_history law h0 ok0 hist
  rw [hc] at h1
  cases h1
  rw [hr, hm] at h2
  obtain ⟨-, tt, A, r, sim, ow⟩ := h2
  obtain ⟨ht', t', log, j1, j2, j3, j4, j5, j6, j7, j8⟩ := positions_ok law body r sim.rep rounds hn
  refine ⟨ht', log, j1, j2, j3, j4, j5, fun more => ?_⟩
  exact (Spec.run_sim (PSim0 ops) _ _ (heapStep_sim0 law) (h, ht') { m with readonly := ht'.readonly } more
    ⟨t', A, j6, j7, j6.ro.symm⟩).observe

/-- Non-vacuity for C05 and C08: a history with colliding keys and growth reaches a table of three
entries. -/
example : ∃ t0 h t, hcreate 0 = .ok t0 ∧
    Spec.run (heapStep exOps) (Heap.init, t0) [.insert 1 10, .insert 3 30, .insert 4 40, .delete 3, .insert 3 31] =
      .ok ((h, t), [.int 0, .int 0, .int 0, .int 0, .int 0]) ∧ t.entries = 3 := by
  obtain ⟨t0, h1, h2⟩ := heap_history exOps_lawful Heap.init Heap.Ok.init0
    [.insert 1 10, .insert 3 30, .insert 4 40, .delete 3, .insert 3 31]
  have e : Spec.run (Spec.hashStep (eqv exOps)) {}
      [.insert 1 10, .insert 3 30, .insert 4 40, .delete 3, .insert 3 31] =
    .ok ({ map := [(3, 31), (4, 40), (1, 10)], readonly := 0, retrievals := 0, misses := 0 },
      [.int 0, .int 0, .int 0, .int 0, .int 0]) := by rfl
  rw [e] at h2
  cases hr : Spec.run (heapStep exOps) (Heap.init, t0)
    [.insert 1 10, .insert 3 30, .insert 4 40, .delete 3, .insert 3 31] <;> rw [hr] at h2 <;>
    simp only [Spec.ResRel] at h2
  rename_i c
  obtain ⟨h3, t, A, r, sim, -⟩ := h2
  refine ⟨t0, c.1.1, c.1.2, h1, ?_, ?_⟩
  · rw [hr, ← h3]
  · have := sim.rep.perm.length_eq
    rw [r.entries, sim.rep.inv.count]
    simpa [Tab.pairsOf] using this

/-- C09, last clause, refuted: a table the user has made read-only is writable again after a completed
position iteration, although the user did not clear the flag.  (This happens for every non-empty
table, by `C08_position_iteration`; here is one.) -/
theorem C09_refuted_position :
    ∃ (t0 : HTab) (h : Heap (Entry Nat Ptr)) (t : HTab) (outs : List Spec.Ret) (t' : HTab)
      (log : List ((Nat × Ptr) × Int)),
      hcreate 0 = .ok t0 ∧
      Spec.run (heapStep exOps) (Heap.init, t0) [.insert 1 10, .readonly 1] = .ok ((h, t), outs) ∧
      t.readonly = 1 ∧
      positionLoop exOps (fun _ => []) 2 (h, (initPosition t).1) (initPosition t).2 [] = .ok ((h, t'), log) ∧
      t'.readonly = 0 := by
  obtain ⟨t0, h1, h2⟩ := heap_history exOps_lawful Heap.init Heap.Ok.init0 [.insert 1 10, .readonly 1]
  have e : Spec.run (Spec.hashStep (eqv exOps)) {} [.insert 1 10, .readonly 1] =
    .ok ({ map := [(1, 10)], readonly := 1, retrievals := 0, misses := 0 }, [.int 0, .int 0]) := by rfl
  rw [e] at h2
  cases hr : Spec.run (heapStep exOps) (Heap.init, t0) [.insert 1 10, .readonly 1] <;> rw [hr] at h2 <;>
    simp only [Spec.ResRel] at h2
  rename_i c
  obtain ⟨h3, t, A, r, sim, -⟩ := h2
  have hr' : Spec.run (heapStep exOps) (Heap.init, t0) [.insert 1 10, .readonly 1] =
      .ok ((c.1.1, c.1.2), [.int 0, .int 0]) := by rw [hr, ← h3]
  obtain ⟨t', log, j1, -, -, j4, -⟩ := C08_position_iteration exOps exOps_lawful Heap.init Heap.Ok.init0 _ t0
    c.1.2 c.1.1 _ _ h1 hr' e (fun _ => []) 2 (by simp)
  exact ⟨t0, c.1.1, c.1.2, _, t', log, h1, hr', r.ro.trans sim.ro, j1, j4 (by simp)⟩

/-- C11 / C16 at pointer level: one set with real chains returns what a mathematical set returns. -/
theorem C11_pointers (ops : KeyOps K) (law : ops.Lawful) (h0 : Heap (Entry K Unit)) (ok0 : h0.Ok)
    (hist : List (Spec.OneSetOp K)) :
    ((hcreate 0).bind fun t => Spec.observe (Spec.run (setHeapStep ops) (h0, t) hist)) =
      Spec.observe (Spec.run (Spec.oneSetStep (eqv ops)) {} hist) := by
  obtain ⟨ht, h1, h2⟩ := set_history law h0 ok0 hist
  rw [h1]
  exact h2.observe

/-- C11, memory: as for hash tables. -/
theorem C11_pointers_memory (ops : KeyOps K) (law : ops.Lawful) (h0 : Heap (Entry K Unit)) (ok0 : h0.Ok)
    (hist : List (Spec.OneSetOp K)) (t0 t : HTab) (h : Heap (Entry K Unit)) (outs : List Int)
    (hc : hcreate 0 = .ok t0) (hr : Spec.run (setHeapStep ops) (h0, t0) hist = .ok ((h, t), outs)) :
    (∀ a, (h0.mem a).isSome → h.mem a = h0.mem a) ∧
    (t.readonly ≠ 0 → hdestroy h t = .abort) ∧
    (t.readonly = 0 → ∃ h', hdestroy h t = .ok h' ∧ h'.mem = h0.mem) := by
  obtain ⟨ht, h1, h2⟩ := set_history law h0 ok0 hist
  rw [hc] at h1
  cases h1
  rw [hr] at h2
  cases ha : Spec.run (Spec.oneSetStep (eqv ops)) {} hist <;> rw [ha] at h2 <;> simp only [Spec.ResRel] at h2
  obtain ⟨-, t', A, r, -, -, ow⟩ := h2
  exact ⟨ow.old, fun hro => by simp [hdestroy, hro], fun hro => by
    obtain ⟨h', h1, h2, -⟩ := destroy_ok r ow hro
    exact ⟨h', h1, h2⟩⟩

/-- C16, position iteration: after any history on a fresh set, `SET_ITERATE` visits each element exactly
once, whatever membership tests the body makes. -/
theorem C16_position_iteration (ops : KeyOps K) (law : ops.Lawful) (h0 : Heap (Entry K Unit)) (ok0 : h0.Ok)
    (hist : List (Spec.OneSetOp K)) (t0 t : HTab) (h : Heap (Entry K Unit)) (outs : List Int)
    (m : Spec.OneSet K) (hc : hcreate 0 = .ok t0)
    (hr : Spec.run (setHeapStep ops) (h0, t0) hist = .ok ((h, t), outs))
    (hm : Spec.run (Spec.oneSetStep (eqv ops)) {} hist = .ok (m, outs))
    (body : Nat → List K) (rounds : Nat) (hn : m.elems.length < rounds) :
    ∃ t' log,
      positionLoop ops body rounds (h, (initPosition t).1) (initPosition t).2 [] = .ok ((h, t'), log) ∧
      (log.map fun visit => visit.1.1).Perm (m.elems.map Prod.fst) ∧ (∀ visit ∈ log, visit.2 = 1) ∧
      (m.elems ≠ [] → t'.readonly = 0) ∧ (m.elems = [] → t' = t) ∧
      ∀ more : List (Spec.OneSetOp K),
        Spec.observe (Spec.run (setHeapStep ops) (h, t') more) =
        Spec.observe (Spec.run (Spec.oneSetStep (eqv ops)) { m with readonly := t'.readonly } more) := by
  obtain ⟨ht, h1, h2⟩ := set_history law h0 ok0 hist
  rw [hc] at h1
  cases h1
  rw [hr, hm] at h2
  obtain ⟨-, tt, A, r, rep, ro, ow⟩ := h2
  obtain ⟨ht', t', log, j1, j2, j3, j4, j5, j6, j7, j8⟩ := positions_ok law body r rep rounds hn
  refine ⟨ht', log, j1, ?_, j3, j4, j5, fun more => ?_⟩
  · have := j2.map Prod.fst
    rwa [List.map_map] at this
  exact (Spec.run_sim (SSim ops h0) _ _ (setHeapStep_sim law h0) (h, ht') { m with readonly := ht'.readonly }
    more ⟨t', A, j6, j7, j6.ro.symm, by rw [j8]; exact ow⟩).observe

/-- Non-vacuity for C11 and C16. -/
example : ∃ t0 h t, hcreate 0 = .ok t0 ∧
    Spec.run (setHeapStep exOps) (Heap.init, t0) [.insert 1, .insert 3, .insert 4, .member 1] =
      .ok ((h, t), [0, 0, 0, 1]) := by
  obtain ⟨t0, h1, h2⟩ := set_history exOps_lawful Heap.init Heap.Ok.init0
    [.insert 1, .insert 3, .insert 4, .member 1]
  have e : Spec.run (Spec.oneSetStep (eqv exOps)) {} [.insert 1, .insert 3, .insert 4, .member 1] =
    .ok ({ elems := [(4, ()), (3, ()), (1, ())], readonly := 0 }, [0, 0, 0, 1]) := by rfl
  rw [e] at h2
  cases hr : Spec.run (setHeapStep exOps) (Heap.init, t0) [.insert 1, .insert 3, .insert 4, .member 1] <;>
    rw [hr] at h2 <;> simp only [Spec.ResRel] at h2
  rename_i c
  exact ⟨t0, c.1.1, c.1.2, h1, by rw [hr, ← h2.1]⟩

/-- C13 refuted for aliased arguments: `set_add(s,s)` on a set with one element uses freed memory (the
first insertion grows the table and frees the chain being walked). -/
theorem C13_refuted_add_self :
    ((hcreate 0).bind fun t => (hinsert exOps Heap.init t 7 ()).bind fun r =>
      addSelf exOps 100 0 r.1) = .ub := by
  exact Res.eq_ub_of (by decide +kernel)

/-- C13 refuted for aliased arguments: `set_del(s,s)` on a set with one element uses freed memory (it
deletes the cell it stands on). -/
theorem C13_refuted_del_self :
    ((hcreate 0).bind fun t => (hinsert exOps Heap.init t 7 ()).bind fun r =>
      delSelf exOps 100 0 r.1) = .ub := by
  exact Res.eq_ub_of (by decide +kernel)

end Maa.HashHeap
