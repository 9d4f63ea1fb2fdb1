import Verif.Lemmas.Growth
import Verif.Props.HashHeap
import Verif.Props.Oom
import Mathlib.Data.Nat.Log

/-! # C82: what growing costs -/

namespace Maa.HashHeap

open Tab (Entry Tab)
open Hash (exOps exOps_lawful)

variable {K : Type}

theorem create_num {D : Type} {t0 : HTab} (h0 : Heap (Entry K D)) (hc : hcreate 0 = .ok t0) :
    h0.clock ≤ h0.clock ∧ Num 0 (h0.clock - h0.clock) t0.entries t0.prime t0.resizings := by
  unfold hcreate at hc
  rw [Prime.C02_refuted_small.1] at hc
  simp only [Res.ok.injEq] at hc
  rw [← hc, Nat.sub_self]
  exact ⟨Nat.le_refl _, Nat.le_refl 0, by decide, by decide, by decide, by decide, by decide, Or.inl ⟨rfl, rfl⟩⟩

theorem table_num {ops : KeyOps K} (law : ops.Lawful) (h0 : Heap (Entry K Ptr)) (ok0 : h0.Ok)
    (hist : List (Spec.HashOp K)) (t0 t : HTab) (h : Heap (Entry K Ptr)) (outs : List Spec.Ret)
    (hc : hcreate 0 = .ok t0) (hr : Spec.run (heapStep ops) (h0, t0) hist = .ok ((h, t), outs)) (few : Spec.added hist outs ≤ Tab.many) :
    h0.clock ≤ h.clock ∧ Num (Spec.added hist outs) (h.clock - h0.clock) t.entries t.prime t.resizings := by
  obtain ⟨ht, e1, e2⟩ := heap_history law h0 ok0 []
  rw [hc] at e1
  cases e1
  simp only [Spec.run, Spec.ResRel] at e2
  have := Spec.run_countOut (fun n (s : Heap (Entry K Ptr) × HTab) => (∃ m, PSim ops h0 s m) ∧
      (n ≤ Tab.many → h0.clock ≤ s.1.clock ∧ Num n (s.1.clock - h0.clock) s.2.entries s.2.prime s.2.resizings))
    (fun c => match c with
      | (.insert _ _, .int 0) => true
      | _ => false) (heapStep ops) ?_ hist 0 (h0, t0) (h, t) outs ⟨⟨_, e2.2⟩, fun _ => create_num h0 hc⟩ hr
  · rw [Nat.zero_add] at this
    exact this.2 few
  · rintro n ⟨h1, t1⟩ o ⟨h2, t2⟩ x ⟨⟨m, hm⟩, hn⟩ e
    have hs := heapStep_sim law h0 (h1, t1) m o hm
    rw [e] at hs
    cases ha : Spec.hashStep (eqv ops) m o <;> rw [ha] at hs <;> simp only [Spec.ResRel] at hs
    refine ⟨⟨_, hs.2⟩, fun few => ?_⟩
    obtain ⟨tt, A, r, sim, -⟩ := hm
    cases o with
    | insert k d =>
      simp only [heapStep, Res.bind_ok_iff, Res.ok.injEq, Prod.mk.injEq] at e
      obtain ⟨⟨⟨h3, t3⟩, y⟩, e1, ⟨rfl, rfl⟩, rfl⟩ := e
      obtain ⟨hg, tg, g, g1, g2, g3⟩ := hinsert_cost r sim.rep.inv.count e1
      have hn' := hn (by split at few <;> omega)
      obtain ⟨b1, b2, b3⟩ := Num.grown hn'.1 hn'.2 (by split at few <;> omega) g
      rcases g3 with ⟨rfl, g4, g5⟩ | ⟨hy, g4, g5⟩
      · simp only [if_true, g4, g5, g1, g2]
        refine ⟨by omega, ?_⟩
        rw [show hg.clock + 1 - h0.clock = hg.clock - h0.clock + 1 by omega]
        exact b2.add b3
      · have : (match (Spec.HashOp.insert k d, Spec.Ret.int y) with
          | (.insert _ _, .int 0) => true
          | _ => false) = false := by
          split
          · rename_i heq; simp only [Prod.mk.injEq, Spec.Ret.int.injEq] at heq; exact absurd heq.2 hy
          · rfl
        simp only [this, Bool.false_eq_true, if_false, g4, g5, g1, g2]
        exact ⟨b1, b2⟩
    | delete k =>
      simp only [heapStep, Res.bind_ok_iff, Res.ok.injEq, Prod.mk.injEq] at e
      obtain ⟨q, e1, e3, rfl⟩ := e
      obtain ⟨c1, c2, c3, c4⟩ := hdelete_cost e1
      rw [e3] at c1 c2 c3 c4
      simp only at c1 c2 c3 c4
      simp only [Bool.false_eq_true, if_false, Nat.add_zero, c1, c2, c3] at few ⊢
      exact ⟨(hn few).1, (hn few).2.fewer c4⟩
    | retrieve k =>
      simp only [heapStep, Res.bind_ok_iff, Res.ok.injEq, Prod.mk.injEq] at e
      obtain ⟨q, e1, e3, rfl⟩ := e
      obtain ⟨c1, c2, c3, c4⟩ := hretrieve_cost e1
      rw [e3] at c1 c2 c3 c4
      simp only at c1 c2 c3 c4
      simp only [Bool.false_eq_true, if_false, Nat.add_zero, c1, c2, c3, c4] at few ⊢
      exact hn few
    | readonly f =>
      simp only [heapStep, Res.ok.injEq, Prod.mk.injEq] at e
      obtain ⟨⟨rfl, rfl⟩, rfl⟩ := e
      simp only [Bool.false_eq_true, if_false, Nat.add_zero] at few ⊢
      exact hn few

/-- **C82, hash tables.** A history that adds `n` keys to a table (deletions, lookups and refused insertions do not count) asks for at most `3 n` cells, the copies
made when the table grows included; the table has grown fewer than log₃ (6 n) times; and its array has fewer than `12 n` slots (one, while it is new).
`h.clock` counts the cells asked for. -/
theorem C82_table_growth (ops : KeyOps K) (law : ops.Lawful) (h0 : Heap (Entry K Ptr)) (ok0 : h0.Ok)
    (hist : List (Spec.HashOp K)) (t0 t : HTab) (h : Heap (Entry K Ptr)) (outs : List Spec.Ret)
    (hc : hcreate 0 = .ok t0) (hr : Spec.run (heapStep ops) (h0, t0) hist = .ok ((h, t), outs)) (few : Spec.added hist outs ≤ 715827880) :
    h.clock ≤ h0.clock + 3 * Spec.added hist outs ∧
    (t.resizings = 0 ∨ 3 ^ t.resizings < 6 * Spec.added hist outs) ∧ (t.prime = 1 ∨ t.prime < 12 * Spec.added hist outs) := by
  obtain ⟨h1, h2⟩ := table_num law h0 ok0 hist t0 t h outs hc hr few
  have h3 := h2.cells
  exact ⟨by omega, h2.first.imp (·.1) (·.1), h2.first.imp (·.2) (·.2)⟩

/-- Four keys are added (one insertion is refused, one key is deleted): seven cells, two resizings, eleven slots. -/
example : ((hcreate 0).bind fun t0 => (Spec.run (heapStep exOps) (Heap.init, t0)
      [.insert 1 10, .insert 3 30, .insert 4 40, .insert 3 31, .delete 4, .insert 5 50]).bind fun r => Res.ok ((r.1.1.clock, r.1.2.resizings, r.1.2.prime),
        Spec.added [Spec.HashOp.insert 1 10, .insert 3 30, .insert 4 40, .insert 3 31, .delete 4, .insert 5 50] r.2)) = .ok ((8, 2, 11), 4) := by
  decide +kernel

theorem set_num {ops : KeyOps K} (law : ops.Lawful) (h0 : Heap (Entry K Unit)) (ok0 : h0.Ok)
    (hist : List (Spec.OneSetOp K)) (t0 t : HTab) (h : Heap (Entry K Unit)) (outs : List Int)
    (hc : hcreate 0 = .ok t0) (hr : Spec.run (setHeapStep ops) (h0, t0) hist = .ok ((h, t), outs)) (few : Spec.addedToSet hist outs ≤ Tab.many) :
    h0.clock ≤ h.clock ∧ Num (Spec.addedToSet hist outs) (h.clock - h0.clock) t.entries t.prime t.resizings := by
  obtain ⟨ht, e1, e2⟩ := set_history law h0 ok0 []
  rw [hc] at e1
  cases e1
  simp only [Spec.run, Spec.ResRel] at e2
  have := Spec.run_countOut (fun n (s : Heap (Entry K Unit) × HTab) => (∃ m, SSim ops h0 s m) ∧
      (n ≤ Tab.many → h0.clock ≤ s.1.clock ∧ Num n (s.1.clock - h0.clock) s.2.entries s.2.prime s.2.resizings))
    (fun c => match c with
      | (.insert _, 0) => true
      | _ => false) (setHeapStep ops) ?_ hist 0 (h0, t0) (h, t) outs ⟨⟨_, e2.2⟩, fun _ => create_num h0 hc⟩ hr
  · rw [Nat.zero_add] at this
    exact this.2 few
  · rintro n ⟨h1, t1⟩ o ⟨h2, t2⟩ x ⟨⟨m, hm⟩, hn⟩ e
    have hs := setHeapStep_sim law h0 (h1, t1) m o hm
    rw [e] at hs
    cases ha : Spec.oneSetStep (eqv ops) m o <;> rw [ha] at hs <;> simp only [Spec.ResRel] at hs
    refine ⟨⟨_, hs.2⟩, fun few => ?_⟩
    obtain ⟨tt, A, r, sim, -⟩ := hm
    cases o with
    | insert k =>
      obtain ⟨hg, tg, g, g1, g2, g3⟩ := hinsert_cost r sim.inv.count e
      have hn' := hn (by split at few <;> omega)
      obtain ⟨b1, b2, b3⟩ := Num.grown hn'.1 hn'.2 (by split at few <;> omega) g
      rcases g3 with ⟨rfl, g4, g5⟩ | ⟨hy, g4, g5⟩
      · simp only [if_true, g4, g5, g1, g2]
        refine ⟨by omega, ?_⟩
        rw [show hg.clock + 1 - h0.clock = hg.clock - h0.clock + 1 by omega]
        exact b2.add b3
      · have : (match (Spec.OneSetOp.insert k, x) with
          | (.insert _, 0) => true
          | _ => false) = false := by
          split
          · rename_i heq; simp only [Prod.mk.injEq] at heq; exact absurd heq.2 hy
          · rfl
        simp only [this, Bool.false_eq_true, if_false, g4, g5, g1, g2]
        exact ⟨b1, b2⟩
    | delete k =>
      obtain ⟨c1, c2, c3, c4⟩ := hdelete_cost e
      simp only at c1 c2 c3 c4
      simp only [Bool.false_eq_true, if_false, Nat.add_zero, c1, c2, c3] at few ⊢
      exact ⟨(hn few).1, (hn few).2.fewer c4⟩
    | member k =>
      simp only [setHeapStep, Res.bind_ok_iff, Res.ok.injEq, Prod.mk.injEq] at e
      obtain ⟨q, e1, e3, rfl⟩ := e
      obtain ⟨c1, c2, c3, c4⟩ := hretrieve_cost e1
      rw [e3] at c1 c2 c3 c4
      simp only at c1 c2 c3 c4
      simp only [Bool.false_eq_true, if_false, Nat.add_zero, c1, c2, c3, c4] at few ⊢
      exact hn few
    | readonly f =>
      simp only [setHeapStep, Res.ok.injEq, Prod.mk.injEq] at e
      obtain ⟨⟨rfl, rfl⟩, rfl⟩ := e
      simp only [Bool.false_eq_true, if_false, Nat.add_zero] at few ⊢
      exact hn few

/-- **C82, sets.** The same for a set. -/
theorem C82_set_growth (ops : KeyOps K) (law : ops.Lawful) (h0 : Heap (Entry K Unit)) (ok0 : h0.Ok)
    (hist : List (Spec.OneSetOp K)) (t0 t : HTab) (h : Heap (Entry K Unit)) (outs : List Int)
    (hc : hcreate 0 = .ok t0) (hr : Spec.run (setHeapStep ops) (h0, t0) hist = .ok ((h, t), outs)) (few : Spec.addedToSet hist outs ≤ 715827880) :
    h.clock ≤ h0.clock + 3 * Spec.addedToSet hist outs ∧
    (t.resizings = 0 ∨ 3 ^ t.resizings < 6 * Spec.addedToSet hist outs) ∧ (t.prime = 1 ∨ t.prime < 12 * Spec.addedToSet hist outs) := by
  obtain ⟨h1, h2⟩ := set_num law h0 ok0 hist t0 t h outs hc hr few
  have h3 := h2.cells
  exact ⟨by omega, h2.first.imp (·.1) (·.1), h2.first.imp (·.2) (·.2)⟩

theorem _root_.Maa.Oom.run_follows_ok {S O X : Type} {fails : Oom.Fails} {bare : Bool} {f : S × Nat → O → Res ((S × Nat) × X)} {g : S → O → Res (S × X)}
    (hf : Oom.StepFollows fails bare Eq f g) (hist : List O) : ∀ (s s' : S) (n n' : Nat) (xs : List X),
    Spec.run f (s, n) hist = .ok ((s', n'), xs) → Spec.run g s hist = .ok (s', xs) := by
  intro s s' n n' xs hr
  obtain ⟨x, e1, m, -, -, e2⟩ := hf.run hist s s n rfl
  rw [hr] at e1
  have e1 := Oom.out_ok.1 e1.symm
  rw [e1] at e2
  rcases e2 with ⟨-, e2 | ⟨-, e2⟩⟩ | e2
  · cases e2
  · cases e2
  · cases hg : Spec.run g s hist <;> rw [hg] at e2 <;> simp only [Spec.ResRel] at e2
    obtain ⟨-, e3, e4⟩ := e2
    rw [e3, e4]

/-- **C82**: altogether a table to which `n` keys are added asks the C library for at most `2 + 3 n + 2 log₃ (6 n)` pieces of memory. -/
theorem C82_table_requests (fails : Oom.Fails) (ops : KeyOps K) (law : ops.Lawful) (h0 : Heap (Entry K Ptr)) (ok0 : h0.Ok)
    (hist : List (Spec.HashOp K)) (h : Heap (Entry K Ptr)) (t : HTab) (n : Nat) (outs : List Spec.Ret)
    (hr : Oom.tableProg fails ops h0 hist = .ok (((h, t), n), outs)) (few : Spec.added hist outs ≤ 715827880) :
    n ≤ 2 + 3 * Spec.added hist outs + 2 * Nat.log 3 (6 * Spec.added hist outs) := by
  have hn := Oom.C78_hash_requests fails ops h0 hist h t n outs hr
  simp only [Oom.tableProg, Res.bind_ok_iff] at hr
  obtain ⟨⟨t0, n0⟩, e0, hr⟩ := hr
  have hr' := Oom.run_follows_ok (Oom.hash_follows ops) hist _ _ _ _ _ hr
  have hc : hcreate 0 = .ok t0 := by
    obtain ⟨m, -, -, e2⟩ := Oom.create_follows (fails := fails) (bare := false) 0 0
    rw [e0] at e2
    rcases e2 with ⟨-, e2 | ⟨-, e2⟩⟩ | e2
    · cases e2
    · cases e2
    · cases hg : hcreate 0 <;> rw [hg] at e2 <;> simp only [Spec.ResRel] at e2
      rw [e2.2]
  obtain ⟨h1, h2, -⟩ := C82_table_growth ops law h0 ok0 hist t0 t h outs hc hr' few
  have : t.resizings ≤ Nat.log 3 (6 * Spec.added hist outs) := by
    rcases h2 with h2 | h2
    · omega
    · exact Nat.le_log_of_pow_le (by decide) (by omega)
  omega

end Maa.HashHeap
