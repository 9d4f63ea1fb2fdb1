import Verif.Props.Watch
import Verif.Props.SetsLoose

/-! # C99, several sets -/

namespace Maa.SetsLoose

open Tab (Entry Tab)
open Spec (ResRel observe SetOp)
open _root_.Maa.Set (FnEnv Store)
open SetHeap (HStore HSet HSt hsetStep)
open HashHeap (HRep siterate siterLoop_still cellsFrom cells_map pairs_eq)

variable {K : Type}

/-- the sets of two programs in different memories with the same chains -/
def Twins (s1 s2 : HStore K) : Prop := ∃ σ A1 A2, HSt s1 σ A1 ∧ HSt s2 σ A2

theorem twins_step {s1 s2 : HStore K} (w : Twins s1 s2) (o : FnEnv K × SetOp K) (ho : o.2.NoAlias) :
    ResRel (fun c b => c.2 = b.2 ∧ Twins c.1 b.1) (looseStep s1 o) (looseStep s2 o) := by
  obtain ⟨σ, A1, A2, r1, r2⟩ := w
  refine HashHeap.ResRel.imp (HashHeap.join (SetHeap.step_ref (env := o.1) r1 o.2 ho) (SetHeap.step_ref (env := o.1) r2 o.2 ho)) ?_
  rintro c b ⟨v, -, ⟨e1, B1, g1, -⟩, e2, B2, g2, -⟩
  exact ⟨e1.trans e2.symm, _, B1, B2, g1, g2⟩

theorem still_same (ops : KeyOps K) {σ : Type} (g : σ → K × Unit → σ × Int) {h1 h2 : Heap (Entry K Unit)} {t1 t2 : HashHeap.HTab} {t : Tab K Unit}
    {A1 A2} (r1 : HRep h1 t1 t A1) (r2 : HRep h2 t2 t A2) (st : σ) {n : Nat} (hn : t1.prime < n) :
    ∃ r, siterate ops (fun st p => .ret (g st p).1 (g st p).2) n (h1, t1) st = .ok ((h1, t1), r) ∧
      siterate ops (fun st p => .ret (g st p).1 (g st p).2) n (h2, t2) st = .ok ((h2, t2), r) := by
  have p1 := r1.prime
  have w1 := siterLoop_still ops g (s := (h1, { t1 with readonly := 1 })) (r1.withRo 1) n 0 st (by simp only; omega)
  have w2 := siterLoop_still ops g (s := (h2, { t2 with readonly := 1 })) (r2.withRo 1) n 0 st (by simp only; omega)
  have hp : (cellsFrom t.prime 0 A1).map (fun c => (c.2.key, c.2.datum)) = (cellsFrom t.prime 0 A2).map (fun c => (c.2.key, c.2.datum)) :=
    pairs_eq ((cells_map r1).trans (cells_map r2).symm)
  simp only at w1 w2
  rw [hp] at w1
  exact ⟨Tab.loop g st ((cellsFrom t.prime 0 A2).map fun c => (c.2.key, c.2.datum)), by simp only [siterate, w1, Res.bind],
    by simp only [siterate, w2, Res.bind]⟩

theorem twins_run (p1 p2 : Policy) (h1 : Heap.Allocator p1) (h2 : Heap.Allocator p2) (hist : List (FnEnv K × SetOp K))
    (ok : ∀ o ∈ hist, o.2.NoAlias) :
    ResRel (fun c b => c.2 = b.2 ∧ Twins c.1 b.1) (Spec.run looseStep (HStore.empty p1) hist) (Spec.run looseStep (HStore.empty p2) hist) :=
  Spec.run_sim_of (fun o : FnEnv K × SetOp K => o.2.NoAlias) Twins looseStep looseStep (fun _ _ o ho h => twins_step h o ho) _ _ hist ok
    ⟨_, _, _, HSt.empty h1, HSt.empty h2⟩

/-- **C99**, any number of sets and any functions: with any two allocators every history of calls has the same results and the same end.
(`set_add` and `set_del` are given two different sets: what they do with one can be undefined, C91.) -/
theorem C99_many_sets (p1 p2 : Policy) (h1 : Heap.Allocator p1) (h2 : Heap.Allocator p2) (hist : List (FnEnv K × SetOp K))
    (ok : ∀ o ∈ hist, o.2.NoAlias) :
    observe (Spec.run looseStep (HStore.empty p1) hist) = observe (Spec.run looseStep (HStore.empty p2) hist) :=
  ResRel.observe (R := Twins) (twins_run p1 p2 h1 h2 hist ok)

/-- **C99**: after such a history, `set_iterate` shows the same elements of each set in the same order, stopped wherever the function says so, and
changes nothing. -/
theorem C99_many_sets_walk (p1 p2 : Policy) (h1 : Heap.Allocator p1) (h2 : Heap.Allocator p2) (hist : List (FnEnv K × SetOp K))
    (ok : ∀ o ∈ hist, o.2.NoAlias) (s1 s2 : HStore K) (o1 o2 : List Int) (e1 : Spec.run looseStep (HStore.empty p1) hist = .ok (s1, o1))
    (e2 : Spec.run looseStep (HStore.empty p2) hist = .ok (s2, o2)) (i : Nat) :
    (s1.sets i = none ∧ s2.sets i = none) ∨ ∃ t1 t2, s1.sets i = some t1 ∧ s2.sets i = some t2 ∧
      ∀ (ops : KeyOps K) (σ : Type) (g : σ → K × Unit → σ × Int) (st : σ) (n : Nat), t1.tab.prime < n →
        ∃ r, siterate ops (fun st p => .ret (g st p).1 (g st p).2) n (s1.heap, t1.tab) st = .ok ((s1.heap, t1.tab), r) ∧
          siterate ops (fun st p => .ret (g st p).1 (g st p).2) n (s2.heap, t2.tab) st = .ok ((s2.heap, t2.tab), r) := by
  have := twins_run p1 p2 h1 h2 hist ok
  rw [e1, e2] at this
  obtain ⟨-, σ, A1, A2, r1, r2⟩ := this
  simp only at r1 r2
  cases hs : s1.sets i with
  | none =>
    refine Or.inl ⟨rfl, ?_⟩
    have g1 := r1.m.dom i
    have g2 := r2.m.dom i
    simp only [Option.isSome_map, hs] at g1 g2
    rw [← g1] at g2
    simpa using g2
  | some t1 =>
    obtain ⟨x, hx, a1, -⟩ := r1.obj hs
    obtain ⟨t2, ht2, a2, -⟩ := r2.set hx
    exact Or.inr ⟨t1, t2, rfl, ht2, fun ops σ g st n hn => still_same ops g a1 a2 st hn⟩

/-- Non-vacuity: sets that are destroyed in between, so that one allocator hands out freed cells again, and functions that change. -/
example : let hist : List (FnEnv Nat × SetOp Nat) := [(proper, .create 0 0), (proper, .insert 0 1), (proper, .insert 0 12), (proper, .insert 0 3),
      (proper, .create 0 0), (proper, .insert 1 3), (proper, .insert 1 5), (proper, .union 0 1), (proper, .destroy 0), (neverEqual, .inter 1 2),
      (proper, .diff 2 1), (alwaysEqual, .union 2 4), (proper, .count 5)]
    let elems (p : Policy) := (Spec.run looseStep (HStore.empty p) hist).bind fun q => match q.1.sets 2 with
      | none => .ub
      | some t => (siterate (proper.ops 0 0) (fun (st : List Nat) p => .ret (st ++ [p.1]) 0) 40 (q.1.heap, t.tab) []).bind fun z => .ok (z.2, q.2)
    elems Heap.neverAgain = elems Heap.atOnce ∧ (elems Heap.atOnce).bind (fun z => .ok (z.1.1.length, z.2.length)) = .ok (4, 13) ∧
      (∀ o ∈ hist, o.2.NoAlias) := by
  refine ⟨by decide +kernel, by decide +kernel, ?_⟩
  intro o ho
  simp only [List.mem_cons, List.not_mem_nil, or_false] at ho
  rcases ho with h | h | h | h | h | h | h | h | h | h | h | h | h <;> subst h <;> simp [Spec.SetOp.NoAlias]

end Maa.SetsLoose
