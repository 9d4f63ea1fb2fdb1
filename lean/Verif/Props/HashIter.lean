import Verif.Lemmas.SetIter
import Verif.Props.HashHeap

/-! # Properties C16 and C64: iterating with callbacks that call the library

`Spec.Calls` (Spec/Calls.lean) is what a callback does when it is invoked: any finite interaction with
the library, deciding on the answers it gets, before it returns.  `Spec.visit` visits a list of items
in order, running the callback against a plain finite map (or set).  `hiterate` and `siterate`
(Model/HashIter.lean) are `hsh_iterate` and `set_iterate` walking linked cells in memory while the
callback works on the same cells.  The number `n` only bounds the rounds of the model's loop: any
number larger than the table's size will do. -/

namespace Maa.HashHeap

open Tab (Entry Tab)
open Hash (exOps exOps_lawful)

variable {K σ : Type}

/-- C64: on any reachable table, for any callback: there is an order of the table's pairs such that
`hsh_iterate` behaves exactly like visiting the pairs in that order with the callback working on a
plain finite map, provided the callback, run that way, inserts nothing and touches no key still to be
visited.  Behaves like: same result, same final state of the callback (which may have recorded all it
saw), same way of ending; and whatever calls follow return what they would return on the resulting
map. -/
theorem C64_iterate_with_calls (ops : KeyOps K) (law : ops.Lawful) (h0 : Heap (Entry K Ptr)) (ok0 : h0.Ok)
    (hist : List (Spec.HashOp K)) (t0 : HTab) (s : HState K Ptr) (outs : List Spec.Ret)
    (m : Spec.MapState K) (hc : hcreate 0 = .ok t0)
    (hr : Spec.run (heapStep ops) (h0, t0) hist = .ok (s, outs))
    (hm : Spec.run (Spec.hashStep (eqv ops)) {} hist = .ok (m, outs))
    (f : σ → K × Ptr → Spec.Calls (Spec.HashOp K) Spec.Ret σ) (st : σ) :
    ∃ order, order.Perm m.map ∧
      (Spec.visit (Spec.hashCallStep (eqv ops)) f order m st ≠ .ub → ∀ n, s.2.prime < n →
        Spec.ResRel (fun c b => c.2 = b.2 ∧ ∀ more,
            Spec.observe (Spec.run (heapStep ops) c.1 more) =
              Spec.observe (Spec.run (Spec.hashStep (eqv ops)) b.1 more))
          (hiterate ops f n 0 s st) (Spec.visit (Spec.hashCallStep (eqv ops)) f order m st)) := by
  obtain ⟨ht, h1, h2⟩ := heap_history law h0 ok0 hist
  rw [hc] at h1
  cases h1
  rw [hr, hm] at h2
  obtain ⟨-, t, A, r, sim, ow⟩ := h2
  refine ⟨(cellsFrom t.prime 0 A).map pairOf, ?_, fun hne n hn => ?_⟩
  · have := sim.rep.perm
    unfold Tab.pairsOf at this
    rw [← cells_map r, List.map_map] at this
    exact this
  · have hp : s.2.prime = t.prime := r.prime
    have := hiterate_sim law h0 f n 0 s m t A st (by omega) ⟨r, sim, ow⟩ hne
    cases hcc : hiterate ops f n 0 s st <;>
      cases hb : Spec.visit (Spec.hashCallStep (eqv ops)) f ((cellsFrom t.prime 0 A).map pairOf) m st <;>
      rw [hcc, hb] at this <;> simp only [Spec.ResRel] at this ⊢
    refine ⟨this.1, fun more => ?_⟩
    exact (Spec.run_sim (PSim ops h0) _ _ (heapStep_sim law h0) _ _ more this.2).observe

/-- A callback that writes down each pair it is given and deletes those for which `del` holds. -/
def deleter (del : K × Ptr → Bool) (log : List (K × Ptr)) (p : K × Ptr) :
    Spec.Calls (Spec.HashOp K) Spec.Ret (List (K × Ptr)) :=
  if del p then .call (.delete p.1) fun _ => .ret (log ++ [p]) 0 else .ret (log ++ [p]) 0

theorem delete_filter (eq : K → K → Bool) (m : List (K × Nat)) (k : K) :
    (Spec.delete eq m k).1 = m.filter (fun p => !eq p.1 k) := by
  unfold Spec.delete
  cases hf : Spec.find eq m k with
  | some d => rfl
  | none =>
    rw [Tab.find_none] at hf
    symm
    rw [List.filter_eq_self]
    intro p hp
    simp [hf p hp]

theorem visit_deleter (ops : KeyOps K) (law : ops.Lawful) (del : K × Ptr → Bool) (l : List (K × Ptr)) :
    ∀ (m : Spec.MapState K) (log : List (K × Ptr)), m.readonly = 0 →
    l.Pairwise (fun p q => eqv ops p.1 q.1 = false) →
    Spec.visit (Spec.hashCallStep (eqv ops)) (deleter del) l m log =
      .ok ({ m with map := m.map.filter (fun p => !(l.any fun q => del q && eqv ops p.1 q.1)) }, log ++ l, 0) := by
  induction l with
  | nil =>
    intro m log _ _
    simp [Spec.visit]
  | cons p l ih =>
    intro m log hro hd
    rw [List.pairwise_cons] at hd
    simp only [Spec.visit, deleter]
    by_cases hp : del p = true
    · have hany : l.any (fun q => eqv ops q.1 p.1) = false := by
        rw [List.any_eq_false]
        intro q hq
        rw [Tab.eqv_symm law, hd.1 q hq]; simp
      simp only [hp, if_true, Spec.Calls.run, Spec.hashCallStep, hany, Bool.false_eq_true, if_false,
        Spec.hashStep, hro, ne_eq, not_true_eq_false, Res.bind]
      rw [ih _ _ rfl hd.2]
      simp only [delete_filter, List.filter_filter, List.append_assoc, List.singleton_append, Res.ok.injEq,
        Prod.mk.injEq, and_true]
      congr 1
      apply List.filter_congr
      intro q _
      simp only [List.any_cons, hp, Bool.true_and, Bool.not_or]
      rw [Bool.and_comm]
    · simp only [hp, Spec.Calls.run, Res.bind, Bool.false_eq_true, if_false, ne_eq, not_true_eq_false]
      rw [ih _ _ hro hd.2]
      simp [hp]

/-- C64, the use the code is written for ("Save, because pt might vanish"): a callback may delete the
entry it is given.  With a callback that deletes the entries satisfying `del`, on any reachable
writable table, `hsh_iterate` visits every pair exactly once, returns 0, and leaves the map without
those entries. -/
theorem C64_delete_while_iterating (ops : KeyOps K) (law : ops.Lawful) (h0 : Heap (Entry K Ptr)) (ok0 : h0.Ok)
    (hist : List (Spec.HashOp K)) (t0 : HTab) (s : HState K Ptr) (outs : List Spec.Ret)
    (m : Spec.MapState K) (hc : hcreate 0 = .ok t0)
    (hr : Spec.run (heapStep ops) (h0, t0) hist = .ok (s, outs))
    (hm : Spec.run (Spec.hashStep (eqv ops)) {} hist = .ok (m, outs))
    (hro : m.readonly = 0) (del : K × Ptr → Bool) (n : Nat) (hn : s.2.prime < n) :
    ∃ s' log, hiterate ops (deleter del) n 0 s [] = .ok (s', log, 0) ∧ log.Perm m.map ∧
      ∀ more, Spec.observe (Spec.run (heapStep ops) s' more) =
        Spec.observe (Spec.run (Spec.hashStep (eqv ops))
          { m with map := m.map.filter (fun p => !del p) } more) := by
  have hdist : m.map.Pairwise (fun p q => eqv ops p.1 q.1 = false) := by
    obtain ⟨ht, h1, h2⟩ := heap_history law h0 ok0 hist
    rw [hc] at h1
    cases h1
    rw [hr, hm] at h2
    obtain ⟨-, t, A, r, sim, ow⟩ := h2
    exact sim.rep.spec_distinct law
  obtain ⟨order, hp, h⟩ := C64_iterate_with_calls ops law h0 ok0 hist t0 s outs m hc hr hm (deleter del) []
  have hod : order.Pairwise (fun p q => eqv ops p.1 q.1 = false) :=
    (Tab.spec_distinct_perm law hp).2 hdist
  have hv := visit_deleter ops law del order m [] hro hod
  have hfil : m.map.filter (fun p => !(order.any fun q => del q && eqv ops p.1 q.1)) =
      m.map.filter (fun p => !del p) := by
    apply List.filter_congr
    intro p hpm
    congr 1
    rw [hp.any_eq, Bool.eq_iff_iff, List.any_eq_true]
    constructor
    · rintro ⟨q, hq, h1⟩
      rw [Bool.and_eq_true] at h1
      have : p = q := by
        by_contra hne
        haveI : Std.Symm (fun p q : K × Nat => eqv ops p.1 q.1 = false) :=
          ⟨fun a b hab => by rw [Tab.eqv_symm law]; exact hab⟩
        have h3 := hdist.forall hpm hq hne
        rw [h1.2] at h3; simp at h3
      rw [this]; exact h1.1
    · intro hdel
      exact ⟨p, hpm, by simp [hdel, eqv, law.refl]⟩
  rw [hfil] at hv
  have h2 := h (by rw [hv]; simp) n hn
  rw [hv] at h2
  cases hcc : hiterate ops (deleter del) n 0 s [] <;> rw [hcc] at h2 <;> simp only [Spec.ResRel] at h2
  rename_i c
  refine ⟨c.1, order, ?_, hp, h2.2⟩
  have e : c.2 = (order, 0) := by simpa using h2.1
  rw [← e]

/-- A table with three entries in one chain (and one in another), built by calls. -/
def exTable : Res (HState Nat Ptr) :=
  (hcreate 0).bind fun t =>
    (Spec.run (heapStep exOps) (Heap.init, t) [.insert 1 10, .insert 3 30, .insert 5 50]).bind fun r => .ok r.1

/-- Non-vacuity for C64: on that table a callback that deletes the entry with key 3 and keeps the others
sees all three, and a lookup afterwards finds 1 and not 3. -/
example : (exTable.bind fun s => (hiterate exOps (deleter fun p => p.1 == 3) 100 0 s []).bind fun q =>
      (Spec.run (heapStep exOps) q.1 [.retrieve 1, .retrieve 3]).bind fun r => .ok (q.2, r.2)) =
    .ok (([(5, 50), (1, 10), (3, 30)], 0), [.ptr 10, .ptr 0]) := by rfl

/-- C64, what is not safe (1): a callback that merely looks up another key can make `hsh_iterate` skip an
entry or visit one twice, because a lookup moves the entry found to the front of its chain.  On the
table above a callback that looks up key 3 each time is never given the entry with key 3, and one
that looks up key 1 is given the entry with key 5 twice; in both cases the callback never asks to
stop and the function returns 0. -/
theorem C64_refuted_lookup :
    (exTable.bind fun s => (hiterate exOps (fun log p => .call (.retrieve 3) fun _ => .ret (log ++ [p.1]) 0)
      100 0 s []).bind fun q => .ok q.2) = .ok ([5, 1], 0) ∧
    (exTable.bind fun s => (hiterate exOps (fun log p => .call (.retrieve 1) fun _ => .ret (log ++ [p.1]) 0)
      100 0 s []).bind fun q => .ok q.2) = .ok ([5, 1, 5, 3], 0) := ⟨by rfl, by rfl⟩

/-- C64, what is not safe (2): deleting the entry that comes next uses freed memory. -/
theorem C64_refuted_delete_next :
    (exTable.bind fun s => hiterate exOps (fun (st : Unit) _ => .call (.delete 1) fun _ => .ret st 0)
      100 0 s ()) = .ub := by
  exact Res.eq_ub_of (by decide +kernel)

/-- C64, what is not safe (3): inserting from the callback uses freed memory when the table grows. -/
theorem C64_refuted_insert :
    (exTable.bind fun s => hiterate exOps (fun (st : Unit) p => .call (.insert (p.1 + 6) 1) fun _ =>
      .call (.insert (p.1 + 12) 1) fun _ => .ret st 0) 100 0 s ()) = .ub := by
  exact Res.eq_ub_of (by decide +kernel)

/-- C16 for callbacks that call the library: on any reachable set `set_iterate` behaves like visiting the
members once each with the callback's membership tests answered truthfully; a callback that inserts
or deletes aborts the program (the set is read-only meanwhile); when it returns, the set's memory is
untouched, and whatever calls follow — including what `set_readonly` reports — return what they would
have returned without the iteration. -/
theorem C16_iterate_with_calls (ops : KeyOps K) (law : ops.Lawful) (h0 : Heap (Entry K Unit)) (ok0 : h0.Ok)
    (hist : List (Spec.OneSetOp K)) (t0 : HTab) (s : HState K Unit) (outs : List Int)
    (m : Spec.OneSet K) (hc : hcreate 0 = .ok t0)
    (hr : Spec.run (setHeapStep ops) (h0, t0) hist = .ok (s, outs))
    (hm : Spec.run (Spec.oneSetStep (eqv ops)) {} hist = .ok (m, outs))
    (f : σ → K × Unit → Spec.Calls (Spec.OneSetOp K) Int σ) (st : σ) :
    ∃ order, order.Perm m.elems ∧
      (Spec.visit (Spec.setCallStep (eqv ops)) f order m st ≠ .ub → ∀ n, s.2.prime < n →
        Spec.ResRel (fun c b => c.2 = b.2 ∧ b.1 = m ∧ c.1.1 = s.1 ∧ ∀ more,
            Spec.observe (Spec.run (setHeapStep ops) c.1 more) =
              Spec.observe (Spec.run (Spec.oneSetStep (eqv ops)) m more))
          (siterate ops f n s st) (Spec.visit (Spec.setCallStep (eqv ops)) f order m st)) := by
  obtain ⟨ht, h1, h2⟩ := set_history law h0 ok0 hist
  rw [hc] at h1
  cases h1
  rw [hr, hm] at h2
  obtain ⟨order, hp, h⟩ := siterate_sim law h0 f m s h2.2 st
  refine ⟨order, hp, fun hne n hn => ?_⟩
  have := h hne n hn
  cases hcc : siterate ops f n s st <;>
    cases hb : Spec.visit (Spec.setCallStep (eqv ops)) f order m st <;>
    rw [hcc, hb] at this <;> simp only [Spec.ResRel] at this ⊢
  exact ⟨this.1, this.2.1, this.2.2.1, fun more =>
    (Spec.run_sim (SSim ops h0) _ _ (setHeapStep_sim law h0) _ _ more this.2.2.2).observe⟩

/-- A set with three elements in one chain. -/
def exSet : Res (HState Nat Unit) :=
  (hcreate 0).bind fun t =>
    (Spec.run (setHeapStep exOps) (Heap.init, t) [.insert 1, .insert 3, .insert 5, .readonly 7]).bind fun r => .ok r.1

/-- Non-vacuity: a callback that asks whether its element plus two is a member is answered each time,
every element is visited, and afterwards the flag the user had set is reported again. -/
example : (exSet.bind fun s => (siterate exOps
      (fun log p => .call (.member (p.1 + 2)) fun r => .ret (log ++ [(p.1, r)]) 0) 100 s []).bind fun q =>
      (Spec.run (setHeapStep exOps) q.1 [.readonly 0]).bind fun r => .ok (q.2, r.2)) =
    .ok (([(5, 0), (1, 1), (3, 1)], 0), [7]) := by rfl

/-- A callback of `set_iterate` that inserts or deletes aborts the program, on every non-empty set. -/
theorem C16_callback_cannot_modify (ops : KeyOps K) (law : ops.Lawful) (h0 : Heap (Entry K Unit)) (ok0 : h0.Ok)
    (hist : List (Spec.OneSetOp K)) (t0 : HTab) (s : HState K Unit) (outs : List Int)
    (m : Spec.OneSet K) (hc : hcreate 0 = .ok t0)
    (hr : Spec.run (setHeapStep ops) (h0, t0) hist = .ok (s, outs))
    (hm : Spec.run (Spec.oneSetStep (eqv ops)) {} hist = .ok (m, outs)) (hne : m.elems ≠ [])
    (f : σ → K × Unit → Spec.Calls (Spec.OneSetOp K) Int σ) (st : σ)
    (hf : ∀ p, ∃ e k, f st p = .call (.insert e) k ∨ f st p = .call (.delete e) k)
    (n : Nat) (hn : s.2.prime < n) : siterate ops f n s st = .abort := by
  obtain ⟨order, hp, h⟩ := C16_iterate_with_calls ops law h0 ok0 hist t0 s outs m hc hr hm f st
  have hv : Spec.visit (Spec.setCallStep (eqv ops)) f order m st = .abort := by
    cases order with
    | nil => exact absurd hp.symm.eq_nil hne
    | cons p l =>
      obtain ⟨e, k, h1 | h1⟩ := hf p <;> simp [Spec.visit, h1, Spec.Calls.run, Spec.setCallStep, Res.bind]
  have h2 := h (by rw [hv]; simp) n hn
  rw [hv] at h2
  cases hcc : siterate ops f n s st <;> rw [hcc] at h2 <;> simp only [Spec.ResRel] at h2

end Maa.HashHeap
