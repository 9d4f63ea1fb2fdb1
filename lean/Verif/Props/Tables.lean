import Verif.Lemmas.Tables
import Verif.Props.Set

/-! # Property C69: several hash tables in one memory (maa/hash.c) -/

namespace Maa.Tables

open Set (FnEnv eqOf)

variable {K σ : Type}

/-- C69: every history of calls on any number of hash tables — created, used and destroyed in any order, with their chains in one common
memory, at whatever addresses the allocator chooses — returns what independent finite maps return and ends where they end. -/
theorem C69_many_tables (place : Policy) (hp : Heap.Allocator place) (env : FnEnv K)
    (hist : List (Spec.TabOp K)) (ok : ∀ o ∈ hist, Lawful env o) :
    Spec.observe (Spec.run (tablesStep env) (HTables.empty place) hist) = Spec.observe (Spec.run (Spec.tabStep (eqOf env)) Spec.Tables.empty hist) :=
  (history_sim hist _ _ ⟨_, _, TRep.empty hp⟩ ok).observe

/-- C69, independence: what the calls on a table return is what the same calls return on a finite map alone, whatever calls on other tables
come between them. -/
theorem C69_independent (place : Policy) (hp : Heap.Allocator place) (env : FnEnv K)
    (pre post : List (Spec.TabOp K)) (h c : Nat) (ok : ∀ o ∈ pre ++ .create h c :: post, Lawful env o)
    (s s1 s2 : HTables K) (outs0 outs : List Spec.Ret) (i : Nat) (h0 : Spec.run (tablesStep env) (HTables.empty place) pre = .ok (s, outs0))
    (h1 : tablesStep env s (.create h c) = .ok (s1, .int i)) (h2 : Spec.run (tablesStep env) s1 post = .ok (s2, outs)) :
    Spec.observe (Spec.run (Spec.hashStep (eqOf env c)) {} ((Spec.callsOn i post outs).map Prod.fst)) =
      .ok ((Spec.callsOn i post outs).map Prod.snd) := by
  have g0 := history_sim pre _ _ ⟨_, _, TRep.empty hp⟩ fun o ho => ok o (by simp [ho])
  rw [h0] at g0
  cases hb : Spec.run (Spec.tabStep (eqOf env)) Spec.Tables.empty pre <;> rw [hb] at g0 <;> simp only [Spec.ResRel] at g0
  rename_i b
  have g1 := step_sim s b.1 (.create h c) (ok _ (by simp)) g0.2
  rw [h1] at g1
  simp only [Spec.tabStep, Spec.ResRel] at g1
  have g2 := history_sim post _ _ g1.2 fun o ho => ok o (by simp [ho])
  rw [h2] at g2
  cases hc : Spec.run (Spec.tabStep (eqOf env)) { objs := fun j => if j = b.1.next then some { cmpFn := c } else b.1.objs j, next := b.1.next + 1 } post <;>
    rw [hc] at g2 <;> simp only [Spec.ResRel] at g2
  rename_i d
  have hi : i = b.1.next := by
    have := g1.1
    simp only [Spec.Ret.int.injEq] at this
    exact_mod_cast this
  obtain ⟨m, hm⟩ := (alone (i := i) post _ d.1 d.2 hc (by rw [hi]; simp)).2 { cmpFn := c } (by simp [hi])
  rw [g2.1, hm]
  rfl

/-- C69, memory: after any history every live cell belongs to exactly one live table, so that nothing is lost and nothing is shared; when all
tables have been destroyed, no cell is left. -/
theorem C69_memory (place : Policy) (hp : Heap.Allocator place) (env : FnEnv K)
    (hist : List (Spec.TabOp K)) (ok : ∀ o ∈ hist, Lawful env o) (s : HTables K) (outs : List Spec.Ret)
    (hr : Spec.run (tablesStep env) (HTables.empty place) hist = .ok (s, outs)) :
    (∀ a, (s.heap.mem a).isSome ↔ ∃ i t, s.tabs i = some t ∧ Spec.InChains s.heap t.tab a) ∧
    (∀ i j t u a, s.tabs i = some t → s.tabs j = some u → Spec.InChains s.heap t.tab a → Spec.InChains s.heap u.tab a → i = j) ∧
    ((∀ i, s.tabs i = none) → ∀ a, s.heap.mem a = none) := by
  have h := history_sim hist _ _ ⟨_, _, TRep.empty hp⟩ ok
  rw [hr] at h
  cases hb : Spec.run (Spec.tabStep (eqOf env)) Spec.Tables.empty hist <;> rw [hb] at h <;> simp only [Spec.ResRel] at h
  obtain ⟨-, C, A, r⟩ := h
  obtain ⟨m1, m2, m3⟩ := r.m.memory
  refine ⟨fun a => (m1 a).trans ⟨?_, ?_⟩, ?_, fun hn => m3 fun i => by simp [hn i]⟩
  · rintro ⟨i, t, h1, h2⟩
    simp only [Option.map_eq_some_iff] at h1
    obtain ⟨t, h3, rfl⟩ := h1
    exact ⟨i, t, h3, h2⟩
  · rintro ⟨i, t, h1, h2⟩
    exact ⟨i, t.tab, by simp [h1], h2⟩
  · intro i j t u a hi hj
    exact m2 i j t.tab u.tab a (by simp [hi]) (by simp [hj])

/-- C69, loops: a loop HSH_ITERATE over a table, reached by any history, whose body makes any calls on any tables — creates, changes and
destroys others, looks things up in the one being walked — visits exactly the entries the table had at the start, each once, in some order;
the calls of its body return what they return on independent maps, it ends as the specified loop ends (with the table writable again if
it was complete), and every call made after it returns what it returns on the maps the specified loop leaves. -/
theorem C69_loop (place : Policy) (hp : Heap.Allocator place) (env : FnEnv K)
    (hist : List (Spec.TabOp K)) (ok : ∀ o ∈ hist, Lawful env o) (s : HTables K) (outs : List Spec.Ret)
    (hr : Spec.run (tablesStep env) (HTables.empty place) hist = .ok (s, outs)) :
    ∃ α : Spec.Tables K, Spec.run (Spec.tabStep (eqOf env)) Spec.Tables.empty hist = .ok (α, outs) ∧
      ∀ (i : Nat) (a : Spec.TabState K), α.objs i = some a → ∀ (f : σ → K × Ptr → Spec.Calls (Spec.TabOp K) Spec.Ret σ),
        (∀ st kd, (f st kd).All (BodyOp env i)) → ∀ (n : Nat), a.st.map.length < n → ∀ (st : σ),
        ∃ order : List (K × Nat), order.Perm a.st.map ∧ ∀ more : List (Spec.TabOp K), (∀ o ∈ more, Lawful env o) →
          ((iterate env i f n s st).bind fun q => (Spec.observe (Spec.run (tablesStep env) q.1 more)).bind fun outs => .ok (q.2, outs)) =
          ((Spec.tabLoop (eqOf env) i f order α st).bind fun q =>
            (Spec.observe (Spec.run (Spec.tabStep (eqOf env)) q.1 more)).bind fun outs => .ok (q.2, outs)) := by
  have h := history_sim hist _ _ ⟨_, _, TRep.empty hp⟩ ok
  rw [hr] at h
  cases hb : Spec.run (Spec.tabStep (eqOf env)) Spec.Tables.empty hist <;> rw [hb] at h <;> simp only [Spec.ResRel] at h
  rename_i b
  obtain ⟨h1, h2⟩ := h
  refine ⟨b.1, by rw [h1], fun i a ha f hf n hn st => ?_⟩
  obtain ⟨order, p1, p2⟩ := iterate_sim hf h2 ha n hn st
  refine ⟨order, p1, fun more hm => ?_⟩
  cases hc : iterate env i f n s st <;> cases hd : Spec.tabLoop (eqOf env) i f order b.1 st <;> rw [hc, hd] at p2 <;>
    simp only [Spec.ResRel] at p2 <;> simp only [Res.bind]
  rename_i c d
  rw [(history_sim more c.1 d.1 p2.2 hm).observe, p2.1]

/-- A body that creates tables, fills and destroys others and looks things up in the walked one is allowed. -/
example (st : Nat) (kd : Nat × Ptr) : Spec.Calls.All (BodyOp Set.exEnv 0) (.call (.create 0 0) fun _ => .call (.call 1 (.insert kd.1 kd.2)) fun _ =>
    .call (.call 0 (.retrieve kd.1)) fun r => .call (.call 1 (.readonly 0)) fun _ => .call (.destroy 1) fun _ =>
      .ret (σ := Nat) (st + 1) (if r = Spec.Ret.ptr 3 then 1 else 0)) := by
  refine ⟨⟨fun h c _ => Set.exEnv_lawful h c, by simp⟩, fun _ => ⟨⟨fun h c _ => Set.exEnv_lawful h c, by simp⟩, fun _ =>
    ⟨⟨fun h c _ => Set.exEnv_lawful h c, by simp⟩, fun _ => ⟨⟨fun h c _ => Set.exEnv_lawful h c, by simp⟩, fun _ =>
      ⟨⟨fun h c _ => Set.exEnv_lawful h c, by simp⟩, fun _ => trivial⟩⟩⟩⟩⟩

/-- Non-vacuity: two tables; the entries of the first are copied into the second, which grows meanwhile, and a lookup is made in the
first; then the first is destroyed and the second still answers. -/
example : ((Spec.run (tablesStep Set.exEnv) HTables.empty
      [.create 0 0, .create 0 0, .call 0 (.insert 1 11), .call 0 (.insert 4 44), .call 0 (.insert 7 77), .call 1 (.insert 2 22)]).bind fun q =>
    (iterate Set.exEnv 0 (fun (st : Nat) kd => .call (.call 1 (.insert kd.1 kd.2)) fun _ => .call (.call 0 (.retrieve kd.1)) fun _ => .ret (st + 1) 0)
      4 q.1 0).bind fun q2 =>
    (Spec.observe (Spec.run (tablesStep Set.exEnv) q2.1
      [.call 0 (.readonly 0), .destroy 0, .call 1 (.retrieve 4), .call 1 (.retrieve 7), .call 1 (.retrieve 2), .call 1 (.retrieve 5)])).bind fun o =>
        .ok (q.2, q2.2, o)) =
    .ok ([.int 0, .int 1, .int 0, .int 0, .int 0, .int 0], (3, 0), [.int 0, .int 0, .ptr 44, .ptr 77, .ptr 22, .ptr 0]) := by
  decide +kernel

/-- Non-vacuity: the same with an allocator that hands out the address freed last, so that cells of the second table come to lie where cells of
the first were. -/
example : Heap.Allocator Heap.atOnce ∧ Spec.observe (Spec.run (tablesStep Set.exEnv) (HTables.empty Heap.atOnce)
      [.create 0 0, .create 0 0, .call 0 (.insert 1 11), .call 0 (.insert 4 44), .call 0 (.delete 4), .call 1 (.insert 2 22), .call 0 (.retrieve 4),
       .call 0 (.retrieve 1), .call 1 (.insert 4 45), .call 1 (.insert 7 78), .destroy 0, .call 1 (.retrieve 4), .call 1 (.retrieve 2)]) =
    .ok [.int 0, .int 1, .int 0, .int 0, .int 0, .int 0, .ptr 0, .ptr 11, .int 0, .int 0, .int 0, .ptr 45, .ptr 22] :=
  ⟨Heap.atOnce_ok, by decide +kernel⟩

end Maa.Tables
