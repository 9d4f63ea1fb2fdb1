import Verif.Lemmas.TabProgs
import Verif.Props.Set
import Verif.Props.SetProgs
import Verif.Spec.Chains

/-! # Property C74: programs with hash tables and walks inside walks (maa/hash.c) -/

namespace Maa.Tables

open Set (FnEnv eqOf exEnv exEnv_lawful)
open SetHeap (ending Then_mono)

variable {K σ : Type}

/-- C74: whatever the specification guarantees about a program for every order of the pairs, the program run on hash tables in memory does: it
ends with an outcome the guarantee allows, in particular without undefined behaviour if none is allowed.  The program may use any number of tables,
make any calls, and walk over tables (`hsh_iterate`, `HSH_ITERATE`) inside the bodies of other walks, also over the same table, delete what it
visits, and decide by what it has seen; the allocator is arbitrary. -/
theorem C74_programs (place : Policy) (hp : Heap.Allocator place) (env : FnEnv K) (p : Spec.TabProg K σ) (Q : Spec.TabOut K σ → Prop)
    (h : Spec.Ensured (eqOf env) (Lawful env) [] p Spec.Tables.empty Q) :
    ∃ out, Q out ∧ ending (exec env p (HTables.empty place)) = ending out := by
  obtain ⟨out, h1, h2⟩ := exec_sim (env := env) p [] _ _ _ _ Q (TRep.empty hp) (fun i hi => by simp at hi) h
  refine ⟨out, h1, ?_⟩
  cases hc : exec env p (HTables.empty place) <;> cases out <;> simp only [hc, Spec.ResRel, ending, Res.bind] at h2 ⊢
  rw [h2.1]

/-- C74, memory: when the program has ended, every live cell belongs to exactly one live table, and no cell is left when all tables have been
destroyed. -/
theorem C74_memory (place : Policy) (hp : Heap.Allocator place) (env : FnEnv K) (p : Spec.TabProg K σ)
    (h : Spec.Ensured (eqOf env) (Lawful env) [] p Spec.Tables.empty fun _ => True) (s : HTables K) (q : σ × Int)
    (hr : exec env p (HTables.empty place) = .ok (s, q)) :
    (∀ a, (s.heap.mem a).isSome ↔ ∃ i t, s.tabs i = some t ∧ Spec.InChains s.heap t.tab a) ∧
    (∀ i j t u a, s.tabs i = some t → s.tabs j = some u → Spec.InChains s.heap t.tab a → Spec.InChains s.heap u.tab a → i = j) ∧
    ((∀ i, s.tabs i = none) → ∀ a, s.heap.mem a = none) := by
  obtain ⟨out, -, h2⟩ := exec_sim (env := env) p [] _ _ _ _ _ (TRep.empty hp) (fun i hi => by simp at hi) h
  rw [hr] at h2
  cases out <;> simp only [Spec.ResRel] at h2
  obtain ⟨-, w, A, r, -⟩ := h2
  obtain ⟨m1, m2, m3⟩ := r.m.memory
  refine ⟨fun a => (m1 a).trans ⟨?_, ?_⟩, ?_, fun hn => m3 fun i => by simp [hn i]⟩
  · rintro ⟨i, t, h1, h2⟩
    simp only [Option.map_eq_some_iff] at h1
    obtain ⟨u, h3, rfl⟩ := h1
    exact ⟨i, u, h3, h2⟩
  · rintro ⟨i, t, h1, h2⟩
    exact ⟨i, t.tab, by simp [h1], h2⟩
  · intro i j t u a h1 h2
    exact m2 i j t.tab u.tab a (by simp [h1]) (by simp [h2])

/-! ### the guarantees of the specification can be established step by step -/

theorem visitPairs_mono {body : List (K × Nat) → σ → K × Nat → Spec.Tables K → (Spec.TabOut K σ → Prop) → Prop}
    (hb : ∀ rest st e α Q Q', (∀ o, Q o → Q' o) → body rest st e α Q → body rest st e α Q') (l : List (K × Nat)) :
    ∀ α st Q Q', (∀ o, Q o → Q' o) → Spec.visitPairs body l α st Q → Spec.visitPairs body l α st Q' := by
  induction l with
  | nil => intro α st Q Q' hQ h; exact hQ _ h
  | cons e l ih =>
    intro α st Q Q' hQ h
    refine hb l st e α _ _ (fun o ho => Then_mono hQ (fun q hq => ?_) ho) h
    by_cases hz : q.2.2 ≠ 0
    · rw [if_pos hz] at hq ⊢; exact hQ _ hq
    · rw [if_neg hz] at hq ⊢; exact ih _ _ Q Q' hQ hq

/-- a stronger guarantee implies a weaker one -/
theorem ensured_mono {eq : Nat → K → K → Bool} {rule : Spec.TabOp K → Prop} (p : Spec.TabProg K σ) : ∀ L α Q Q', (∀ o, Q o → Q' o) →
    Spec.Ensured eq rule L p α Q → Spec.Ensured eq rule L p α Q' := by
  induction p with
  | ret st r => intro L α Q Q' hQ h; exact hQ _ h
  | call o k ih =>
    intro L α Q Q' hQ h
    exact ⟨h.1, h.2.1, Then_mono hQ (fun q hq => ih _ _ _ _ _ hQ hq) h.2.2⟩
  | walk i st f k ihf ihk =>
    intro L α Q Q' hQ h
    refine Then_mono hQ (fun a ha order ho => ?_) h
    exact visitPairs_mono (fun rest st e α Q Q' hQ h => ihf st e ((i, some rest) :: L) α Q Q' hQ h) order _ _ _ _
      (fun o ho => Then_mono hQ (fun q hq => ihk _ _ _ _ _ _ hQ hq) ho) (ha order ho)
  | loop i st f k ihf ihk =>
    intro L α Q Q' hQ h
    refine ⟨h.1, Then_mono hQ (fun a ha order ho => ?_) h.2⟩
    have := ha order ho
    by_cases he : order = []
    · rw [if_pos he] at this ⊢; exact ihk _ _ _ _ _ _ hQ this
    · rw [if_neg he] at this ⊢
      exact visitPairs_mono (fun rest st e α Q Q' hQ h => ihf st e _ α Q Q' hQ h) order _ _ _ _
        (fun o ho => Then_mono hQ (fun q hq => ihk _ _ _ _ _ _ hQ hq) ho) this

/-- a walk that is never left: what holds before a visit of each pair and is carried on by it holds in the end -/
theorem visitPairs_inv {body : List (K × Nat) → σ → K × Nat → Spec.Tables K → (Spec.TabOut K σ → Prop) → Prop}
    (hb : ∀ rest st e α Q Q', (∀ o, Q o → Q' o) → body rest st e α Q → body rest st e α Q') (I : List (K × Nat) → Spec.Tables K → σ → Prop)
    (hstep : ∀ e rest α st, I (e :: rest) α st → body rest st e α fun o => ∃ α' st', o = .ok (α', st', 0) ∧ I rest α' st')
    {Q : Spec.TabOut K σ → Prop} (hQ : ∀ α st, I [] α st → Q (.ok (α, st, 0))) (l : List (K × Nat)) :
    ∀ α st, I l α st → Spec.visitPairs body l α st Q := by
  induction l with
  | nil => intro α st h; exact hQ _ _ h
  | cons e l ih =>
    intro α st h
    refine hb _ _ _ _ _ _ ?_ (hstep e l α st h)
    rintro o ⟨α', st', rfl, h'⟩
    exact ih α' st' h'

/-! ### an example: emptying a table into another one while walking over it -/

/-- `hsh_iterate` over table `i` with a function that inserts each pair into table `j` and deletes it from table `i`; the
result is the number of pairs. -/
def drain (i j : Nat) : Spec.TabProg K Nat :=
  .walk i 0 (fun st p => .call (.call j (.insert p.1 p.2)) fun _ => .call (.call i (.delete p.1)) fun _ => .ret (st + 1) 0) fun st _ => .ret st st

/-- For all tables: afterwards table `i` is empty and every pair has been visited once. -/
theorem drain_ok (eq : Nat → K → K → Bool) (rule : Spec.TabOp K → Prop) (hrule : ∀ i o, rule (.call i o)) (α : Spec.Tables K) (i j : Nat) (hij : i ≠ j)
    (a b : Spec.TabState K) (ha : α.objs i = some a) (hb : α.objs j = some b) (ra : a.st.readonly = 0) (rb : b.st.readonly = 0)
    (hrefl : ∀ k, eq a.cmpFn k k = true) (hsymm : ∀ k l, eq a.cmpFn k l = eq a.cmpFn l k) (hd : Spec.Distinct (eq a.cmpFn) a.st.map) :
    Spec.Ensured eq rule [] (drain i j) α fun o => ∃ α' a', o = .ok (α', a.st.map.length, (a.st.map.length : Int)) ∧
      α'.objs i = some a' ∧ a'.st.map = [] := by
  rw [drain, Spec.Ensured]
  simp only [Spec.Tables.get, ha, Spec.Then]
  intro order ho
  refine visitPairs_inv ?_
    (I := fun rest α st => (∃ a', α.objs i = some a' ∧ a'.st.readonly = 0 ∧ a'.cmpFn = a.cmpFn ∧ a'.st.map.Perm rest) ∧
      (∃ b', α.objs j = some b' ∧ b'.st.readonly = 0) ∧ Spec.Distinct (eq a.cmpFn) rest ∧ st + rest.length = a.st.map.length)
    ?_ ?_ order α 0 ⟨⟨a, ha, ra, rfl, ho.symm⟩, ⟨b, hb, rb⟩, ?_, by rw [ho.length_eq]; omega⟩
  · exact fun rest st e α Q Q' hQ h => ensured_mono _ _ α Q Q' hQ h
  · rintro e rest β st ⟨⟨a', h1, h2, h3, h4⟩, ⟨b', h5, h6⟩, h7, h8⟩
    have hne : rest.any (fun p => eq a.cmpFn p.1 e.1) = false := by
      rw [List.any_eq_false]
      intro p hp
      have := (List.pairwise_cons.1 h7).1 p hp
      rw [hsymm, this]; simp
    have hf : ∃ d, Spec.find (eq a.cmpFn) a'.st.map e.1 = some d := by
      have hmem : e ∈ a'.st.map := h4.symm.subset (List.mem_cons_self ..)
      generalize a'.st.map = m at hmem
      induction m with
      | nil => simp at hmem
      | cons c m ih =>
        obtain ⟨k, d⟩ := c
        simp only [Spec.find]
        by_cases hk : eq a.cmpFn k e.1 = true
        · exact ⟨d, by rw [if_pos hk]⟩
        · rw [if_neg hk]
          rcases List.mem_cons.1 hmem with rfl | hm
          · exact absurd (hrefl _) hk
          · exact ih hm
    obtain ⟨d, hf⟩ := hf
    have hperm : (a'.st.map.filter fun p => !eq a.cmpFn p.1 e.1).Perm rest := by
      have := h4.filter fun p => !eq a.cmpFn p.1 e.1
      rw [List.filter_cons_of_neg (by simp [hrefl])] at this
      have hr : rest.filter (fun p => !eq a.cmpFn p.1 e.1) = rest := List.filter_eq_self.2 (fun p hp => by
        rw [List.any_eq_false] at hne
        simpa using hne p hp)
      rwa [hr] at this
    have hji : j ≠ i := Ne.symm hij
    simp only [Spec.Ensured, Spec.tabStep, Spec.Tables.get, h5, Spec.hashStep, Res.bind, Spec.Then, Spec.Tables.put, hij, if_false, h1, h2, h3,
      h6, ne_eq, not_true_eq_false]
    refine ⟨hrule _ _, ?_, hrule _ _, ?_, ?_⟩
    · intro w hw
      simp only [List.mem_singleton] at hw
      subst hw
      exact fun _ _ => Or.inr hji
    · intro w hw
      simp only [List.mem_singleton] at hw
      subst hw
      intro x hx
      simp only [hij, if_false, h1, Option.some.injEq] at hx
      subst hx
      exact Or.inr fun _ => by rw [h3]; exact hne
    · refine ⟨_, _, rfl, ?_, ?_, (List.pairwise_cons.1 h7).2, by simp only [List.length_cons] at h8; omega⟩
      · simp only [if_true]
        refine ⟨_, rfl, ?_, ?_, ?_⟩
        · first | exact h2 | rfl
        · first | exact h3 | rfl
        · simpa only [Spec.delete, hf] using hperm
      · simp only [hji, if_false, if_true]
        exact ⟨_, rfl, by first | exact h6 | rfl⟩
  · rintro β st ⟨⟨a', h1, -, -, h4⟩, -, -, hst⟩
    exact ⟨β, a', by simp at hst; simp [hst], h1, by simpa using h4⟩
  · exact hd.perm ho.symm (fun {x y} h => by rw [hsymm]; exact h)

/-- the hypotheses of C74 are met, and its conclusion says something: three entries in one chain are moved to another table, which answers
for them afterwards, while the first table has become empty -/
example (place : Policy) (hp : Heap.Allocator place) :
    ending (exec exEnv (.call (.create 0 0) fun _ => .call (.create 0 0) fun _ => .call (.call 0 (.insert 1 11)) fun _ =>
      .call (.call 0 (.insert 4 44)) fun _ => .call (.call 0 (.insert 7 77)) fun _ => drain 0 1) (HTables.empty place)) = .ok (3, 3) := by
  have ok : ∀ o, Lawful exEnv o := fun o h c _ => exEnv_lawful h c
  obtain ⟨out, ⟨α, h1⟩, h2⟩ := C74_programs place hp exEnv (.call (.create 0 0) fun _ => .call (.create 0 0) fun _ => .call (.call 0 (.insert 1 11)) fun _ =>
      .call (.call 0 (.insert 4 44)) fun _ => .call (.call 0 (.insert 7 77)) fun _ => drain 0 1)
    (fun o => ∃ α, o = .ok (α, 3, 3)) (by
      simp only [Spec.Ensured, Spec.tabStep, Spec.Then, Spec.Tables.get, Spec.Tables.put, Spec.Tables.empty, if_true, Spec.hashStep, Res.bind,
        zero_add, zero_ne_one, if_false, ne_eq, not_true_eq_false]
      refine ⟨ok _, by simp, ok _, by simp, ok _, by simp, ok _, by simp, ok _, by simp, ?_⟩
      refine ensured_mono _ _ _ _ _ ?_ (drain_ok _ _ (fun _ _ => ok _) _ 0 1 (by decide)
        { st := { map := [(7, 77), (4, 44), (1, 11)] }, cmpFn := 0 } { cmpFn := 0 } rfl rfl rfl rfl ?_ ?_ ?_)
      · rintro o ⟨α, a', rfl, -⟩
        exact ⟨α, rfl⟩
      · intro k; simp [eqOf, exEnv]
      · intro k l; simp only [eqOf, exEnv]; by_cases h : k = l <;> simp [h] <;> omega
      · simp [Spec.Distinct, eqOf, exEnv])
  rw [h2, h1]
  rfl

/-- C74, the rule about `HSH_ITERATE` is needed: deleting the key at hand in the body of a `HSH_ITERATE` ends the program with a message (the table is
read-only), but after a second, complete `HSH_ITERATE` over the same table in that body it is carried out and the outer loop continues from
freed memory. -/
theorem C74_nested_macro_refuted :
    (∀ place, Heap.Allocator place → ending (exec exEnv (.call (.create 0 0) fun _ => .call (.call 0 (.insert 7 1)) fun _ =>
      .loop 0 () (fun _ p => .call (.call 0 (.delete p.1)) fun _ => .ret () 0) fun _ _ => .ret () 0) (HTables.empty place)) = .abort) ∧
    exec exEnv (.call (.create 0 0) fun _ => .call (.call 0 (.insert 7 1)) fun _ =>
      .loop 0 () (fun _ p => .loop 0 () (fun _ _ => .ret () 0) fun _ _ => .call (.call 0 (.delete p.1)) fun _ => .ret () 0) fun _ _ => .ret () 0)
      (HTables.empty) = .ub := by
  refine ⟨fun place hp => ?_, Res.eq_ub_of (by decide +kernel)⟩
  have ok : ∀ o, Lawful exEnv o := fun o h c _ => exEnv_lawful h c
  obtain ⟨out, h1, h2⟩ := C74_programs place hp exEnv (.call (.create 0 0) fun _ => .call (.call 0 (.insert 7 1)) fun _ =>
      .loop 0 () (fun _ p => .call (.call 0 (.delete p.1)) fun _ => .ret () 0) fun _ _ => .ret () 0) (fun o => o = .abort) (by
      simp only [Spec.Ensured, Spec.tabStep, Spec.Then, Spec.Tables.get, Spec.Tables.put, Spec.Tables.empty, if_true, Spec.hashStep, Res.bind,
        ne_eq, not_true_eq_false, if_false]
      refine ⟨ok _, by simp, ok _, by simp, by simp, fun order ho => ?_⟩
      have hperm : order = [(7, 1)] := by
        have : (Spec.insert (eqOf exEnv 0) ([] : List (Nat × Nat)) 7 1).1 = [(7, 1)] := by decide
        rw [this] at ho
        exact List.perm_singleton.1 ho
      subst hperm
      simp only [List.cons_ne_nil, if_false, Spec.visitPairs, Spec.Tables.lock, Spec.Tables.put, if_true]
      exact ⟨ok _, by simp [Spec.Allowed], by simp [Spec.Then]⟩)
  rw [h2, h1]
  rfl

end Maa.Tables
