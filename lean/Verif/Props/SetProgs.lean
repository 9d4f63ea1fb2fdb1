import Verif.Lemmas.SetProgs
import Verif.Props.Set
import Verif.Spec.Chains

/-! # Property C73: programs with sets and walks inside walks (maa/set.c) -/

namespace Maa.SetHeap

open Set (FnEnv eqOf OkOp exEnv exEnv_lawful)

variable {K σ : Type}

/-- What is seen of the end of a program: its variables and result, or the way of not returning. -/
def ending {S : Type} (x : Res (S × σ × Int)) : Res (σ × Int) := x.bind fun q => .ok q.2

/-- C73: whatever the specification guarantees about a program for every order of the elements, the program run on sets in
memory does: it ends with an outcome the guarantee allows, in particular without undefined behaviour if none is allowed.  The program may use any number of
sets, make any calls, and walk over sets (`set_iterate`, `SET_ITERATE`) inside the bodies of other walks, also over the same set,
deciding by what it has seen; the allocator is arbitrary. -/
theorem C73_programs (place : Policy) (hp : Heap.Allocator place) (env : FnEnv K) (p : Spec.SetProg K σ) (Q : Spec.SetOut K σ → Prop)
    (h : Spec.Ensures (eqOf env) (OkOp env) [] p Spec.AStore.empty Q) :
    ∃ out, Q out ∧ ending (exec env p (HStore.empty place)) = ending out := by
  obtain ⟨out, h1, h2⟩ := exec_sim (env := env) p [] _ _ _ _ Q (HSt.empty hp) ⟨rfl, fun _ => trivial⟩ (fun i hi => by simp at hi) h
  refine ⟨out, h1, ?_⟩
  cases hc : exec env p (HStore.empty place) <;> cases out <;> simp only [hc, Spec.ResRel, ending, Res.bind] at h2 ⊢
  rw [h2.1]

/-- C73, memory: when the program has ended, every live cell belongs to exactly one live set, and no cell is left when all sets have been
destroyed. -/
theorem C73_memory (place : Policy) (hp : Heap.Allocator place) (env : FnEnv K) (p : Spec.SetProg K σ)
    (h : Spec.Ensures (eqOf env) (OkOp env) [] p Spec.AStore.empty fun _ => True) (s : HStore K) (q : σ × Int)
    (hr : exec env p (HStore.empty place) = .ok (s, q)) :
    (∀ a, (s.heap.mem a).isSome ↔ ∃ i t, s.sets i = some t ∧ Spec.InChains s.heap t.tab a) ∧
    (∀ i j t u a, s.sets i = some t → s.sets j = some u → Spec.InChains s.heap t.tab a → Spec.InChains s.heap u.tab a → i = j) ∧
    ((∀ i, s.sets i = none) → ∀ a, s.heap.mem a = none) := by
  obtain ⟨out, -, h2⟩ := exec_sim (env := env) p [] _ _ _ _ _ (HSt.empty hp) ⟨rfl, fun _ => trivial⟩ (fun i hi => by simp at hi) h
  rw [hr] at h2
  cases out <;> simp only [Spec.ResRel] at h2
  obtain ⟨-, w, A, r, -, -⟩ := h2
  obtain ⟨m1, m2, m3⟩ := r.m.memory
  refine ⟨fun a => (m1 a).trans ⟨?_, ?_⟩, ?_, fun hn => m3 fun i => by simp [hn i]⟩
  · rintro ⟨i, t, h1, h2⟩
    simp only [Option.map_eq_some_iff] at h1
    obtain ⟨u, h3, rfl⟩ := h1
    exact ⟨i, u, h3, h2⟩
  · rintro ⟨i, t, h1, h2⟩
    exact ⟨i, t.tab, by simp [h1], h2⟩
  · intro i j t u a h1 h2
    exact m2 i j t.tab u.tab a (by simp [h1]) (by simp [h2])

/-! ### the guarantees of the specification can be established step by step -/

theorem Then_mono {α β : Type} {x : Res α} {Q Q' : Res β → Prop} {P P' : α → Prop} (hQ : ∀ o, Q o → Q' o) (hP : ∀ a, P a → P' a)
    (h : Spec.Then x Q P) : Spec.Then x Q' P' := by
  cases x
  · exact hP _ h
  all_goals exact hQ _ h

theorem visitAll_mono {body : σ → K → Spec.AStore K → (Spec.SetOut K σ → Prop) → Prop}
    (hb : ∀ st e α Q Q', (∀ o, Q o → Q' o) → body st e α Q → body st e α Q') (l : List K) :
    ∀ α st Q Q', (∀ o, Q o → Q' o) → Spec.visitAll body l α st Q → Spec.visitAll body l α st Q' := by
  induction l with
  | nil => intro α st Q Q' hQ h; exact hQ _ h
  | cons e l ih =>
    intro α st Q Q' hQ h
    refine hb st e α _ _ (fun o ho => Then_mono hQ (fun q hq => ?_) ho) h
    by_cases hz : q.2.2 ≠ 0
    · rw [if_pos hz] at hq ⊢; exact hQ _ hq
    · rw [if_neg hz] at hq ⊢; exact ih _ _ Q Q' hQ hq

/-- a stronger guarantee implies a weaker one -/
theorem ensures_mono {eq : Nat → K → K → Bool} {rule : Spec.SetOp K → Prop} (p : Spec.SetProg K σ) : ∀ L α Q Q', (∀ o, Q o → Q' o) →
    Spec.Ensures eq rule L p α Q → Spec.Ensures eq rule L p α Q' := by
  induction p with
  | ret st r => intro L α Q Q' hQ h; exact hQ _ h
  | call o k ih =>
    intro L α Q Q' hQ h
    exact ⟨h.1, h.2.1, Then_mono hQ (fun q hq => ih _ _ _ _ _ hQ hq) h.2.2⟩
  | iterate i st f k ihf ihk =>
    intro L α Q Q' hQ h
    refine Then_mono hQ (fun a ha order ho => ?_) h
    exact visitAll_mono (fun st e α Q Q' hQ h => ihf st e _ α Q Q' hQ h) order _ _ _ _
      (fun o ho => Then_mono hQ (fun q hq => ihk _ _ _ _ _ _ hQ hq) ho) (ha order ho)
  | loop i st f k ihf ihk =>
    intro L α Q Q' hQ h
    refine ⟨h.1, Then_mono hQ (fun a ha order ho => ?_) h.2⟩
    have := ha order ho
    by_cases he : order = []
    · rw [if_pos he] at this ⊢; exact ihk _ _ _ _ _ _ hQ this
    · rw [if_neg he] at this ⊢
      exact visitAll_mono (fun st e α Q Q' hQ h => ihf st e _ α Q Q' hQ h) order _ _ _ _
        (fun o ho => Then_mono hQ (fun q hq => ihk _ _ _ _ _ _ hQ hq) ho) this

/-- a walk that is never left: what holds before a visit of each element and is carried on by it holds in the end -/
theorem visitAll_inv {body : σ → K → Spec.AStore K → (Spec.SetOut K σ → Prop) → Prop}
    (hb : ∀ st e α Q Q', (∀ o, Q o → Q' o) → body st e α Q → body st e α Q') (I : List K → Spec.AStore K → σ → Prop)
    (hstep : ∀ e rest α st, I (e :: rest) α st → body st e α fun o => ∃ α' st', o = .ok (α', st', 0) ∧ I rest α' st')
    {Q : Spec.SetOut K σ → Prop} (hQ : ∀ α st, I [] α st → Q (.ok (α, st, 0))) (l : List K) : ∀ α st, I l α st → Spec.visitAll body l α st Q := by
  induction l with
  | nil => intro α st h; exact hQ _ _ h
  | cons e l ih =>
    intro α st h
    refine hb _ _ _ _ _ ?_ (hstep e l α st h)
    rintro o ⟨α', st', rfl, h'⟩
    exact ih α' st' h'

/-! ### an example: a walk inside a walk over the same set -/

/-- Insert the numbers into set `i`. -/
def fill (i : Nat) (xs : List Nat) (k : Spec.SetProg Nat Nat) : Spec.SetProg Nat Nat :=
  match xs with
  | [] => k
  | x :: xs => .call (.insert i x) fun _ => fill i xs k

/-- Count the pairs of elements of set `i`, one `set_iterate` inside the other, and return the number. -/
def pairs (i : Nat) : Spec.SetProg Nat Nat :=
  .iterate i 0 (fun st _ => .iterate i st (fun st _ => .ret (st + 1) 0) (fun st _ => .ret st 0)) fun st _ => .ret st st

theorem pairs_ok (α : Spec.AStore Nat) (i : Nat) (a : Spec.ASet Nat) (ha : α.objs i = some a) (eq : Nat → Nat → Nat → Bool)
    (rule : Spec.SetOp Nat → Prop) :
    Spec.Ensures eq rule [] (pairs i) α fun o => ∃ α', o = .ok (α', a.elems.length * a.elems.length, ((a.elems.length * a.elems.length : Nat) : Int)) := by
  rw [pairs, Spec.Ensures]
  simp only [Spec.AStore.get, ha, Spec.Then]
  intro order ho
  refine visitAll_inv ?_
    (I := fun rest α st => (∃ b, α.objs i = some b ∧ b.elems = a.elems) ∧ st + rest.length * a.elems.length = a.elems.length * a.elems.length)
    ?_ ?_ order (α.lock i 1) 0 ⟨⟨{ a with readonly := 1 }, by simp [Spec.AStore.lock, ha, Spec.AStore.put], rfl⟩, by rw [ho.length_eq]; omega⟩
  · exact fun st e α Q Q' hQ h => ensures_mono _ _ α Q Q' hQ h
  · rintro e rest β st ⟨⟨b, hb1, hb2⟩, hst⟩
    rw [Spec.Ensures]
    simp only [Spec.AStore.get, hb1, Spec.Then]
    intro order2 ho2
    refine visitAll_inv ?_
      (I := fun rest2 β' st' => (∃ b, β'.objs i = some b ∧ b.elems = a.elems) ∧ st' + rest2.length = st + a.elems.length)
      ?_ ?_ order2 _ _ ⟨⟨{ b with readonly := 1 }, by simp [Spec.AStore.lock, hb1, Spec.AStore.put], hb2⟩, by rw [ho2.length_eq, hb2]⟩
    · exact fun st e α Q Q' hQ h => ensures_mono _ _ α Q Q' hQ h
    · rintro e2 rest2 β2 st2 ⟨h1, h2⟩
      simp only [Spec.Ensures]
      exact ⟨β2, st2 + 1, rfl, h1, by simp only [List.length_cons] at h2; omega⟩
    · rintro β2 st2 ⟨⟨b2, h1, h2⟩, h3⟩
      refine ⟨_, _, rfl, ⟨{ b2 with readonly := b.readonly }, by simp [Spec.AStore.lock, h1, Spec.AStore.put], h2⟩, ?_⟩
      simp only [List.length_cons, List.length_nil, Nat.add_mul, Nat.one_mul] at hst h3 ⊢
      omega
  · rintro β st ⟨-, hst⟩
    simp only [List.length_nil, Nat.zero_mul, Nat.add_zero] at hst
    exact ⟨β.lock i a.readonly, by simp only [hst]⟩

/-- the hypotheses of C73 are met, and its conclusion says something: three numbers, two of them equal, make four pairs -/
example (place : Policy) (hp : Heap.Allocator place) :
    ending (exec exEnv (.call (.create 0 0) fun _ => fill 0 [3, 5, 3] (pairs 0)) (HStore.empty place)) = .ok (4, 4) := by
  have ok : ∀ o : Spec.SetOp Nat, o.NoAlias → OkOp exEnv o := fun o h => ⟨h, fun h c _ => exEnv_lawful h c⟩
  obtain ⟨out, ⟨α, h1⟩, h2⟩ := C73_programs place hp exEnv (.call (.create 0 0) fun _ => fill 0 [3, 5, 3] (pairs 0))
    (fun o => ∃ α, o = .ok (α, 4, 4)) (by
      simp only [fill, Spec.Ensures, Spec.setStep, Spec.Then, Spec.AStore.get, Spec.AStore.alloc, Spec.AStore.put, Spec.AStore.empty, if_true]
      refine ⟨ok _ trivial, by simp, ok _ trivial, by simp, ok _ trivial, by simp, ok _ trivial, by simp, ?_⟩
      refine ensures_mono _ _ _ _ _ ?_ (pairs_ok _ 0 _ (by simp only [if_true]; rfl) _ _)
      rintro o ⟨α, rfl⟩
      exact ⟨α, rfl⟩)
  rw [h2, h1]
  rfl

/-- C73, the rule about `SET_ITERATE` is needed: deleting the element at hand in the body of a `SET_ITERATE` ends the program with a message
(the set is read-only), but after a second, complete `SET_ITERATE` over the same set in that body it is carried out and the outer loop
continues from freed memory. -/
theorem C73_nested_macro_refuted :
    (∀ place, Heap.Allocator place → ending (exec exEnv (.call (.create 0 0) fun _ => .call (.insert 0 7) fun _ =>
      .loop 0 () (fun _ e => .call (.delete 0 e) fun _ => .ret () 0) fun _ _ => .ret () 0) (HStore.empty place)) = .abort) ∧
    exec exEnv (.call (.create 0 0) fun _ => .call (.insert 0 7) fun _ =>
      .loop 0 () (fun _ e => .loop 0 () (fun _ _ => .ret () 0) fun _ _ => .call (.delete 0 e) fun _ => .ret () 0) fun _ _ => .ret () 0)
      (HStore.empty) = .ub := by
  refine ⟨fun place hp => ?_, Res.eq_ub_of (by decide +kernel)⟩
  have ok : ∀ o : Spec.SetOp Nat, o.NoAlias → OkOp exEnv o := fun o h => ⟨h, fun h c _ => exEnv_lawful h c⟩
  obtain ⟨out, h1, h2⟩ := C73_programs place hp exEnv (.call (.create 0 0) fun _ => .call (.insert 0 7) fun _ =>
      .loop 0 () (fun _ e => .call (.delete 0 e) fun _ => .ret () 0) fun _ _ => .ret () 0) (fun o => o = .abort) (by
      simp only [Spec.Ensures, Spec.setStep, Spec.Then, Spec.AStore.get, Spec.AStore.alloc, Spec.AStore.put, Spec.AStore.empty, if_true]
      refine ⟨ok _ trivial, by simp, ok _ trivial, by simp, by simp, fun order ho => ?_⟩
      have hperm : order = [7] := by
        have : Spec.sinsert (eqOf exEnv 0) [] 7 = [7] := by decide
        rw [this] at ho
        exact List.perm_singleton.1 ho
      subst hperm
      simp only [List.cons_ne_nil, if_false, Spec.visitAll, Spec.AStore.lock, Spec.AStore.put, if_true]
      exact ⟨ok _ trivial, by simp, by simp [Res.bind, Spec.Then]⟩)
  rw [h2, h1]
  rfl

end Maa.SetHeap
