import Verif.Model.Tables
import Verif.Lemmas.SetHeap
import Verif.Lemmas.HashIter
import Verif.Spec.TabProgs

/-! Several hash tables in one memory against independent finite maps. -/

namespace Maa.Tables

open HashHeap
open Tab (Entry Tab)
open Set (FnEnv eqOf)
open SetHeap (map_set1 set1_self tretrieve_ro)

variable {K σ : Type} {env : FnEnv K}

/-- as `heapStep_ref`; a call on a locked table leaves its cells alone, and a call that spares the keys in `rest` leaves their cells alone -/
theorem heapStep_ro {ops : KeyOps K} {h : Heap (Entry K Ptr)} {ht : HTab} {t : Tab K Ptr} {A}
    (r : HRep h ht t A) (o : Spec.HashOp K) :
    Spec.ResRel (fun c b => c.2 = b.2 ∧ ∃ A', HRep c.1.1 c.1.2 b.1 A' ∧ Eff h c.1.1 (Foot t.prime A) (Foot b.1.prime A') ∧
        (t.readonly ≠ 0 → (∀ f, o ≠ .readonly f) → A' = A ∧ b.1.prime = t.prime ∧ b.1.readonly ≠ 0) ∧
        ∀ rest : List (K × Ptr), Spec.Spares (eqv ops) rest 0 (.call 0 o) → b.1.prime = t.prime ∧ Kp rest A A')
      (heapStep ops (h, ht) o) (Hash.hshStep ops t o) := by
  cases o with
  | insert k d =>
    have := heapStep_ref (ops := ops) r (.insert k d)
    cases hc : heapStep ops (h, ht) (.insert k d) <;> cases hb : Hash.hshStep ops t (.insert k d) <;> rw [hc, hb] at this <;>
      simp only [Spec.ResRel] at this ⊢
    obtain ⟨h1, A', h2, h3⟩ := this
    refine ⟨h1, A', h2, h3, fun hro _ => ?_, fun rest hs => absurd rfl hs⟩
    simp [Hash.hshStep, Hash.hshInsert, Tab.insert, hro, Res.bind] at hb
  | delete k =>
    simp only [heapStep, Hash.hshStep, Hash.hshDelete]
    have h0 := hdelete_hrep_keeps (ops := ops) r k
    cases hc : hdelete ops h ht k <;> cases hb : Tab.delete ops t k <;> rw [hc, hb] at h0 <;>
      simp only [Spec.ResRel] at h0 <;> try trivial
    rename_i c b
    obtain ⟨e1, A', r', ef, kp⟩ := h0
    refine ⟨by simp only [e1], A', r', ef, fun hro _ => ?_, fun rest hs => ⟨(Tab.delete_fields hb).2.2.2.2, kp.kp (hs rfl)⟩⟩
    simp only [Tab.delete, if_pos hro] at hb
    split at hb <;> simp at hb
  | retrieve k =>
    simp only [heapStep, Hash.hshStep, Hash.hshRetrieve]
    have h0 := hretrieve_hrep_keeps (ops := ops) r k
    cases hc : hretrieve ops h ht k <;> cases hb : Tab.retrieve ops t k <;> rw [hc, hb] at h0 <;>
      simp only [Spec.ResRel] at h0 <;> try trivial
    rename_i c b
    obtain ⟨h1, A', h2, h3, h4, kp⟩ := h0
    obtain ⟨c1, c2⟩ := c
    obtain ⟨b1, b2⟩ := b
    simp only at h1
    subst h1
    have fr : t.readonly ≠ 0 → (∀ f, (Spec.HashOp.retrieve k : Spec.HashOp K) ≠ .readonly f) → A' = A ∧ b1.prime = t.prime ∧ b1.readonly ≠ 0 := by
      intro hro _
      obtain ⟨w1, w2, w3⟩ := tretrieve_ro hro (t' := b1) (d := c2) hb
      exact ⟨(h4 hro).1, w2, by rw [w3]; exact hro⟩
    cases c2 <;> exact ⟨rfl, A', h2, h3, fr, fun rest hs => ⟨(Tab.retrieve_fields hb).2.2.1, kp.kp (hs rfl)⟩⟩
  | readonly f =>
    have := heapStep_ref (ops := ops) r (.readonly f)
    simp only [heapStep, Hash.hshStep, Hash.hshReadonly, Tab.setReadonly] at this ⊢
    exact ⟨this.1, A, r.withRo f, Eff.refl _ _, fun _ hf => absurd rfl (hf f), fun rest _ => ⟨rfl, Kp.refl _ _⟩⟩

/-- All tables: pointer level `s`, chain level `C` with cells `A`, maps `α`. -/
structure TRep (env : FnEnv K) (s : HTables K) (C : Nat → Option (Tab K Ptr)) (A : Nat → Nat → List (Nat × Entry K Ptr))
    (α : Spec.Tables K) : Prop where
  m : MRep s.heap (fun i => (s.tabs i).map HTable.tab) C A
  next : s.next = α.next
  fresh : ∀ i, s.next ≤ i → s.tabs i = none
  dom : ∀ i, (s.tabs i).isSome = (α.objs i).isSome
  sim : ∀ i t x a, s.tabs i = some t → C i = some x → α.objs i = some a →
    Hash.Sim (env.ops t.hashFn t.cmpFn) x a.st ∧ t.cmpFn = a.cmpFn ∧ (env.ops t.hashFn t.cmpFn).Lawful

variable {s : HTables K} {C : Nat → Option (Tab K Ptr)} {A : Nat → Nat → List (Nat × Entry K Ptr)} {α : Spec.Tables K}

theorem TRep.empty {place : Policy} (hp : Heap.Allocator place) : TRep env (HTables.empty place : HTables K) (fun _ => none) (fun _ _ => []) Spec.Tables.empty :=
  ⟨MRep.init hp, rfl, fun _ _ => rfl, fun _ => rfl, fun i t x a h => by simp [HTables.empty] at h⟩

theorem TRep.none_iff (r : TRep env s C A α) (i : Nat) : s.tabs i = none ↔ α.objs i = none := by
  have := r.dom i
  cases h : s.tabs i <;> cases h' : α.objs i <;> rw [h, h'] at this <;> simp_all

theorem TRep.get (r : TRep env s C A α) {i : Nat} {t : HTable} (hi : s.tabs i = some t) :
    ∃ x a, C i = some x ∧ α.objs i = some a ∧ HRep s.heap t.tab x (A i) ∧ Hash.Sim (env.ops t.hashFn t.cmpFn) x a.st ∧
      t.cmpFn = a.cmpFn ∧ (env.ops t.hashFn t.cmpFn).Lawful := by
  obtain ⟨x, h1, h2⟩ := r.m.get (i := i) (ht := t.tab) (by simp [hi])
  have := r.dom i
  rw [hi] at this
  cases ha : α.objs i with
  | none => rw [ha] at this; simp at this
  | some a => exact ⟨x, a, h1, rfl, h2, r.sim i t x a hi h1 ha⟩

theorem TRep.update (r : TRep env s C A α) {i : Nat} {t : HTable} {x : Tab K Ptr} (hi : s.tabs i = some t) (hC : C i = some x)
    {a : Spec.TabState K} (ha : α.objs i = some a) {h' : Heap (Entry K Ptr)} {ht' : HTab} {x' : Tab K Ptr} {B : Nat → List (Nat × Entry K Ptr)}
    {st' : Spec.MapState K} (hr : HRep h' ht' x' B) (e : Eff s.heap h' (Foot x.prime (A i)) (Foot x'.prime B))
    (sim : Hash.Sim (env.ops t.hashFn t.cmpFn) x' st') :
    TRep env { (s.put i (some { t with tab := ht' })) with heap := h' } (set1 C i (some x')) (set1 A i B)
      (α.put i (some { a with st := st' })) := by
  have hm := r.m.update hC hr e
  rw [show set1 (fun i => (s.tabs i).map HTable.tab) i (some ht') =
    fun j => ((s.put i (some { t with tab := ht' })).tabs j).map HTable.tab from by
      funext j; by_cases hj : j = i <;> simp [set1, HTables.put, hj]] at hm
  refine ⟨hm, r.next, ?_, ?_, ?_⟩
  · intro j hj
    have hne : j ≠ i := by
      rintro rfl
      rw [r.fresh j hj] at hi; simp at hi
    simp only [HTables.put, if_neg hne]
    exact r.fresh j hj
  · intro j
    by_cases hj : j = i
    · simp [HTables.put, Spec.Tables.put, hj]
    · simp only [HTables.put, Spec.Tables.put, if_neg hj]; exact r.dom j
  · intro j u y b h1 h2 h3
    by_cases hj : j = i
    · subst hj
      simp only [HTables.put, Spec.Tables.put, if_true, Option.some.injEq, set1_same] at h1 h2 h3
      subst h1; subst h2; subst h3
      obtain ⟨-, g2, g3⟩ := r.sim j t x a hi hC ha
      exact ⟨sim, g2, g3⟩
    · simp only [HTables.put, Spec.Tables.put, if_neg hj, set1_ne _ _ hj] at h1 h2 h3
      exact r.sim j u y b h1 h2 h3

/-- one call, with the cells of a locked table `i` staying where they are, and those of spared keys -/
theorem step_full (r : TRep env s C A α) (o : Spec.TabOp K) (ho : Lawful env o) :
    Spec.ResRel (fun c b => c.2 = b.2 ∧ ∃ C' A', TRep env c.1 C' A' b.1 ∧
        (∀ i x, C i = some x → x.readonly ≠ 0 → (∀ f, o ≠ .call i (.readonly f)) →
          A' i = A i ∧ ∃ x', C' i = some x' ∧ x'.prime = x.prime ∧ x'.readonly ≠ 0) ∧
        ∀ i x a rest, C i = some x → α.objs i = some a → Spec.Spares (eqOf env a.cmpFn) rest i o →
          ∃ x', C' i = some x' ∧ x'.prime = x.prime ∧ Kp rest (A i) (A' i))
      (tablesStep env s o) (Spec.tabStep (eqOf env) α o) := by
  cases o with
  | create h c =>
    obtain ⟨ht, t, h1, h2, h3, h4⟩ := hcreate_hrep (D := Ptr) s.heap r.m.ok 0
    obtain ⟨t', h5, h6⟩ := Hash.create_sim (env.ops h c)
    have : t' = t := by
      have h7 : Tab.create (K := K) (D := Ptr) 0 = .ok t' := h5
      rw [h2] at h7; simpa using h7.symm
    subst this
    have hn : s.tabs s.next = none := r.fresh _ (Nat.le_refl _)
    have hm := r.m.create (i := s.next) (by simp [hn]) h4
    simp only [tablesStep, tabCreate, h1, Res.bind, Spec.tabStep, Spec.ResRel]
    rw [← r.next]
    refine ⟨rfl, set1 C s.next (some t'), set1 A s.next (fun _ => []), ⟨?_, rfl, ?_, ?_, ?_⟩, ?_, ?_⟩
    · rwa [show set1 (fun i => (s.tabs i).map HTable.tab) s.next (some ht) = fun j => ((if j = s.next then some
          (⟨ht, h, c⟩ : HTable) else s.tabs j)).map HTable.tab from by
        funext j; by_cases hj : j = s.next <;> simp [set1, hj]] at hm
    · intro j hj
      simp only at hj
      simp only [show j ≠ s.next by omega, if_false]
      exact r.fresh j (by omega)
    · intro j
      by_cases hj : j = s.next
      · simp [hj]
      · simp only [if_neg hj]; exact r.dom j
    · intro j u y b g1 g2 g3
      by_cases hj : j = s.next
      · subst hj
        simp only [if_true, Option.some.injEq, set1_same] at g1 g2 g3
        subst g1; subst g2; subst g3
        exact ⟨h6, rfl, ho h c rfl⟩
      · simp only [if_neg hj, set1_ne _ _ hj] at g1 g2 g3
        exact r.sim j u y b g1 g2 g3
    · intro i x hx hro _
      have hne : i ≠ s.next := by
        rintro rfl
        rw [(r.m.none_iff s.next).1 (by simp [hn])] at hx; simp at hx
      rw [set1_ne _ _ hne, set1_ne _ _ hne]
      exact ⟨rfl, x, hx, rfl, hro⟩
    · intro i x a rest hx _ _
      have hne : i ≠ s.next := by
        rintro rfl
        rw [(r.m.none_iff s.next).1 (by simp [hn])] at hx; simp at hx
      rw [set1_ne _ _ hne, set1_ne _ _ hne]
      exact ⟨x, hx, rfl, Kp.refl _ _⟩
  | call i o =>
    simp only [tablesStep, tabCall, Spec.tabStep, HTables.get, Spec.Tables.get]
    cases hi : s.tabs i with
    | none => rw [(r.none_iff i).1 hi]; trivial
    | some t =>
      obtain ⟨x, a, h1, h2, h3, h4, h5, h6⟩ := r.get hi
      rw [h2]
      simp only [Res.bind]
      have g1 := heapStep_ro (ops := env.ops t.hashFn t.cmpFn) h3 o
      have g2 := Hash.step_sim h6 x a.st o h4
      have he : eqv (env.ops t.hashFn t.cmpFn) = eqOf env a.cmpFn := by
        funext u v
        simp [eqv, eqOf, FnEnv.ops, h5]
      rw [he] at g2
      cases hc : heapStep (env.ops t.hashFn t.cmpFn) (s.heap, t.tab) o <;> cases hb : Hash.hshStep (env.ops t.hashFn t.cmpFn) x o <;>
        rw [hc, hb] at g1 <;> simp only [Spec.ResRel] at g1 <;> cases ha : Spec.hashStep (eqOf env a.cmpFn) a.st o <;> rw [hb, ha] at g2 <;>
        simp only [Spec.ResRel] at g2 ⊢
      rename_i c b d
      obtain ⟨e1, B, hr, ef, fr, fr2⟩ := g1
      refine ⟨e1.trans g2.1, set1 C i (some b.1), set1 A i B, r.update hi h1 h2 hr ef g2.2, ?_, ?_⟩
      swap
      · intro j y aj rest hy hj2 hs
        by_cases hj : j = i
        · subst hj
          rw [h1] at hy
          cases hy
          rw [h2] at hj2
          cases hj2
          obtain ⟨f1, f2⟩ := fr2 rest (by rw [he]; cases o <;> first | trivial | exact fun _ => hs rfl | exact absurd rfl hs)
          simp only [set1_same]
          exact ⟨_, rfl, f1, f2⟩
        · rw [set1_ne _ _ hj, set1_ne _ _ hj]
          exact ⟨y, hy, rfl, Kp.refl _ _⟩
      intro j y hy hro hf
      by_cases hj : j = i
      · subst hj
        rw [h1] at hy
        cases hy
        obtain ⟨f1, f2, f3⟩ := fr hro (fun f hf' => hf f (by rw [hf']))
        simp only [set1_same]
        exact ⟨f1, _, rfl, f2, f3⟩
      · rw [set1_ne _ _ hj, set1_ne _ _ hj]
        exact ⟨rfl, y, hy, rfl, hro⟩
  | destroy i =>
    simp only [tablesStep, tabDestroy, Spec.tabStep, HTables.get, Spec.Tables.get]
    cases hi : s.tabs i with
    | none => rw [(r.none_iff i).1 hi]; trivial
    | some t =>
      obtain ⟨x, a, h1, h2, h3, h4, h5, h6⟩ := r.get hi
      rw [h2]
      simp only [Res.bind]
      obtain ⟨d1, d2⟩ := r.m.destroy (i := i) (ht := t.tab) (by simp [hi]) h1
      by_cases hro : a.st.readonly ≠ 0
      · rw [if_pos hro, d1 (by rw [h4.ro]; exact hro)]
        trivial
      · rw [if_neg hro]
        obtain ⟨h', e1, e2⟩ := d2 (by rw [h4.ro]; simpa using hro)
        rw [e1]
        refine ⟨rfl, set1 C i none, A, ⟨?_, r.next, ?_, ?_, ?_⟩, ?_, ?_⟩
        · rwa [show set1 (fun i => (s.tabs i).map HTable.tab) i none = fun j => ((s.put i none).tabs j).map HTable.tab from by
            funext j; by_cases hj : j = i <;> simp [set1, HTables.put, hj]] at e2
        · intro j hj
          by_cases hji : j = i
          · simp [HTables.put, hji]
          · simp only [HTables.put, if_neg hji]; exact r.fresh j hj
        · intro j
          by_cases hji : j = i
          · simp [HTables.put, Spec.Tables.put, hji]
          · simp only [HTables.put, Spec.Tables.put, if_neg hji]; exact r.dom j
        · intro j u y b g1 g2 g3
          by_cases hji : j = i
          · simp [HTables.put, hji] at g1
          · simp only [HTables.put, Spec.Tables.put, if_neg hji, set1_ne _ _ hji] at g1 g2 g3
            exact r.sim j u y b g1 g2 g3
        · intro j y hy hr2 _
          have hji : j ≠ i := by
            rintro rfl
            rw [h1] at hy; cases hy
            exact hr2 (by rw [h4.ro]; simpa using hro)
          rw [set1_ne _ _ hji]
          exact ⟨rfl, y, hy, rfl, hr2⟩
        · intro j y aj rest hy _ hs
          rw [set1_ne _ _ (Ne.symm hs)]
          exact ⟨y, hy, rfl, Kp.refl _ _⟩

/-- the states agree -/
def TSim (env : FnEnv K) (s : HTables K) (α : Spec.Tables K) : Prop := ∃ C A, TRep env s C A α

theorem step_sim (s : HTables K) (α : Spec.Tables K) (o : Spec.TabOp K) (ho : Lawful env o) (h : TSim env s α) :
    Spec.ResRel (fun c b => c.2 = b.2 ∧ TSim env c.1 b.1) (tablesStep env s o) (Spec.tabStep (eqOf env) α o) := by
  obtain ⟨C, A, r⟩ := h
  have := step_full r o ho
  cases hc : tablesStep env s o <;> cases hb : Spec.tabStep (eqOf env) α o <;> rw [hc, hb] at this <;> simp only [Spec.ResRel] at this ⊢
  obtain ⟨h1, C', A', h2, -⟩ := this
  exact ⟨h1, C', A', h2⟩

theorem history_sim (hist : List (Spec.TabOp K)) (s : HTables K) (α : Spec.Tables K) (h : TSim env s α) (ok : ∀ o ∈ hist, Lawful env o) :
    Spec.ResRel (fun c b => c.2 = b.2 ∧ TSim env c.1 b.1) (Spec.run (tablesStep env) s hist) (Spec.run (Spec.tabStep (eqOf env)) α hist) :=
  Spec.run_sim_of (Lawful env) (TSim env) _ _ (fun s α o ho h => step_sim s α o ho h) s α hist ok h

/-- one round: table `i` stays locked and its cells stay where they are -/
theorem calls_sim {i : Nat} (p : Spec.Calls (Spec.TabOp K) Spec.Ret σ) : ∀ {s : HTables K} {C A} {α : Spec.Tables K} {x : Tab K Ptr},
    TRep env s C A α → C i = some x → x.readonly ≠ 0 → p.All (BodyOp env i) →
    Spec.ResRel (fun c b => c.2 = b.2 ∧ ∃ C' A' x', TRep env c.1 C' A' b.1 ∧ C' i = some x' ∧ x'.readonly ≠ 0 ∧ x'.prime = x.prime ∧ A' i = A i)
      (p.run (tablesStep env) s) (p.run (Spec.tabStep (eqOf env)) α) := by
  induction p with
  | ret st v =>
    intro s C A α x r hC hro _
    exact ⟨rfl, C, A, x, r, hC, hro, rfl, rfl⟩
  | call o k ih =>
    intro s C A α x r hC hro hok
    obtain ⟨⟨o1, o2⟩, o3⟩ := hok
    have h1 := step_full r o o1
    simp only [Spec.Calls.run]
    cases hc : tablesStep env s o <;> cases hb : Spec.tabStep (eqOf env) α o <;> rw [hc, hb] at h1 <;>
      simp only [Spec.ResRel, Res.bind] at h1 ⊢
    rename_i c b
    obtain ⟨h2, C', A', r', fr, -⟩ := h1
    obtain ⟨f1, x', f2, f3, f4⟩ := fr i x hC hro o2
    have h3 := ih c.2 r' f2 f4 (o3 c.2)
    rw [h2] at h3 ⊢
    cases hc2 : (k b.2).run (tablesStep env) c.1 <;> cases hb2 : (k b.2).run (Spec.tabStep (eqOf env)) b.1 <;> rw [hc2, hb2] at h3 <;>
      simp only [Spec.ResRel] at h3 ⊢
    obtain ⟨h4, C2, A2, x2, g1, g2, g3, g4, g5⟩ := h3
    exact ⟨h4, C2, A2, x2, g1, g2, g3, g4.trans f3, g5.trans f1⟩

theorem Res_bind_ok {α : Type} (x : Res α) : (x.bind fun q => .ok q) = x := by cases x <;> rfl

theorem TRep.lock (r : TRep env s C A α) {i : Nat} {t : HTable} (hi : s.tabs i = some t) (f : Int) {x : Tab K Ptr} (hC : C i = some x) :
    TRep env (s.put i (some { t with tab := { t.tab with readonly := f } })) (set1 C i (some { x with readonly := f })) A (α.lock i f) := by
  obtain ⟨x', a, h1, h2, h3, h4, h5, h6⟩ := r.get hi
  rw [hC] at h1
  cases h1
  have := r.update hi hC h2 (h3.withRo f) (Eff.refl _ _) (st' := { a.st with readonly := f })
    ⟨h4.rep.congr rfl rfl rfl, rfl, h4.retr, h4.miss, h4.hits⟩
  rw [set1_self] at this
  unfold Spec.Tables.lock
  rw [h2]
  exact this

theorem iterLoop_sim {i : Nat} {f : σ → K × Ptr → Spec.Calls (Spec.TabOp K) Spec.Ret σ} (hf : ∀ st kd, (f st kd).All (BodyOp env i))
    (rem : List (Nat × Entry K Ptr)) : ∀ (n : Nat) {s : HTables K} {C A} {α : Spec.Tables K} {x : Tab K Ptr} {p : Nat} (st : σ),
    rem.length < n → TRep env s C A α → C i = some x → x.readonly ≠ 0 → At x.prime (A i) p rem →
    Spec.ResRel (fun c b => c.2 = b.2 ∧ TSim env c.1 b.1) (iterLoop env i f n s p st)
      ((Spec.visit (fun _ => Spec.tabStep (eqOf env)) f (rem.map fun c => (c.2.key, c.2.datum)) α st).bind
        fun q => .ok (if q.2.2 = 0 then q.1.lock i 0 else q.1, q.2)) := by
  induction rem with
  | nil =>
    intro n s C A α x p st _ _ _ _ hat
    obtain ⟨e, rest, h1, -⟩ := hat.cell
    simp at h1
  | cons c rest ih =>
    intro n s C A α x p st hn r hC hro hat
    cases n with
    | zero => omega
    | succ n =>
      obtain ⟨e, rest', h1, k, hk, hmem⟩ := hat.cell
      simp only [List.cons.injEq] at h1
      obtain ⟨h1, h1'⟩ := h1
      subst h1'
      rw [h1] at hat ⊢
      have hT : ∃ t, s.tabs i = some t := by
        cases ht : s.tabs i with
        | some t => exact ⟨t, rfl⟩
        | none => rw [(r.m.none_iff i).1 (by simp [ht])] at hC; simp at hC
      obtain ⟨t, ht⟩ := hT
      obtain ⟨x0, a, q1, q2, q3, q4, q5, q6⟩ := r.get ht
      rw [hC] at q1
      cases q1
      obtain ⟨hp0, nx, hm⟩ := cell_mem q3 hk hmem
      simp only [iterLoop, if_neg hp0, HashHeap.getPosition, Heap.read_ok hm, List.map_cons, Spec.visit]
      have h2 := calls_sim (f st (e.key, e.datum)) r hC hro (hf st (e.key, e.datum))
      simp only [Res.bind]
      cases hc : (f st (e.key, e.datum)).run (tablesStep env) s <;> cases hb : (f st (e.key, e.datum)).run (Spec.tabStep (eqOf env)) α <;>
        rw [hc, hb] at h2 <;> simp only [Spec.ResRel] at h2 ⊢
      rename_i c b
      obtain ⟨e1, C', A', x', r', g1, g2, g3, g4⟩ := h2
      rw [e1]
      by_cases hz : b.2.2 ≠ 0
      · rw [if_pos hz, if_pos hz]
        simp only [Int.one_ne_zero, if_false]
        exact ⟨trivial, C', A', r'⟩
      · rw [if_neg hz, if_neg hz]
        have hT' : ∃ t', c.1.tabs i = some t' := by
          cases ht' : c.1.tabs i with
          | some t => exact ⟨t, rfl⟩
          | none => rw [(r'.m.none_iff i).1 (by simp [ht'])] at g1; simp at g1
        obtain ⟨t', ht'⟩ := hT'
        obtain ⟨x1, a1, w1, w2, w3, w4, w5, w6⟩ := r'.get ht'
        rw [g1] at w1
        cases w1
        rw [← g3, ← g4] at hat
        simp only [HTables.get, ht']
        rcases nextPosition_ok w3 (fun i hi e he => (w4.rep.inv.slot i hi e he).2) hat with ⟨f1, f2⟩ | ⟨q, f1, f2, f3⟩
        · rw [f2]
          simp only
          cases n with
          | zero => simp at hn
          | succ n =>
            simp only [iterLoop, if_true, f1, List.map_nil, Spec.visit]
            exact ⟨trivial, _, _, r'.lock ht' 0 g1⟩
        · rw [f2]
          simp only
          have : c.1.put i (some { t' with tab := t'.tab }) = c.1 := by
            cases hcc : c.1
            simp only [HTables.put, HTables.mk.injEq, true_and, and_true]
            funext j
            by_cases hj : j = i
            · subst hj; rw [hcc] at ht'; simp at ht'; simp [ht']
            · simp [hj]
          rw [this]
          have := ih n b.2.1 (by simp at hn; omega) r' g1 g2 f3
          exact this

theorem iterate_sim {i : Nat} {f : σ → K × Ptr → Spec.Calls (Spec.TabOp K) Spec.Ret σ} (hf : ∀ st kd, (f st kd).All (BodyOp env i))
    {s : HTables K} {α : Spec.Tables K} (h : TSim env s α) {a : Spec.TabState K} (ha : α.objs i = some a) (n : Nat)
    (hn : a.st.map.length < n) (st : σ) :
    ∃ order : List (K × Nat), order.Perm a.st.map ∧
      Spec.ResRel (fun c b => c.2 = b.2 ∧ TSim env c.1 b.1) (iterate env i f n s st) (Spec.tabLoop (eqOf env) i f order α st) := by
  obtain ⟨C, A, r⟩ := h
  have hT : ∃ t, s.tabs i = some t := by
    cases ht : s.tabs i with
    | some t => exact ⟨t, rfl⟩
    | none => rw [(r.none_iff i).1 ht] at ha; simp at ha
  obtain ⟨t, ht⟩ := hT
  obtain ⟨x, a', h1, h2, h3, h4, h5, h6⟩ := r.get ht
  rw [ha] at h2
  cases h2
  have hperm : ((cellsFrom x.prime 0 (A i)).map fun c => (c.2.key, c.2.datum)).Perm a.st.map := by
    have := h4.rep.perm
    unfold Tab.pairsOf at this
    rw [← cells_map h3, List.map_map] at this
    exact this
  refine ⟨_, hperm, ?_⟩
  have hlen : (cellsFrom x.prime 0 (A i)).length = a.st.map.length := by
    rw [← hperm.length_eq, List.length_map]
  simp only [iterate, HTables.get, ht, Res.bind, Spec.tabLoop]
  rcases initPosition_ok h3 with ⟨i1, i2⟩ | ⟨p, i0, i1, i2⟩
  · rw [i2, i1]
    cases n with
    | zero => omega
    | succ n =>
      simp only [iterLoop, if_true, List.map_nil]
      have : s.put i (some { t with tab := t.tab }) = s := by
        cases hcc : s
        simp only [HTables.put, HTables.mk.injEq, true_and, and_true]
        funext j
        by_cases hj : j = i
        · subst hj; rw [hcc] at ht; simp at ht; simp [ht]
        · simp [hj]
      rw [this]
      exact ⟨rfl, C, A, r⟩
  · have hne : (cellsFrom x.prime 0 (A i)).map (fun c => (c.2.key, c.2.datum)) ≠ [] := by
      obtain ⟨e, rest, h1, -⟩ := i2.cell
      rw [h1]; simp
    rw [i1, if_neg hne]
    exact iterLoop_sim hf (cellsFrom x.prime 0 (A i)) n st (by omega) (r.lock ht 1 h1) (set1_same _ _ _) (by simp) i2

/-- the calls on table `i` see only its own map -/
theorem alone {eq : Nat → K → K → Bool} {i : Nat} (hist : List (Spec.TabOp K)) : ∀ (α β : Spec.Tables K) (outs : List Spec.Ret),
    Spec.run (Spec.tabStep eq) α hist = .ok (β, outs) → i < α.next →
    (α.objs i = none → Spec.callsOn i hist outs = []) ∧
    (∀ a, α.objs i = some a → ∃ m, Spec.run (Spec.hashStep (eq a.cmpFn)) a.st ((Spec.callsOn i hist outs).map Prod.fst) =
      .ok (m, (Spec.callsOn i hist outs).map Prod.snd)) := by
  induction hist with
  | nil =>
    intro α β outs h _
    simp only [Spec.run, Res.ok.injEq, Prod.mk.injEq] at h
    rw [← h.2]
    exact ⟨fun _ => rfl, fun a _ => ⟨a.st, rfl⟩⟩
  | cons o os ih =>
    intro α β outs h hlt
    simp only [Spec.run] at h
    cases hs : Spec.tabStep eq α o <;> rw [hs] at h <;> simp only [Res.bind] at h
    · rename_i c
      cases hr : Spec.run (Spec.tabStep eq) c.1 os <;> rw [hr] at h <;> simp only [Res.ok.injEq, Prod.mk.injEq] at h
      · rename_i q
        obtain ⟨-, rfl⟩ := h
        cases o with
        | create g d =>
          simp only [Spec.tabStep, Res.ok.injEq] at hs
          have := ih c.1 q.1 q.2 hr (by rw [← hs]; simp; omega)
          rw [← hs] at this
          simpa only [Spec.callsOn, show i ≠ α.next by omega, if_false] using this
        | call j o =>
          simp only [Spec.tabStep, Spec.Tables.get] at hs
          cases hj : α.objs j with
          | none => rw [hj] at hs; simp [Res.bind] at hs
          | some t =>
            rw [hj] at hs
            simp only [Res.bind] at hs
            cases hh : Spec.hashStep (eq t.cmpFn) t.st o with
            | ok r =>
              rw [hh] at hs
              simp only [Res.ok.injEq] at hs
              have := ih c.1 q.1 q.2 hr (by rw [← hs]; exact hlt)
              rw [← hs] at this ⊢
              simp only [Spec.Tables.put] at this
              by_cases hji : j = i
              · subst hji
                simp only [Spec.callsOn, if_true, hj]
                simp only [if_true] at this
                refine ⟨by simp, fun a ha => ?_⟩
                cases ha
                obtain ⟨m, hm⟩ := this.2 _ rfl
                refine ⟨m, ?_⟩
                simp only [List.map_cons, Spec.run, hh, Res.bind]
                simp only at hm
                rw [hm]
              · simp only [Spec.callsOn, if_neg hji]
                simpa only [if_neg (Ne.symm hji)] using this
            | _ => rw [hh] at hs; simp at hs
        | destroy j =>
          simp only [Spec.tabStep, Spec.Tables.get] at hs
          cases hj : α.objs j with
          | none => rw [hj] at hs; simp [Res.bind] at hs
          | some t =>
            rw [hj] at hs
            simp only [Res.bind] at hs
            split at hs
            · simp at hs
            · simp only [Res.ok.injEq] at hs
              have := ih c.1 q.1 q.2 hr (by rw [← hs]; exact hlt)
              rw [← hs] at this
              simp only [Spec.Tables.put] at this
              by_cases hji : i = j
              · subst hji
                simp only [Spec.callsOn]
                simp only [if_true] at this
                rw [this.1 trivial]
                exact ⟨fun _ => rfl, fun a _ => ⟨a.st, rfl⟩⟩
              · simp only [Spec.callsOn]
                simpa only [if_neg hji] using this
      all_goals simp at h
    all_goals simp at h

end Maa.Tables
