import Verif.Model.SetHeap
import Verif.Lemmas.Multi
import Verif.Lemmas.HashStats
import Verif.Lemmas.Set

/-! Refinement of the chain-level model of several sets (Model/Set.lean) by the pointer-level one (Model/SetHeap.lean). -/

namespace Maa.SetHeap

open HashHeap
open Tab (Entry Tab)
open Heap (Seg Chain)
open Set (FnEnv SetObj Store elems)

variable {K : Type} {env : FnEnv K}

/-- pointer-level and chain-level store agree; `A i` are the cells of set `i` -/
structure HSt (s : HStore K) (σ : Store K) (A : Nat → Nat → List (Nat × Entry K Unit)) : Prop where
  m : MRep s.heap (fun i => (s.sets i).map HSet.tab) (fun i => (σ.objs i).map SetObj.tab) A
  next : s.next = σ.next
  fns : ∀ i t x, s.sets i = some t → σ.objs i = some x → t.hashFn = x.hashFn ∧ t.cmpFn = x.cmpFn
  bound : ∀ i, s.next ≤ i → s.sets i = none

theorem map_set1 {α β : Type} (f : α → β) (g : Nat → Option α) (i : Nat) (x : Option α) :
    (fun j => (if j = i then x else g j).map f) = set1 (fun j => (g j).map f) i (x.map f) := by
  funext j
  simp only [set1]
  split <;> rfl

theorem HSt.empty {place : Policy} (hp : Heap.Allocator place) : HSt (K := K) (HStore.empty place) Store.empty (fun _ _ => []) :=
  ⟨MRep.init hp, rfl, fun _ _ _ h => by simp [HStore.empty] at h, fun _ _ => rfl⟩

section
variable {s : HStore K} {σ : Store K} {A : Nat → Nat → List (Nat × Entry K Unit)}

theorem HSt.obj (r : HSt s σ A) {i : Nat} {t : HSet} (hi : s.sets i = some t) :
    ∃ x, σ.objs i = some x ∧ HRep s.heap t.tab x.tab (A i) ∧ t.hashFn = x.hashFn ∧ t.cmpFn = x.cmpFn := by
  obtain ⟨tt, h1, h2⟩ := r.m.get (i := i) (ht := t.tab) (by simp [hi])
  simp only [Option.map_eq_some_iff] at h1
  obtain ⟨x, h3, rfl⟩ := h1
  exact ⟨x, h3, h2, r.fns i t x hi h3⟩

theorem HSt.set (r : HSt s σ A) {i : Nat} {x : SetObj K} (hi : σ.objs i = some x) :
    ∃ t, s.sets i = some t ∧ HRep s.heap t.tab x.tab (A i) ∧ t.hashFn = x.hashFn ∧ t.cmpFn = x.cmpFn := by
  have hd := r.m.dom i
  simp only [hi, Option.map_some, Option.isSome_some, Option.isSome_map] at hd
  obtain ⟨t, ht⟩ := Option.isSome_iff_exists.1 hd
  obtain ⟨x', h1, h2⟩ := r.obj ht
  rw [hi] at h1
  cases h1
  exact ⟨t, ht, h2⟩

theorem HSt.get (r : HSt s σ A) (i : Nat) :
    Spec.ResRel (fun t x => s.sets i = some t ∧ σ.objs i = some x ∧ HRep s.heap t.tab x.tab (A i) ∧ t.hashFn = x.hashFn ∧
      t.cmpFn = x.cmpFn) (s.get i) (σ.get i) := by
  unfold HStore.get Store.get
  cases hs : s.sets i with
  | none =>
    have := (r.m.none_iff i).1 (by simp [hs])
    simp only [Option.map_eq_none_iff] at this
    rw [this]
    trivial
  | some t =>
    obtain ⟨x, h1, h2⟩ := r.obj hs
    rw [h1]
    exact ⟨rfl, rfl, h2⟩

theorem HSt.lt (r : HSt s σ A) {i : Nat} {t : HSet} (hi : s.sets i = some t) : i < s.next := by
  by_contra hc
  rw [r.bound i (by omega)] at hi
  simp at hi

/-- one set changes together with memory -/
theorem HSt.upd (r : HSt s σ A) {i : Nat} {t : HSet} {x : SetObj K} (hs : s.sets i = some t) (hx : σ.objs i = some x)
    {h' : Heap (Entry K Unit)} {ht' : HTab} {t' : Tab K Unit} {B} (hr : HRep h' ht' t' B)
    (e : Eff s.heap h' (Foot x.tab.prime (A i)) (Foot t'.prime B)) :
    HSt (s.upd i t (h', ht')) (σ.put i (some { x with tab := t' })) (set1 A i B) := by
  refine ⟨?_, r.next, ?_, ?_⟩
  · have := r.m.update (i := i) (t := x.tab) (by simp [hx]) hr e
    simp only [HStore.upd, HStore.put, Store.put, map_set1]
    exact this
  · intro j tj xj h1 h2
    simp only [HStore.upd, HStore.put, Store.put] at h1 h2
    by_cases hj : j = i
    · subst hj
      simp only [if_true, Option.some.injEq] at h1 h2
      subst h1; subst h2
      exact r.fns j t x hs hx
    · rw [if_neg hj] at h1 h2
      exact r.fns j tj xj h1 h2
  · intro j hj
    simp only [HStore.upd, HStore.put] at hj ⊢
    have : j ≠ i := by have := r.lt hs; omega
    rw [if_neg this]
    exact r.bound j hj

/-- only flags and counters of one set change -/
theorem HSt.retag (r : HSt s σ A) {i : Nat} {t : HSet} {x : SetObj K} (hs : s.sets i = some t) (hx : σ.objs i = some x)
    {ht' : HTab} {t' : Tab K Unit} (hr : HRep s.heap ht' t' (A i)) (hp : t'.prime = x.tab.prime) :
    HSt (s.put i (some { t with tab := ht' })) (σ.put i (some { x with tab := t' })) A := by
  have h1 := r.upd hs hx hr (by rw [hp]; exact Eff.refl _ _)
  have e : set1 A i (A i) = A := by
    funext j
    by_cases hj : j = i
    · subst hj; simp
    · rw [set1_ne _ _ hj]
  rw [e] at h1
  exact h1

theorem ops_eq' {t : HSet} {x : SetObj K} (h : t.hashFn = x.hashFn ∧ t.cmpFn = x.cmpFn) : t.ops env = x.ops env := by
  simp [HSet.ops, SetObj.ops, h.1, h.2]

theorem insert_step (r : HSt s σ A) {i : Nat} {x : SetObj K} (hx : σ.objs i = some x) (e : K) :
    Spec.ResRel (fun c b => c.2 = b.2 ∧ ∃ B, HSt c.1 (σ.put i (some b.1)) (set1 A i B) ∧ ∀ j, j ≠ i → c.1.sets j = s.sets j)
      (setInsert env s i e) (Set.setInsert env x e) := by
  obtain ⟨t, h1, h2, h3⟩ := r.set hx
  simp only [setInsert, Set.setInsert, HStore.get, h1]
  simp only [Res.bind]
  rw [ops_eq' h3]
  have := hinsert_hrep (ops := x.ops env) h2 e ()
  cases hc : hinsert (x.ops env) s.heap t.tab e () <;> cases hb : Tab.insert (x.ops env) x.tab e () <;> rw [hc, hb] at this <;>
    simp only [Spec.ResRel] at this ⊢
  obtain ⟨q1, B, q2, q3⟩ := this
  exact ⟨q1, B, r.upd h1 hx q2 q3, fun j hj => by simp [HStore.upd, HStore.put, hj]⟩

theorem delete_step (r : HSt s σ A) {i : Nat} {x : SetObj K} (hx : σ.objs i = some x) (e : K) :
    Spec.ResRel (fun c b => c.2 = b.2 ∧ ∃ B, HSt c.1 (σ.put i (some b.1)) (set1 A i B) ∧ ∀ j, j ≠ i → c.1.sets j = s.sets j)
      (setDelete env s i e) (Set.setDelete env x e) := by
  obtain ⟨t, h1, h2, h3⟩ := r.set hx
  simp only [setDelete, Set.setDelete, HStore.get, h1]
  simp only [Res.bind]
  rw [ops_eq' h3]
  have := hdelete_hrep (ops := x.ops env) h2 e
  cases hc : hdelete (x.ops env) s.heap t.tab e <;> cases hb : Tab.delete (x.ops env) x.tab e <;> rw [hc, hb] at this <;>
    simp only [Spec.ResRel] at this ⊢
  obtain ⟨q1, B, q2, q3⟩ := this
  exact ⟨q1, B, r.upd h1 hx q2 q3, fun j hj => by simp [HStore.upd, HStore.put, hj]⟩

theorem hretrieve_ro {D : Type} {ops : KeyOps K} {h : Heap (Entry K D)} {t : HTab} {k : K} {q : (Heap (Entry K D) × HTab) × Option D}
    (hro : t.readonly ≠ 0) (hq : hretrieve ops h t k = .ok q) :
    q.1.1 = h ∧ q.1.2.buckets = t.buckets ∧ q.1.2.prime = t.prime ∧ q.1.2.readonly = t.readonly := by
  unfold hretrieve at hq
  by_cases hp : t.prime = 0
  · rw [if_pos hp] at hq; simp at hq
  · rw [if_neg hp] at hq
    simp only at hq
    cases hf : findLoop ops k h.clock h 0 (t.buckets (ops.hash k % t.prime)) with
    | ok f =>
      rw [hf] at hq
      cases f with
      | none => simp only [Res.bind, Res.ok.injEq] at hq; subst hq; exact ⟨rfl, rfl, rfl, rfl⟩
      | some p =>
        obtain ⟨prev, pt, c⟩ := p
        simp only [Res.bind, if_neg hro] at hq
        split at hq <;> (simp only [Res.ok.injEq] at hq; subst hq; exact ⟨rfl, rfl, rfl, rfl⟩)
    | _ => rw [hf] at hq; simp [Res.bind] at hq

theorem tretrieve_ro {D : Type} {ops : KeyOps K} {t t' : Tab K D} {k : K} {d : Option D} (hro : t.readonly ≠ 0)
    (h : Tab.retrieve ops t k = .ok (t', d)) : t'.buckets = t.buckets ∧ t'.prime = t.prime ∧ t'.readonly = t.readonly := by
  unfold Tab.retrieve at h
  simp only [if_neg hro] at h
  repeat' split at h
  all_goals first
    | (simp at h; done)
    | (simp only [Res.ok.injEq, Prod.mk.injEq] at h; obtain ⟨rfl, -⟩ := h; exact ⟨rfl, rfl, rfl⟩)

theorem member_step (r : HSt s σ A) {i : Nat} {x : SetObj K} (hx : σ.objs i = some x) (e : K) :
    Spec.ResRel (fun c b => c.2 = b.2 ∧ ∃ B, HSt c.1 (σ.put i (some b.1)) (set1 A i B) ∧ ∀ j, j ≠ i → c.1.sets j = s.sets j)
      (setMember env s i e) (Set.setMember env x e) := by
  obtain ⟨t, h1, h2, h3⟩ := r.set hx
  simp only [setMember, Set.setMember, HStore.get, h1]
  simp only [Res.bind]
  rw [ops_eq' h3]
  have := hretrieve_hrep (ops := x.ops env) h2 e
  cases hc : hretrieve (x.ops env) s.heap t.tab e <;> cases hb : Tab.retrieve (x.ops env) x.tab e <;> rw [hc, hb] at this <;>
    simp only [Spec.ResRel] at this ⊢
  rename_i c b
  obtain ⟨q1, B, q2, q3, -⟩ := this
  exact ⟨by rw [q1]; cases b.2 <;> rfl, B, r.upd h1 hx q2 q3, fun j hj => by simp [HStore.upd, HStore.put, hj]⟩

/-- searching a read-only set changes counters only -/
theorem member_ro (r : HSt s σ A) {i : Nat} {x : SetObj K} (hx : σ.objs i = some x) (hro : x.tab.readonly ≠ 0) (e : K) :
    Spec.ResRel (fun c b => c.2 = b.2 ∧ HSt c.1 (σ.put i (some b.1)) A ∧ (∀ j, j ≠ i → c.1.sets j = s.sets j) ∧
        b.1.tab.readonly ≠ 0 ∧
        ∀ t, s.sets i = some t → ∃ t', c.1.sets i = some t' ∧ t'.tab.prime = t.tab.prime ∧ t'.tab.buckets = t.tab.buckets)
      (setMember env s i e) (Set.setMember env x e) := by
  obtain ⟨t, h1, h2, h3⟩ := r.set hx
  simp only [setMember, Set.setMember, HStore.get, h1]
  simp only [Res.bind]
  rw [ops_eq' h3]
  have := hretrieve_hrep (ops := x.ops env) h2 e
  cases hc : hretrieve (x.ops env) s.heap t.tab e <;> cases hb : Tab.retrieve (x.ops env) x.tab e <;> rw [hc, hb] at this <;>
    simp only [Spec.ResRel] at this ⊢
  rename_i c b
  obtain ⟨q1, B, q2, q3, -⟩ := this
  obtain ⟨p1, p2, p3, p4⟩ := hretrieve_ro (by rw [h2.ro]; exact hro) hc
  obtain ⟨w1, w2, w3⟩ := tretrieve_ro hro (t' := b.1) (d := b.2) hb
  have hr : HRep s.heap c.1.2 b.1 (A i) := by
    refine ⟨h2.ok, q2.prime, q2.entries, q2.resizings, q2.retrievals, q2.hits, q2.misses, q2.ro, ?_, ?_, ?_⟩
    · rw [w2, p2]; exact h2.chain
    · rw [w2, w1]; exact h2.ents
    · rw [w2]; exact h2.disj
  refine ⟨by rw [q1]; cases b.2 <;> rfl, ?_, fun j hj => by simp [HStore.upd, HStore.put, hj], by rw [w3]; exact hro, ?_⟩
  · have := r.retag h1 hx hr w2
    have e2 : s.upd i t c.1 = s.put i (some { t with tab := c.1.2 }) := by
      simp only [HStore.upd, HStore.put, p1]
    rw [e2]
    exact this
  · intro t0 ht0
    cases ht0
    exact ⟨{ t with tab := c.1.2 }, by simp [HStore.upd, HStore.put], p3, p2⟩

end

/-! walking the chains of a set -/

/-- a loop over a list that may be left early -/
def foldB {X : Type} (b : X → K → Res (X × Bool)) : X → List K → Res (X × Bool)
  | x, [] => .ok (x, false)
  | x, e :: es => (b x e).bind fun q => if q.2 then .ok q else foldB b q.1 es

theorem foldB_append {X : Type} (b : X → K → Res (X × Bool)) (x : X) (l l' : List K) :
    foldB b x (l ++ l') = (foldB b x l).bind fun q => if q.2 then .ok q else foldB b q.1 l' := by
  induction l generalizing x with
  | nil => rfl
  | cons e l ih =>
    simp only [List.cons_append, foldB]
    cases b x e with
    | ok q =>
      simp only [Res.bind]
      by_cases hq : q.2 = true
      · simp [hq]
      · simp only [hq, Bool.false_eq_true, if_false]
        exact ih q.1
    | _ => rfl

theorem Chain_agree {α : Type} {m m' : Nat → Option (α × Nat)} (l : List (Nat × α)) :
    ∀ {p : Nat}, Chain m p l → Chain m' p l → ∀ a ∈ l.map Prod.fst, m a = m' a := by
  induction l with
  | nil => intro p _ _ a ha; simp at ha
  | cons c l ih =>
    intro p h1 h2 a ha
    obtain ⟨e1, e2, n1, e3, e4⟩ := h1
    obtain ⟨f1, f2, n2, f3, f4⟩ := h2
    have hn : n1 = n2 := by
      cases l with
      | nil =>
        have g1 : n1 = 0 := e4
        have g2 : n2 = 0 := f4
        rw [g1, g2]
      | cons d l =>
        obtain ⟨g1, -⟩ := e4
        obtain ⟨g2, -⟩ := f4
        rw [g1, g2]
    subst hn
    simp only [List.map_cons, List.mem_cons] at ha
    rcases ha with rfl | ha
    · rw [e3, f3]
    · exact ih e4 f4 a ha

section
variable {X : Type} {R : HStore K → X → Prop} {body : HStore K → K → Res (HStore K × Bool)} {b : X → K → Res (X × Bool)}

theorem walkChain_sim (hb : ∀ s x e, R s x → Spec.ResRel (fun c d => c.2 = d.2 ∧ R c.1 d.1) (body s e) (b x e))
    (M : Nat → Option (Entry K Unit × Nat)) (l : List (Nat × Entry K Unit)) :
    ∀ (n : Nat) (s : HStore K) (x : X) (pt : Nat), (∀ s x, R s x → ∀ a ∈ addrs l, s.heap.mem a = M a) →
    R s x → l.length < n → Chain M pt l →
    Spec.ResRel (fun c d => c.2 = d.2 ∧ R c.1 d.1) (walkChain body n s pt) (foldB b x (l.map fun c => c.2.key)) := by
  induction l with
  | nil =>
    intro n s x pt hst hR hn hc
    cases n with
    | zero => omega
    | succ n =>
      have : pt = 0 := hc
      subst this
      exact ⟨rfl, hR⟩
  | cons c l ih =>
    intro n s x pt hst hR hn hc
    cases n with
    | zero => omega
    | succ n =>
      obtain ⟨h1, h2, nx, h3, h4⟩ := hc
      subst h1
      have hrd : ∀ s x, R s x → s.heap.read c.1 = .ok (c.2, nx) := fun s x h =>
        Heap.read_ok (by rw [hst s x h c.1 (by simp [addrs])]; exact h3)
      simp only [walkChain, List.map_cons, foldB]
      rw [if_neg h2, hrd s x hR]
      simp only [Res.bind]
      have h5 := hb s x c.2.key hR
      cases hq : body s c.2.key <;> cases hd : b x c.2.key <;> rw [hq, hd] at h5 <;> simp only [Spec.ResRel] at h5 ⊢
      rename_i q d
      rw [h5.1]
      by_cases hd2 : d.2 = true
      · rw [if_pos hd2, if_pos hd2]
        exact ⟨hd2.symm, h5.2⟩
      · simp only [hd2, Bool.false_eq_true, if_false]
        rw [hrd _ _ h5.2]
        simp only
        exact ih n q.1 d.1 nx (fun s x h a ha => hst s x h a (by simp only [addrs, List.map_cons, List.mem_cons]; exact Or.inr ha))
          h5.2 (by simp at hn; omega) h4

theorem walk_sim (hb : ∀ s x e, R s x → Spec.ResRel (fun c d => c.2 = d.2 ∧ R c.1 d.1) (body s e) (b x e))
    {i : Nat} {t0 : HSet} {tt0 : Tab K Unit} {B : Nat → List (Nat × Entry K Unit)} {s0 : HStore K} {x0 : X} (hR0 : R s0 x0)
    (hr0 : HRep s0.heap t0.tab tt0 B)
    (hst : ∀ s x, R s x → ∃ t tt, s.sets i = some t ∧ t.tab.prime = t0.tab.prime ∧ t.tab.buckets = t0.tab.buckets ∧
      HRep s.heap t.tab tt B) :
    Spec.ResRel (fun c d => c.2 = d.2 ∧ R c.1 d.1) (walk body i (rounds t0) 0 s0) (foldB b x0 ((Tab.all tt0).map (·.key))) := by
  have agree : ∀ k, k < tt0.prime → ∀ s x, R s x → ∀ a ∈ addrs (B k), s.heap.mem a = s0.heap.mem a := by
    intro k hk s x h a ha
    obtain ⟨t, tt, g1, g2, g3, g4⟩ := hst s x h
    have hk' : k < tt.prime := by rw [← g4.prime, g2, hr0.prime]; exact hk
    have c1 := g4.chain k hk'
    rw [g3] at c1
    exact Chain_agree (B k) c1 (hr0.chain k hk) a ha
  have main : ∀ n k s x, R s x → k ≤ t0.tab.prime → t0.tab.prime < k + n →
      Spec.ResRel (fun c d => c.2 = d.2 ∧ R c.1 d.1) (walk body i n k s)
        (foldB b x (((List.range tt0.prime).drop k).flatMap fun k => (B k).map fun c => c.2.key)) := by
    intro n
    induction n with
    | zero =>
      intro k s x hR hle hn
      omega
    | succ n ih =>
      intro k s x hR hle hn
      obtain ⟨t, tt, g1, g2, g3, g4⟩ := hst s x hR
      simp only [walk, HStore.get, g1]
      simp only [Res.bind]
      by_cases hk : k < t.tab.prime
      · rw [if_pos hk]
        have hk0 : k < tt0.prime := by rw [g2, hr0.prime] at hk; exact hk
        rw [drop_range _ _ hk0, List.flatMap_cons, foldB_append]
        have hkt : k < tt.prime := by rw [g4.prime] at hk; exact hk
        have h1 := walkChain_sim hb s0.heap.mem (B k) s.heap.clock s x (t.tab.buckets k) (agree k hk0) hR
          (Heap.Chain.length_lt g4.ok (g4.chain k hkt)) (by rw [g3]; exact hr0.chain k hk0)
        cases hq : walkChain body s.heap.clock s (t.tab.buckets k) <;> cases hd : foldB b x ((B k).map fun c => c.2.key) <;>
          rw [hq, hd] at h1 <;> simp only [Spec.ResRel, Res.bind] at h1 ⊢
        rename_i q d
        rw [h1.1]
        by_cases hd2 : d.2 = true
        · rw [if_pos hd2, if_pos hd2]
          exact ⟨h1.1, h1.2⟩
        · simp only [hd2, Bool.false_eq_true, if_false]
          exact ih (k + 1) q.1 d.1 h1.2 (by rw [g2] at hk; omega) (by omega)
      · rw [if_neg hk]
        have : (List.range tt0.prime).drop k = [] := by
          rw [List.drop_eq_nil_iff, List.length_range]
          rw [g2, hr0.prime] at hk
          omega
        rw [this]
        exact ⟨rfl, hR⟩
  have := main (rounds t0) 0 s0 x0 hR0 (by omega) (by unfold rounds; omega)
  have e : ((List.range tt0.prime).drop 0).flatMap (fun k => (B k).map fun c => c.2.key) = (Tab.all tt0).map (·.key) := by
    rw [List.drop_zero, Tab.all, List.map_flatMap, List.flatMap_def, List.flatMap_def]
    congr 1
    apply List.map_congr_left
    intro k hk
    rw [← hr0.ents k (List.mem_range.1 hk), List.map_map]
    rfl
  rw [e] at this
  exact this

end

/-! the chain-level loops as folds -/

/-- body of `set_add`, `set_union` -/
def insB (env : FnEnv K) (x : SetObj K) (e : K) : Res (SetObj K × Bool) := (Set.setInsert env x e).bind fun r => .ok (r.1, false)

/-- body of `set_del` -/
def delB (env : FnEnv K) (x : SetObj K) (e : K) : Res (SetObj K × Bool) := (Set.setDelete env x e).bind fun r => .ok (r.1, false)

/-- body of `set_inter`, `set_diff` -/
def selB (env : FnEnv K) (keep : Bool) (p : SetObj K × SetObj K) (e : K) : Res ((SetObj K × SetObj K) × Bool) :=
  (Set.setMember env p.2 e).bind fun r =>
    if (r.2 ≠ 0) = keep then (Set.setInsert env p.1 e).bind fun q => .ok ((q.1, r.1), false) else .ok ((p.1, r.1), false)

/-- body of `set_equal` -/
def eqB (env : FnEnv K) (x : SetObj K) (e : K) : Res (SetObj K × Bool) := (Set.setMember env x e).bind fun r => .ok (r.1, r.2 == 0)

theorem foldB_ins (l : List K) (x : SetObj K) :
    foldB (insB env) x l = (Set.insertAll env x l).bind fun r => .ok (r, false) := by
  induction l generalizing x with
  | nil => rfl
  | cons e l ih =>
    simp only [foldB, insB, Set.insertAll]
    cases Set.setInsert env x e with
    | ok q => exact ih q.1
    | _ => rfl

theorem foldB_del (l : List K) (x : SetObj K) :
    foldB (delB env) x l = (Set.deleteAll env x l).bind fun r => .ok (r, false) := by
  induction l generalizing x with
  | nil => rfl
  | cons e l ih =>
    simp only [foldB, delB, Set.deleteAll]
    cases Set.setDelete env x e with
    | ok q => exact ih q.1
    | _ => rfl

theorem foldB_sel (keep : Bool) (l : List K) (p : SetObj K × SetObj K) :
    foldB (selB env keep) p l = (Set.selectLoop env keep p.1 p.2 l).bind fun r => .ok (r, false) := by
  induction l generalizing p with
  | nil => rfl
  | cons e l ih =>
    simp only [foldB, selB, Set.selectLoop]
    cases Set.setMember env p.2 e with
    | ok r =>
      simp only [Res.bind]
      by_cases hk : (r.2 ≠ 0) = (keep = true)
      · rw [if_pos hk, if_pos hk]
        cases Set.setInsert env p.1 e with
        | ok q => exact ih (q.1, r.1)
        | _ => rfl
      · rw [if_neg hk, if_neg hk]
        exact ih (p.1, r.1)
    | _ => rfl

theorem foldB_eq (l : List K) (x : SetObj K) :
    Set.equalLoop env x l = (foldB (eqB env) x l).bind fun q => .ok (q.1, if q.2 then 0 else 1) := by
  induction l generalizing x with
  | nil => rfl
  | cons e l ih =>
    simp only [foldB, eqB, Set.equalLoop]
    cases Set.setMember env x e with
    | ok r =>
      simp only [Res.bind]
      by_cases h : r.2 = 0
      · simp [h]
      · have : (r.2 == 0) = false := by simpa using h
        rw [if_neg h, this]
        exact ih r.1
    | _ => rfl

/-! stores -/

theorem put_self {σ : Store K} {i : Nat} {x : SetObj K} (h : σ.objs i = some x) : σ.put i (some x) = σ := by
  unfold Store.put
  congr 1
  funext j
  by_cases hj : j = i
  · subst hj; simp [h]
  · simp [hj]

theorem put_put (σ : Store K) (i : Nat) (x y : Option (SetObj K)) : (σ.put i x).put i y = σ.put i y := by
  unfold Store.put
  congr 1
  funext j
  by_cases hj : j = i <;> simp [hj]

theorem alloc_put (σ : Store K) (x y : SetObj K) : (σ.alloc x).put σ.next (some y) = σ.alloc y := by
  unfold Store.put Store.alloc
  congr 1
  funext j
  by_cases hj : j = σ.next <;> simp [hj]

theorem put_alloc_comm (σ : Store K) {i : Nat} (h : i ≠ σ.next) (x : SetObj K) (y : Option (SetObj K)) :
    (σ.alloc x).put i y = (σ.put i y).alloc x := by
  unfold Store.put Store.alloc
  congr 1
  funext j
  by_cases hj : j = i
  · subst hj; simp [h]
  · simp [hj]

theorem set1_set1 {α : Type} (f : Nat → α) (i : Nat) (x y : α) : set1 (set1 f i x) i y = set1 f i y := by
  funext j
  by_cases hj : j = i
  · subst hj; simp
  · rw [set1_ne _ _ hj, set1_ne _ _ hj, set1_ne _ _ hj]

theorem set1_self {α : Type} (f : Nat → α) (i : Nat) : set1 f i (f i) = f := by
  funext j
  by_cases hj : j = i
  · subst hj; simp
  · rw [set1_ne _ _ hj]

/-- Walk the chains of set `j` while set `n` is changed element by element. -/
theorem walk_other {A : Nat → Nat → List (Nat × Entry K Unit)} {n j : Nat} (hnj : j ≠ n) {f : SetObj K → Store K}
    (f1 : ∀ x, (f x).objs n = some x) (f2 : ∀ x y, (f x).put n (some y) = f y)
    {body : HStore K → K → Res (HStore K × Bool)} {call : HStore K → K → Res (HStore K × Int)}
    {b : SetObj K → K → Res (SetObj K × Bool)} {acall : SetObj K → K → Res (SetObj K × Int)}
    (hbody : ∀ s e, body s e = (call s e).bind fun r => .ok (r.1, false))
    (hb : ∀ x e, b x e = (acall x e).bind fun r => .ok (r.1, false))
    (hcall : ∀ (s : HStore K) (σ : Store K) A' x e, HSt s σ A' → σ.objs n = some x →
      Spec.ResRel (fun c b => c.2 = b.2 ∧ ∃ B, HSt c.1 (σ.put n (some b.1)) (set1 A' n B) ∧ ∀ j, j ≠ n → c.1.sets j = s.sets j)
        (call s e) (acall x e))
    {s : HStore K} {x : SetObj K} {B0} (hR : HSt s (f x) (set1 A n B0)) {t : HSet} (ht : s.sets j = some t) {y : SetObj K}
    (hy : (f x).objs j = some y) :
    Spec.ResRel (fun c d => c.2 = d.2 ∧ ∃ B, HSt c.1 (f d.1) (set1 A n B) ∧ ∀ k, k ≠ n → c.1.sets k = s.sets k)
      (walk body j (rounds t) 0 s) (foldB b x (elems y)) := by
  obtain ⟨y', g1, g2, g3⟩ := hR.obj ht
  rw [hy] at g1
  cases g1
  rw [set1_ne _ _ hnj] at g2
  refine walk_sim (R := fun s' x' => ∃ B, HSt s' (f x') (set1 A n B) ∧ ∀ k, k ≠ n → s'.sets k = s.sets k) (t0 := t) (B := A j)
    ?_ ⟨B0, hR, fun _ _ => rfl⟩ g2 ?_
  · rintro s' x' e ⟨B, r, hk⟩
    rw [hbody, hb]
    refine (hcall s' (f x') _ x' e r (f1 x')).bind ?_
    rintro c d ⟨-, B', q1, q2⟩
    rw [f2, set1_set1] at q1
    exact ⟨rfl, B', q1, fun k hkn => (q2 k hkn).trans (hk k hkn)⟩
  · rintro s' x' ⟨B, r, hk⟩
    have h1 : s'.sets j = some t := (hk j hnj).trans ht
    obtain ⟨y', w1, w2, -⟩ := r.obj h1
    rw [set1_ne _ _ hnj] at w2
    exact ⟨t, y'.tab, h1, rfl, rfl, w2⟩

section
variable {s : HStore K} {σ : Store K} {A : Nat → Nat → List (Nat × Entry K Unit)}

theorem create_step (r : HSt s σ A) (h c : Nat) :
    ∃ s' x, setCreate s h c = .ok (s', s.next) ∧ Set.setCreate h c = .ok x ∧ x.hashFn = h ∧ x.cmpFn = c ∧
      HSt s' (σ.alloc x) (set1 A σ.next (fun _ => [])) ∧ (∀ j, j ≠ s.next → s'.sets j = s.sets j) ∧ s'.heap = s.heap := by
  obtain ⟨ht, t, h1, h2, -, h4⟩ := hcreate_hrep (D := Unit) s.heap r.m.ok 0
  refine ⟨{ s with sets := fun j => if j = s.next then some { tab := ht, hashFn := h, cmpFn := c } else s.sets j, next := s.next + 1 },
    { tab := t, hashFn := h, cmpFn := c }, by simp only [setCreate, h1, Res.bind],
    by simp only [Set.setCreate, h2, Res.bind], rfl, rfl, ⟨?_, ?_, ?_, ?_⟩, ?_, rfl⟩
  · have := r.m.create (i := s.next) (by simp [r.bound s.next (Nat.le_refl _)]) h4
    simp only [Store.alloc, map_set1]
    rw [← r.next]
    exact this
  · simp [Store.alloc, r.next]
  · intro j tj xj g1 g2
    simp only [Store.alloc] at g1 g2
    rw [← r.next] at g2
    by_cases hj : j = s.next
    · subst hj
      simp only [if_true, Option.some.injEq] at g1 g2
      subst g1; subst g2
      exact ⟨rfl, rfl⟩
    · rw [if_neg hj] at g1 g2
      exact r.fns j tj xj g1 g2
  · intro j hj
    simp only at hj ⊢
    rw [if_neg (by omega)]
    exact r.bound j (by omega)
  · intro j hj
    simp [hj]

/-- the check of the functions -/
theorem check2_step (r : HSt s σ A) (i j : Nat) {γ δ : Type} {Q : γ → δ → Prop} (f : HSet × HSet → Res γ)
    (g : SetObj K → SetObj K → Res δ) (hg : ∀ x y, Set.sameFns x y = false → g x y = .fatal)
    (hok : ∀ t u x y, s.sets i = some t → s.sets j = some u → σ.objs i = some x → σ.objs j = some y →
      HRep s.heap t.tab x.tab (A i) → HRep s.heap u.tab y.tab (A j) → (t.hashFn = x.hashFn ∧ t.cmpFn = x.cmpFn) →
      (u.hashFn = y.hashFn ∧ u.cmpFn = y.cmpFn) → Set.sameFns x y = true → Spec.ResRel Q (f (t, u)) (g x y)) :
    Spec.ResRel Q ((check2 s i j).bind f) ((σ.get i).bind fun x => (σ.get j).bind fun y => g x y) := by
  have assoc : (check2 s i j).bind f = (s.get i).bind fun t1 => (s.get j).bind fun t2 =>
      if t1.hashFn ≠ t2.hashFn then .fatal else if t1.cmpFn ≠ t2.cmpFn then .fatal else f (t1, t2) := by
    unfold check2
    cases s.get i with
    | ok t =>
      simp only [Res.bind]
      cases s.get j with
      | ok u =>
        simp only
        by_cases h1 : t.hashFn ≠ u.hashFn
        · rw [if_pos h1, if_pos h1]
        · rw [if_neg h1, if_neg h1]
          by_cases h2 : t.cmpFn ≠ u.cmpFn
          · rw [if_pos h2, if_pos h2]
          · rw [if_neg h2, if_neg h2]
      | _ => rfl
    | _ => rfl
  rw [assoc]
  refine (r.get i).bind fun t x ⟨t1, t2, t3, t4⟩ => (r.get j).bind fun u y ⟨u1, u2, u3, u4⟩ => ?_
  by_cases h1 : t.hashFn ≠ u.hashFn
  · rw [if_pos h1, hg x y (by simp [Set.sameFns, ← t4.1, ← u4.1, h1])]
    trivial
  · rw [if_neg h1]
    by_cases h2 : t.cmpFn ≠ u.cmpFn
    · rw [if_pos h2, hg x y (by simp [Set.sameFns, ← t4.2, ← u4.2, h2])]
      trivial
    · rw [if_neg h2]
      push Not at h1 h2
      exact hok t u x y t1 u1 t2 u2 t3 u3 t4 u4 (by simp [Set.sameFns, ← t4.1, ← t4.2, ← u4.1, ← u4.2, h1, h2])

theorem bind_assoc' {α β γ : Type} (x : Res α) (f : α → Res β) (g : β → Res γ) :
    (x.bind f).bind g = x.bind fun a => (f a).bind g := by cases x <;> rfl

/-- a loop whose body changes nothing -/
theorem walkChain_quiet {body : HStore K → K → Res (HStore K × Bool)} {s : HStore K} (l : List (Nat × Entry K Unit)) :
    ∀ (n pt : Nat), l.length < n → Chain s.heap.mem pt l → (∀ c ∈ l, body s c.2.key = .ok (s, false)) →
    walkChain body n s pt = .ok (s, false) := by
  induction l with
  | nil =>
    intro n pt hn hc _
    cases n with
    | zero => omega
    | succ n =>
      have : pt = 0 := hc
      subst this
      rfl
  | cons c l ih =>
    intro n pt hn hc hb
    cases n with
    | zero => omega
    | succ n =>
      obtain ⟨h1, h2, nx, h3, h4⟩ := hc
      subst h1
      simp only [walkChain, if_neg h2, Heap.read_ok h3, Res.bind, hb c (by simp)]
      simp only [Bool.false_eq_true, if_false, Heap.read_ok h3]
      exact ih n nx (by simp at hn; omega) h4 fun d hd => hb d (by simp [hd])

theorem walk_quiet {body : HStore K → K → Res (HStore K × Bool)} {s : HStore K} {i : Nat} {t : HSet} {tt : Tab K Unit}
    {B : Nat → List (Nat × Entry K Unit)} (hi : s.sets i = some t) (r : HRep s.heap t.tab tt B) :
    ∀ (n k : Nat), (∀ j, j < tt.prime → ∀ c ∈ B j, body s c.2.key = .ok (s, false)) → k ≤ tt.prime → tt.prime < k + n →
    walk body i n k s = .ok (s, false) := by
  intro n
  induction n with
  | zero => intro k hb hk hn; omega
  | succ n ih =>
    intro k hb hk hn
    simp only [walk, HStore.get, hi]
    simp only [Res.bind]
    rw [r.prime]
    by_cases hk' : k < tt.prime
    · rw [if_pos hk', walkChain_quiet (B k) _ _ (Heap.Chain.length_lt r.ok (r.chain k hk')) (r.chain k hk') (hb k hk')]
      simp only [Bool.false_eq_true, if_false]
      exact ih (k + 1) hb (by omega) (by omega)
    · rw [if_neg hk']

/-- a set that is locked keeps its cells -/
def Kept (σ : Store K) (A : Nat → Nat → List (Nat × Entry K Unit)) (σ' : Store K) (A' : Nat → Nat → List (Nat × Entry K Unit)) (i : Nat) : Prop :=
  ∀ x, σ.objs i = some x → x.tab.readonly ≠ 0 →
    A' i = A i ∧ ∃ x', σ'.objs i = some x' ∧ x'.tab.prime = x.tab.prime ∧ x'.tab.readonly ≠ 0

/-- what a call may do, pointer level against chain level -/
abbrev Rel (σ : Store K) (A : Nat → Nat → List (Nat × Entry K Unit)) (P : Nat → Prop) (c : HStore K × Int) (b : Store K × Int) : Prop :=
  c.2 = b.2 ∧ ∃ A', HSt c.1 b.1 A' ∧ ∀ i, P i → Kept σ A b.1 A' i

theorem Kept.other {i j : Nat} (h : i ≠ j) {B : Nat → List (Nat × Entry K Unit)} {x : Option (SetObj K)} :
    Kept σ A (σ.put j x) (set1 A j B) i := fun y hy hro => ⟨set1_ne _ _ h, y, by simp [Store.put, h, hy], rfl, hro⟩

theorem Kept.refl {i : Nat} : Kept σ A σ A i := fun y hy hro => ⟨rfl, y, hy, rfl, hro⟩

theorem Kept.alloc (r : HSt s σ A) {i : Nat} {z : SetObj K} {B : Nat → List (Nat × Entry K Unit)} :
    Kept σ A (σ.alloc z) (set1 A σ.next B) i := by
  intro y hy hro
  obtain ⟨t, ht, -⟩ := r.set hy
  have : i ≠ σ.next := by have := r.lt ht; have := r.next; omega
  exact ⟨set1_ne _ _ this, y, by simp [Store.alloc, this, hy], rfl, hro⟩

theorem Kept.retag {j k : Nat} {y z : SetObj K} (hy : σ.objs j = some y) (hp : z.tab.prime = y.tab.prime) (hr : z.tab.readonly = y.tab.readonly) :
    Kept σ A (σ.put j (some z)) A k := by
  intro x hx hro
  by_cases hk : k = j
  · subst hk
    rw [hy] at hx
    cases hx
    exact ⟨rfl, z, by simp [Store.put], hp, by rw [hr]; exact hro⟩
  · exact ⟨rfl, x, by simp [Store.put, hk, hx], rfl, hro⟩

theorem Kept.retag_alloc (r : HSt s σ A) {j k : Nat} {y z w : SetObj K} {B : Nat → List (Nat × Entry K Unit)} (hy : σ.objs j = some y)
    (hp : z.tab.prime = y.tab.prime) (hr : z.tab.readonly = y.tab.readonly) :
    Kept σ A ((σ.put j (some z)).alloc w) (set1 A σ.next B) k := by
  intro x hx hro
  obtain ⟨t, ht, -⟩ := r.set hx
  have hn : k ≠ σ.next := by have := r.lt ht; have := r.next; omega
  obtain ⟨-, x', h1, h2, h3⟩ := Kept.retag (A := A) (k := k) hy hp hr x hx hro
  exact ⟨set1_ne _ _ hn, x', by simpa [Store.alloc, Store.put, hn] using h1, h2, h3⟩

theorem tinsert_ro {D : Type} {ops : KeyOps K} {t : Tab K D} {k : K} {d : D} (hro : t.readonly ≠ 0) : Tab.insert ops t k d = .abort := by
  simp [Tab.insert, hro]

theorem tdelete_ro {D : Type} {ops : KeyOps K} {t : Tab K D} {k : K} (hro : t.readonly ≠ 0) {q} : Tab.delete ops t k ≠ .ok q := by
  unfold Tab.delete
  simp only [hro, ne_eq, not_false_eq_true, if_true]
  split <;> simp

theorem insert_ok_ro {x : SetObj K} {e : K} {q} (h : Set.setInsert env x e = .ok q) : x.tab.readonly = 0 := by
  by_contra hro
  simp [Set.setInsert, tinsert_ro hro, Res.bind] at h

theorem delete_ok_ro {x : SetObj K} {e : K} {q} (h : Set.setDelete env x e = .ok q) : x.tab.readonly = 0 := by
  by_contra hro
  cases hd : Tab.delete (x.ops env) x.tab e with
  | ok q => exact tdelete_ro hro hd
  | _ => simp [Set.setDelete, hd, Res.bind] at h

theorem insertAll_ok_ro {x : SetObj K} {l : List K} {q} (h : Set.insertAll env x l = .ok q) (hro : x.tab.readonly ≠ 0) : l = [] := by
  cases l with
  | nil => rfl
  | cons e l =>
    simp only [Set.insertAll] at h
    cases hi : Set.setInsert env x e with
    | ok r => exact absurd (insert_ok_ro hi) hro
    | _ => simp [hi, Res.bind] at h

theorem deleteAll_ok_ro {x : SetObj K} {l : List K} {q} (h : Set.deleteAll env x l = .ok q) (hro : x.tab.readonly ≠ 0) : l = [] := by
  cases l with
  | nil => rfl
  | cons e l =>
    simp only [Set.deleteAll] at h
    cases hi : Set.setDelete env x e with
    | ok r => exact absurd (delete_ok_ro hi) hro
    | _ => simp [hi, Res.bind] at h

/-- a set without elements has empty chains -/
theorem elems_nil {t : HTab} {y : SetObj K} {B} {h : Heap (Entry K Unit)} (r : HRep h t y.tab B) (he : elems y = []) :
    ∀ j, j < y.tab.prime → B j = [] := by
  intro j hj
  rw [← List.map_eq_nil_iff (f := Prod.snd), r.ents j hj, List.eq_nil_iff_forall_not_mem]
  intro e hm
  have : e.key ∈ elems y := List.mem_map_of_mem (f := (·.key)) (List.mem_flatMap.2 ⟨j, List.mem_range.2 hj, hm⟩)
  rw [he] at this
  simp at this

theorem walk_nil {body : HStore K → K → Res (HStore K × Bool)} {j : Nat} {u : HSet} {y : SetObj K} {B} (hu : s.sets j = some u)
    (r : HRep s.heap u.tab y.tab B) (he : elems y = []) : walk body j (rounds u) 0 s = .ok (s, false) :=
  walk_quiet hu r (rounds u) 0 (fun k hk c hc => by rw [elems_nil r he k hk] at hc; simp at hc) (Nat.zero_le _)
    (by unfold rounds; rw [r.prime]; omega)

theorem add_step (r : HSt s σ A) (i j : Nat) (hij : i ≠ j) :
    Spec.ResRel (Rel σ A fun _ => True) (hsetStep env s (.add i j)) (Set.setStep env σ (.add i j)) := by
  simp only [hsetStep, Set.setStep, setAdd, bind_assoc']
  refine check2_step r i j _ (fun s1 s2 => (Set.setAdd env s1 s2).bind fun q => .ok (σ.put i (some q), (i : Int)))
    (fun x y h => by simp [Set.setAdd, h, Res.bind]) ?_
  intro t u x y t1 u1 x1 y1 _ ur _ _ hs
  simp only [Set.setAdd, hs, if_true]
  have h1 := walk_other (A := A) (n := i) (j := j) (Ne.symm hij) (f := fun x => σ.put i (some x)) (fun x => by simp [Store.put])
    (fun x y => put_put σ i _ _) (body := insertBody env i) (call := fun s e => setInsert env s i e) (b := insB env)
    (acall := Set.setInsert env) (fun _ _ => rfl) (fun _ _ => rfl) (fun s σ A' x e r h => insert_step r h e)
    (s := s) (x := x) (B0 := A i) (by rw [put_self x1, set1_self]; exact r) u1 (y := y)
    (by simp [Store.put, Ne.symm hij, y1])
  rw [foldB_ins] at h1
  by_cases hro : x.tab.readonly ≠ 0 ∧ elems y = []
  · rw [walk_nil u1 ur hro.2, hro.2]
    exact ⟨rfl, A, by rw [put_self x1]; exact r, fun k _ => by rw [put_self x1]; exact Kept.refl⟩
  cases hw : walk (insertBody env i) j (rounds u) 0 s <;> cases hf : Set.insertAll env x (elems y) <;> rw [hw, hf] at h1 <;>
    simp only [Spec.ResRel, Res.bind] at h1 ⊢
  obtain ⟨-, B, q, -⟩ := h1
  refine ⟨rfl, _, q, fun k _ => ?_⟩
  by_cases hk : k = i
  · subst hk
    intro z hz hzr
    rw [x1] at hz
    cases hz
    exact absurd ⟨hzr, insertAll_ok_ro hf hzr⟩ hro
  · exact Kept.other hk

theorem del_step (r : HSt s σ A) (i j : Nat) (hij : i ≠ j) :
    Spec.ResRel (Rel σ A fun _ => True) (hsetStep env s (.del i j)) (Set.setStep env σ (.del i j)) := by
  simp only [hsetStep, Set.setStep, setDel, bind_assoc']
  refine check2_step r i j _ (fun s1 s2 => (Set.setDel env s1 s2).bind fun q => .ok (σ.put i (some q), (i : Int)))
    (fun x y h => by simp [Set.setDel, h, Res.bind]) ?_
  intro t u x y t1 u1 x1 y1 _ ur _ _ hs
  simp only [Set.setDel, hs, if_true]
  have h1 := walk_other (A := A) (n := i) (j := j) (Ne.symm hij) (f := fun x => σ.put i (some x)) (fun x => by simp [Store.put])
    (fun x y => put_put σ i _ _) (body := deleteBody env i) (call := fun s e => setDelete env s i e) (b := delB env)
    (acall := Set.setDelete env) (fun _ _ => rfl) (fun _ _ => rfl) (fun s σ A' x e r h => delete_step r h e)
    (s := s) (x := x) (B0 := A i) (by rw [put_self x1, set1_self]; exact r) u1 (y := y)
    (by simp [Store.put, Ne.symm hij, y1])
  rw [foldB_del] at h1
  by_cases hro : x.tab.readonly ≠ 0 ∧ elems y = []
  · rw [walk_nil u1 ur hro.2, hro.2]
    exact ⟨rfl, A, by rw [put_self x1]; exact r, fun k _ => by rw [put_self x1]; exact Kept.refl⟩
  cases hw : walk (deleteBody env i) j (rounds u) 0 s <;> cases hf : Set.deleteAll env x (elems y) <;> rw [hw, hf] at h1 <;>
    simp only [Spec.ResRel, Res.bind] at h1 ⊢
  obtain ⟨-, B, q, -⟩ := h1
  refine ⟨rfl, _, q, fun k _ => ?_⟩
  by_cases hk : k = i
  · subst hk
    intro z hz hzr
    rw [x1] at hz
    cases hz
    exact absurd ⟨hzr, deleteAll_ok_ro hf hzr⟩ hro
  · exact Kept.other hk

theorem union_step (r : HSt s σ A) (i j : Nat) :
    Spec.ResRel (Rel σ A fun _ => True) (hsetStep env s (.union i j)) (Set.setStep env σ (.union i j)) := by
  simp only [hsetStep, Set.setStep, setUnion, bind_assoc']
  refine check2_step r i j _ (fun s1 s2 => (Set.setUnion env s1 s2).bind fun q => .ok (σ.alloc q, (σ.next : Int)))
    (fun x y h => by simp [Set.setUnion, h, Res.bind]) ?_
  intro t u x y t1 u1 x1 y1 _ _ t4 _ hs
  simp only [Set.setUnion, hs, if_true]
  obtain ⟨s', z, c1, c2, -, -, c3, c4, -⟩ := create_step r t.hashFn t.cmpFn
  rw [← t4.1, ← t4.2, c1, c2]
  simp only [Res.bind]
  have hi : i ≠ s.next := by have := r.lt t1; omega
  have hj : j ≠ s.next := by have := r.lt u1; omega
  have hn := r.next
  have al : ∀ k, k ≠ σ.next → ∀ w, (σ.alloc w).objs k = σ.objs k := fun k hk w => by simp [Store.alloc, hk]
  have gen : ∀ (k : Nat) (v : HSet) (w : SetObj K) (s1 : HStore K) (z1 : SetObj K) (B0 : Nat → List (Nat × Entry K Unit)),
      k ≠ σ.next → s1.sets k = some v → σ.objs k = some w → HSt s1 (σ.alloc z1) (set1 A σ.next B0) →
      Spec.ResRel (fun c d => c.2 = d.2 ∧ ∃ B, HSt c.1 (σ.alloc d.1) (set1 A σ.next B) ∧ ∀ k, k ≠ σ.next → c.1.sets k = s1.sets k)
        (walk (insertBody env σ.next) k (rounds v) 0 s1) ((Set.insertAll env z1 (elems w)).bind fun r => .ok (r, false)) := by
    intro k v w s1 z1 B0 hk h1 h2 h3
    rw [← foldB_ins]
    exact walk_other (A := A) (n := σ.next) (j := k) hk (f := fun x => σ.alloc x) (fun x => by simp [Store.alloc])
      (fun x y => alloc_put σ x y) (body := insertBody env σ.next) (call := fun s e => setInsert env s σ.next e) (b := insB env)
      (acall := Set.setInsert env) (fun _ _ => rfl) (fun _ _ => rfl) (fun s σ A' x e r h => insert_step r h e)
      h3 h1 (by rw [al k hk]; exact h2)
  rw [hn] at hi hj c4 ⊢
  have h1 := gen i t x s' z _ hi ((c4 i hi).trans t1) x1 c3
  cases hw : walk (insertBody env σ.next) i (rounds t) 0 s' <;> cases hf : Set.insertAll env z (elems x) <;> rw [hw, hf] at h1 <;>
    simp only [Spec.ResRel, Res.bind] at h1 ⊢
  rename_i q d
  obtain ⟨-, B, q1, q2⟩ := h1
  have h2 := gen j u y q.1 d B hj ((q2 j hj).trans ((c4 j hj).trans u1)) y1 q1
  cases hw2 : walk (insertBody env σ.next) j (rounds u) 0 q.1 <;> cases hf2 : Set.insertAll env d (elems y) <;> rw [hw2, hf2] at h2 <;>
    simp only [Spec.ResRel, Res.bind] at h2 ⊢
  obtain ⟨-, B, q3, -⟩ := h2
  exact ⟨rfl, _, q3, fun k _ => Kept.alloc r⟩

theorem putRo_step (r : HSt s σ A) {j : Nat} {u : HSet} {y : SetObj K} (hu : s.sets j = some u) (hy : σ.objs j = some y) (f : Int) :
    ∃ s', putRo s j f = .ok s' ∧ HSt s' (σ.put j (some { y with tab := { y.tab with readonly := f } })) A ∧
      (∀ k, k ≠ j → s'.sets k = s.sets k) ∧ s'.sets j = some { u with tab := { u.tab with readonly := f } } ∧ s'.heap = s.heap := by
  obtain ⟨y', g1, g2, -⟩ := r.obj hu
  rw [hy] at g1
  cases g1
  refine ⟨s.put j (some { u with tab := { u.tab with readonly := f } }), by simp [putRo, HStore.get, hu, Res.bind],
    r.retag hu hy (g2.withRo f) rfl, fun k hk => by simp [HStore.put, hk], by simp [HStore.put], rfl⟩

theorem select_step (keep : Bool) (r : HSt s σ A) (i j : Nat) :
    Spec.ResRel (Rel σ A fun _ => True) ((setSelect env keep s i j).bind fun q => .ok (q.1, (q.2 : Int)))
      ((σ.get i).bind fun s1 => (σ.get j).bind fun s2 =>
        (Set.setSelect env keep s1 s2).bind fun q => .ok ((σ.put j (some q.2)).alloc q.1, (σ.next : Int))) := by
  simp only [setSelect, bind_assoc']
  refine check2_step r i j _
    (fun s1 s2 => (Set.setSelect env keep s1 s2).bind fun q => .ok ((σ.put j (some q.2)).alloc q.1, (σ.next : Int)))
    (fun x y h => by simp [Set.setSelect, h, Res.bind]) ?_
  intro t u x y t1 u1 x1 y1 tr ur t4 _ hs
  simp only [Set.setSelect, hs, if_true]
  obtain ⟨s', z, c1, c2, -, -, c3, c4, c5⟩ := create_step r t.hashFn t.cmpFn
  rw [← t4.1, ← t4.2, c1, c2]
  simp only [Res.bind]
  have hi : i ≠ s.next := by have := r.lt t1; omega
  have hj : j ≠ s.next := by have := r.lt u1; omega
  have hn := r.next
  rw [hn] at hi hj c4 ⊢
  have y2 : (σ.alloc z).objs j = some y := by simp [Store.alloc, hj, y1]
  obtain ⟨s2, d1, d2, d3, d4, d5⟩ := putRo_step c3 ((c4 j hj).trans u1) y2 1
  rw [put_alloc_comm σ hj] at d2
  rw [d1]
  simp only
  have hw : Spec.ResRel (fun c (d : (SetObj K × SetObj K) × Bool) => c.2 = d.2 ∧
        ∃ B, HSt c.1 ((σ.put j (some d.1.2)).alloc d.1.1) (set1 A σ.next B) ∧ d.1.2.tab.readonly ≠ 0 ∧
        (∃ u', c.1.sets j = some u' ∧ u'.tab.prime = u.tab.prime ∧ u'.tab.buckets = u.tab.buckets) ∧
        ∀ k, k ≠ σ.next → k ≠ j → c.1.sets k = s.sets k)
      (walk (selectBody env keep σ.next j) i (rounds t) 0 s2)
      (foldB (selB env keep) (z, { y with tab := { y.tab with readonly := 1 } }) (elems x)) := by
    refine walk_sim (R := fun c (d : SetObj K × SetObj K) =>
        ∃ B, HSt c ((σ.put j (some d.2)).alloc d.1) (set1 A σ.next B) ∧ d.2.tab.readonly ≠ 0 ∧
        (∃ u', c.sets j = some u' ∧ u'.tab.prime = u.tab.prime ∧ u'.tab.buckets = u.tab.buckets) ∧
        ∀ k, k ≠ σ.next → k ≠ j → c.sets k = s.sets k) (t0 := t) (tt0 := x.tab) (B := A i) ?_
      ⟨_, d2, by simp, ⟨_, d4, rfl, rfl⟩, fun k h1 h2 => (d3 k h2).trans (c4 k h1)⟩ (by rw [d5, c5]; exact tr) ?_
    · rintro s3 p e ⟨B, q1, q2, ⟨u', q3, q4, q5⟩, q6⟩
      have o1 : ((σ.put j (some p.2)).alloc p.1).objs j = some p.2 := by simp [Store.alloc, Store.put, hj]
      have m := member_ro (env := env) q1 o1 q2 e
      simp only [selectBody, selB]
      refine m.bind ?_
      rintro c d ⟨e1, e2, e3, e4, e5⟩
      rw [put_alloc_comm _ (by exact hj), put_put] at e2
      obtain ⟨u'', v1, v2, v3⟩ := e5 u' q3
      rw [e1]
      by_cases hk : (d.2 ≠ 0) = (keep = true)
      · rw [if_pos hk, if_pos hk]
        have o2 : ((σ.put j (some d.1)).alloc p.1).objs σ.next = some p.1 := by simp [Store.alloc, Store.put]
        refine (insert_step (env := env) e2 o2 e).bind ?_
        rintro c' d' ⟨-, B', w1, w2⟩
        have ap : ((σ.put j (some d.1)).alloc p.1).put σ.next (some d'.1) = (σ.put j (some d.1)).alloc d'.1 :=
          alloc_put (σ.put j (some d.1)) p.1 d'.1
        rw [ap, set1_set1] at w1
        exact ⟨rfl, B', w1, e4, ⟨u'', (w2 j hj).trans v1, v2.trans q4, v3.trans q5⟩,
          fun k h1 h2 => (w2 k h1).trans ((e3 k h2).trans (q6 k h1 h2))⟩
      · rw [if_neg hk, if_neg hk]
        exact ⟨rfl, B, e2, e4, ⟨u'', v1, v2.trans q4, v3.trans q5⟩, fun k h1 h2 => (e3 k h2).trans (q6 k h1 h2)⟩
    · rintro s3 p ⟨B, q1, q2, ⟨u', q3, q4, q5⟩, q6⟩
      by_cases hij : i = j
      · subst hij
        rw [t1] at u1
        cases u1
        obtain ⟨y', w1, w2, -⟩ := q1.obj q3
        rw [set1_ne _ _ hi] at w2
        exact ⟨u', y'.tab, q3, q4, q5, w2⟩
      · have h3 := (q6 i hi hij).trans t1
        obtain ⟨y', w1, w2, -⟩ := q1.obj h3
        rw [set1_ne _ _ hi] at w2
        exact ⟨t, y'.tab, h3, rfl, rfl, w2⟩
  rw [foldB_sel] at hw
  simp only at hw
  cases hw1 : walk (selectBody env keep σ.next j) i (rounds t) 0 s2 <;>
    cases hf : Set.selectLoop env keep z { y with tab := { y.tab with readonly := 1 } } (elems x) <;> rw [hw1, hf] at hw <;>
    simp only [Spec.ResRel, Res.bind] at hw ⊢
  rename_i q d
  obtain ⟨-, B, q1, -, ⟨u', q3, q4, -⟩, -⟩ := hw
  have o1 : ((σ.put j (some d.2)).alloc d.1).objs j = some d.2 := by simp [Store.alloc, Store.put, hj]
  obtain ⟨s4, g1, g2, -, -⟩ := putRo_step q1 q3 o1 u.tab.readonly
  rw [put_alloc_comm _ (by exact hj), put_put] at g2
  have hro : u.tab.readonly = y.tab.readonly := by
    obtain ⟨y', w1, w2, -⟩ := r.obj u1
    rw [y1] at w1
    cases w1
    exact w2.ro
  have hpr : d.2.tab.prime = y.tab.prime := by
    obtain ⟨y', w1, w2, -⟩ := q1.obj q3
    rw [o1] at w1
    cases w1
    rw [← w2.prime, q4, ur.prime]
  rw [g1]
  simp only [hro] at g2 ⊢
  exact ⟨rfl, _, g2, fun k _ => Kept.retag_alloc r y1 hpr rfl⟩

theorem equal_step (r : HSt s σ A) (i j : Nat) :
    Spec.ResRel (Rel σ A fun _ => True) (hsetStep env s (.equal i j)) (Set.setStep env σ (.equal i j)) := by
  simp only [hsetStep, Set.setStep, setEqual]
  refine check2_step r i j _ (fun s1 s2 => (Set.setEqual env s1 s2).bind fun q => .ok (σ.put j (some q.1), q.2))
    (fun x y h => by simp [Set.setEqual, h, Res.bind]) ?_
  intro t u x y t1 u1 x1 y1 tr ur t4 _ hs
  simp only [Set.setEqual, hs, if_true, tr.entries, ur.entries]
  by_cases hne : x.tab.entries ≠ y.tab.entries
  · rw [if_pos hne, if_pos hne]
    exact ⟨rfl, A, by rw [put_self y1]; exact r, fun k _ => by rw [put_self y1]; exact Kept.refl⟩
  rw [if_neg hne, if_neg hne]
  obtain ⟨s2, d1, d2, d3, d4, d5⟩ := putRo_step r u1 y1 1
  rw [d1]
  simp only [Res.bind]
  have hw : Spec.ResRel (fun c (d : SetObj K × Bool) => c.2 = d.2 ∧
        HSt c.1 (σ.put j (some d.1)) A ∧ d.1.tab.readonly ≠ 0 ∧
        (∃ u', c.1.sets j = some u' ∧ u'.tab.prime = u.tab.prime ∧ u'.tab.buckets = u.tab.buckets) ∧
        ∀ k, k ≠ j → c.1.sets k = s.sets k)
      (walk (equalBody env j) i (rounds t) 0 s2)
      (foldB (eqB env) { y with tab := { y.tab with readonly := 1 } } (elems x)) := by
    refine walk_sim (R := fun c (d : SetObj K) =>
        HSt c (σ.put j (some d)) A ∧ d.tab.readonly ≠ 0 ∧
        (∃ u', c.sets j = some u' ∧ u'.tab.prime = u.tab.prime ∧ u'.tab.buckets = u.tab.buckets) ∧
        ∀ k, k ≠ j → c.sets k = s.sets k) (t0 := t) (tt0 := x.tab) (B := A i) ?_
      ⟨d2, by simp, ⟨_, d4, rfl, rfl⟩, fun k h2 => d3 k h2⟩ (by rw [d5]; exact tr) ?_
    · rintro s3 p e ⟨q1, q2, ⟨u', q3, q4, q5⟩, q6⟩
      have o1 : (σ.put j (some p)).objs j = some p := by simp [Store.put]
      simp only [equalBody, eqB]
      refine (member_ro (env := env) q1 o1 q2 e).bind ?_
      rintro c d ⟨e1, e2, e3, e4, e5⟩
      rw [put_put] at e2
      obtain ⟨u'', v1, v2, v3⟩ := e5 u' q3
      exact ⟨by rw [e1], e2, e4, ⟨u'', v1, v2.trans q4, v3.trans q5⟩, fun k h2 => (e3 k h2).trans (q6 k h2)⟩
    · rintro s3 p ⟨q1, q2, ⟨u', q3, q4, q5⟩, q6⟩
      by_cases hij : i = j
      · subst hij
        rw [t1] at u1
        cases u1
        obtain ⟨y', w1, w2, -⟩ := q1.obj q3
        exact ⟨u', y'.tab, q3, q4, q5, w2⟩
      · have h3 := (q6 i hij).trans t1
        obtain ⟨y', w1, w2, -⟩ := q1.obj h3
        exact ⟨t, y'.tab, h3, rfl, rfl, w2⟩
  rw [foldB_eq]
  cases hw1 : walk (equalBody env j) i (rounds t) 0 s2 <;>
    cases hf : foldB (eqB env) { y with tab := { y.tab with readonly := 1 } } (elems x) <;> rw [hw1, hf] at hw <;>
    simp only [Spec.ResRel, Res.bind] at hw ⊢
  rename_i q d
  obtain ⟨q0, q1, -, ⟨u', q3, q4, -⟩, -⟩ := hw
  have o1 : (σ.put j (some d.1)).objs j = some d.1 := by simp [Store.put]
  obtain ⟨s4, g1, g2, -, -⟩ := putRo_step q1 q3 o1 u.tab.readonly
  rw [put_put] at g2
  have hpr : d.1.tab.prime = y.tab.prime := by
    obtain ⟨y', w1, w2, -⟩ := q1.obj q3
    rw [o1] at w1
    cases w1
    rw [← w2.prime, q4, ur.prime]
  rw [g1]
  simp only [ur.ro] at g2 ⊢
  exact ⟨by rw [q0], _, g2, fun k _ => Kept.retag y1 hpr rfl⟩

theorem _root_.Maa.Spec.ResRel.weaken {x : Res (HStore K × Int)} {y : Res (Store K × Int)}
    (h : Spec.ResRel (Rel σ A fun _ => True) x y) (P : Nat → Prop) : Spec.ResRel (Rel σ A P) x y := by
  cases x <;> cases y <;> simp only [Spec.ResRel] at h ⊢
  obtain ⟨h1, A', h2, h3⟩ := h
  exact ⟨h1, A', h2, fun i _ => h3 i trivial⟩

theorem member_prime {x : SetObj K} {e : K} {q} (h : Set.setMember env x e = .ok q) (hro : x.tab.readonly ≠ 0) :
    q.1.tab.prime = x.tab.prime ∧ q.1.tab.readonly = x.tab.readonly := by
  cases hd : Tab.retrieve (x.ops env) x.tab e with
  | ok w =>
    simp only [Set.setMember, hd, Res.bind, Res.ok.injEq] at h
    obtain ⟨-, h2, h3⟩ := tretrieve_ro hro (t' := w.1) (d := w.2) hd
    rw [← h]
    exact ⟨h2, h3⟩
  | _ => simp [Set.setMember, hd, Res.bind] at h

/-- one call, pointer level against chain level -/
theorem step_ref (r : HSt s σ A) (o : Spec.SetOp K) (ho : o.NoAlias) :
    Spec.ResRel (Rel σ A fun i => ∀ f, o ≠ .readonly i f) (hsetStep env s o) (Set.setStep env σ o) := by
  cases o with
  | create h c =>
    obtain ⟨s', x, c1, c2, -, -, c3, -⟩ := create_step r h c
    simp only [hsetStep, Set.setStep, c1, c2, Res.bind]
    exact ⟨by rw [r.next], _, c3, fun k _ => Kept.alloc r⟩
  | insert i e =>
    simp only [hsetStep, Set.setStep]
    cases ho : σ.objs i with
    | none =>
      have : s.sets i = none := by
        have := (r.m.none_iff i).2 (by simp [ho]); simpa using this
      simp [setInsert, HStore.get, Store.get, this, ho, Res.bind, Spec.ResRel]
    | some x =>
      simp only [Store.get, ho]
      have := insert_step (env := env) r ho e
      cases hc : setInsert env s i e <;> cases hb : Set.setInsert env x e <;> rw [hc, hb] at this <;>
        simp only [Spec.ResRel, Res.bind, hb] at this ⊢
      refine ⟨this.1, _, this.2.choose_spec.1, fun k _ => ?_⟩
      by_cases hk : k = i
      · subst hk
        intro z hz hzr
        rw [ho] at hz
        cases hz
        exact absurd (insert_ok_ro hb) hzr
      · exact Kept.other hk
  | delete i e =>
    simp only [hsetStep, Set.setStep]
    cases ho : σ.objs i with
    | none =>
      have : s.sets i = none := by
        have := (r.m.none_iff i).2 (by simp [ho]); simpa using this
      simp [setDelete, HStore.get, Store.get, this, ho, Res.bind, Spec.ResRel]
    | some x =>
      simp only [Store.get, ho]
      have := delete_step (env := env) r ho e
      cases hc : setDelete env s i e <;> cases hb : Set.setDelete env x e <;> rw [hc, hb] at this <;>
        simp only [Spec.ResRel, Res.bind, hb] at this ⊢
      refine ⟨this.1, _, this.2.choose_spec.1, fun k _ => ?_⟩
      by_cases hk : k = i
      · subst hk
        intro z hz hzr
        rw [ho] at hz
        cases hz
        exact absurd (delete_ok_ro hb) hzr
      · exact Kept.other hk
  | member i e =>
    simp only [hsetStep, Set.setStep]
    cases ho : σ.objs i with
    | none =>
      have : s.sets i = none := by
        have := (r.m.none_iff i).2 (by simp [ho]); simpa using this
      simp [setMember, HStore.get, Store.get, this, ho, Res.bind, Spec.ResRel]
    | some x =>
      simp only [Store.get, ho]
      by_cases hro : x.tab.readonly ≠ 0
      · have := member_ro (env := env) r ho hro e
        cases hc : setMember env s i e <;> cases hb : Set.setMember env x e <;> rw [hc, hb] at this <;>
          simp only [Spec.ResRel, Res.bind, hb] at this ⊢
        obtain ⟨q1, q2, q3, q4, q5⟩ := this
        have hpr := member_prime hb hro
        exact ⟨q1, A, q2, fun k _ => Kept.retag ho hpr.1 hpr.2⟩
      have := member_step (env := env) r ho e
      cases hc : setMember env s i e <;> cases hb : Set.setMember env x e <;> rw [hc, hb] at this <;>
        simp only [Spec.ResRel, Res.bind, hb] at this ⊢
      refine ⟨this.1, _, this.2.choose_spec.1, fun k _ => ?_⟩
      by_cases hk : k = i
      · subst hk
        intro z hz hzr
        rw [ho] at hz
        cases hz
        exact absurd hzr hro
      · exact Kept.other hk
  | readonly i f =>
    simp only [hsetStep, Set.setStep, setReadonly]
    refine (r.get i).bind fun t x ⟨t1, x1, t3, _⟩ => ?_
    refine ⟨t3.ro, A, r.retag t1 x1 (t3.withRo f) rfl, fun k hk => ?_⟩
    have hne : k ≠ i := by rintro rfl; exact hk f rfl
    intro z hz hzr
    exact ⟨rfl, z, by simp [Store.put, hne, hz], rfl, hzr⟩
  | destroy i =>
    simp only [hsetStep, Set.setStep, setDestroy, bind_assoc']
    refine (r.get i).bind fun t x ⟨t1, x1, t3, _⟩ => ?_
    obtain ⟨e1, e2⟩ := r.m.destroy (i := i) (ht := t.tab) (t := x.tab) (by simp [t1]) (by simp [x1])
    simp only [Set.setDestroy, Tab.destroy]
    by_cases hro : x.tab.readonly ≠ 0
    · rw [e1 hro, if_pos hro]; trivial
    · rw [if_neg hro]
      push Not at hro
      obtain ⟨h', e3, e4⟩ := e2 hro
      rw [e3]
      refine ⟨rfl, A, ⟨?_, r.next, ?_, ?_⟩, ?_⟩
      · simp only [HStore.put, Store.put, map_set1]
        exact e4
      · intro j tj xj h1 h2
        simp only [HStore.put, Store.put] at h1 h2
        by_cases hj : j = i
        · subst hj; simp at h1
        · rw [if_neg hj] at h1 h2
          exact r.fns j tj xj h1 h2
      · intro j hj
        simp only [HStore.put] at hj ⊢
        split
        · rfl
        · exact r.bound j hj
      · intro k _ z hz hzr
        have hne : k ≠ i := by
          rintro rfl
          rw [x1] at hz
          cases hz
          exact hzr hro
        exact ⟨rfl, z, by simp [Store.put, hne, hz], rfl, hzr⟩
  | count i =>
    simp only [hsetStep, Set.setStep]
    refine (r.get i).bind fun t x ⟨t1, x1, t3, _⟩ => ?_
    exact ⟨by simp [Set.setCount, t3.entries], A, r, fun _ _ => Kept.refl⟩
  | stats i =>
    simp only [hsetStep, Set.setStep]
    refine (r.get i).bind fun t x ⟨t1, x1, t3, _⟩ => ?_
    rw [hgetStats_ok t3]
    simp only [Set.setGetStats]
    cases Tab.getStats x.tab with
    | ok q => exact ⟨rfl, A, r, fun _ _ => Kept.refl⟩
    | _ => trivial
  | add i j => exact (add_step r i j ho).weaken _
  | del i j => exact (del_step r i j ho).weaken _
  | union i j => exact (union_step r i j).weaken _
  | inter i j =>
    simp only [hsetStep, Set.setStep, Set.setInter]
    exact (select_step true r i j).weaken _
  | diff i j =>
    simp only [hsetStep, Set.setStep, Set.setDiff]
    exact (select_step false r i j).weaken _
  | equal i j => exact (equal_step r i j).weaken _

end

end Maa.SetHeap
