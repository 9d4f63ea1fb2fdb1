import Verif.Props.Tables
import Verif.Props.SetHeap
import Mathlib.Data.List.Perm.Subperm
import Verif.Lemmas.HashStats
import Verif.Props.Objects
import Verif.Props.StrMem
import Verif.Props.Arg
import Verif.Props.Lists
import Verif.Props.Sl
import Verif.Props.Source

/-! # C75: counters grow by at most one with each call

The library counts in `int`, `unsigned int`, `long` and `unsigned long` (maa/memory.c:40-53, maa/sl.c:65, maa/arg.c:39-40,
maa/source.c:51-52: `int`; maa/list.c:49, 53: `unsigned int`, `long`; maa/hash.c:48-54, maa/set.c:46-52: `unsigned long`).  The model counts without bound.  The theorems
below bound every counter by the number of calls made so far (bytes: by the lengths passed), so for a program that has made fewer
than 2³¹ calls the counters of the model are the counters of the machine. -/

namespace Maa

/-- An invariant indexed by the number of calls. -/
theorem Spec.run_count {S O X : Type} (I : Nat → S → Prop) (step : S → O → Res (S × X))
    (h : ∀ n s o s' x, I n s → step s o = .ok (s', x) → I (n + 1) s') (hist : List O) :
    ∀ n s s' xs, I n s → Spec.run step s hist = .ok (s', xs) → I (n + hist.length) s' := by
  induction hist with
  | nil => intro n s s' xs h0 hr; simp only [Spec.run, Res.ok.injEq, Prod.mk.injEq] at hr; rw [← hr.1]; exact h0
  | cons o os ih =>
    intro n s s' xs h0 hr
    simp only [Spec.run] at hr
    cases hs : step s o with
    | ok r =>
      rw [hs] at hr
      simp only [Res.bind] at hr
      cases hr2 : Spec.run step r.1 os with
      | ok q =>
        rw [hr2] at hr
        simp only [Res.ok.injEq, Prod.mk.injEq] at hr
        have := ih (n + 1) r.1 q.1 q.2 (h n s o r.1 r.2 h0 hs) hr2
        rw [← hr.1, List.length_cons, show n + (os.length + 1) = n + 1 + os.length by omega]; exact this
      | _ => rw [hr2] at hr; simp at hr
    | _ => rw [hs] at hr; simp [Res.bind] at hr

/-- An invariant indexed by the sum of a measure of the calls, which all satisfy `P`. -/
theorem Spec.run_measure_of {S O X : Type} (P : O → Prop) (I : Nat → S → Prop) (μ : O → Nat) (step : S → O → Res (S × X))
    (h : ∀ n s o s' x, P o → I n s → step s o = .ok (s', x) → I (n + μ o) s') (hist : List O) :
    (∀ o ∈ hist, P o) → ∀ n s s' xs, I n s → Spec.run step s hist = .ok (s', xs) → I (n + (hist.map μ).sum) s' := by
  induction hist with
  | nil => intro _ n s s' xs h0 hr; simp only [Spec.run, Res.ok.injEq, Prod.mk.injEq] at hr; rw [← hr.1]; exact h0
  | cons o os ih =>
    intro hP n s s' xs h0 hr
    simp only [Spec.run] at hr
    cases hs : step s o with
    | ok r =>
      rw [hs] at hr
      simp only [Res.bind] at hr
      cases hr2 : Spec.run step r.1 os with
      | ok q =>
        rw [hr2] at hr
        simp only [Res.ok.injEq, Prod.mk.injEq] at hr
        have := ih (fun o ho => hP o (by simp [ho])) (n + μ o) r.1 q.1 q.2 (h n s o r.1 r.2 (hP o (by simp)) h0 hs) hr2
        rw [← hr.1, List.map_cons, List.sum_cons, ← Nat.add_assoc]; exact this
      | _ => rw [hr2] at hr; simp at hr
    | _ => rw [hs] at hr; simp [Res.bind] at hr

/-- An invariant indexed by the sum of a measure of the calls. -/
theorem Spec.run_measure {S O X : Type} (I : Nat → S → Prop) (μ : O → Nat) (step : S → O → Res (S × X))
    (h : ∀ n s o s' x, I n s → step s o = .ok (s', x) → I (n + μ o) s') (hist : List O) (n : Nat) (s s' : S) (xs : List X)
    (h0 : I n s) (hr : Spec.run step s hist = .ok (s', xs)) : I (n + (hist.map μ).sum) s' :=
  Spec.run_measure_of (fun _ => True) I μ step (fun n s o s' x _ => h n s o s' x) hist (fun _ _ => trivial) n s s' xs h0 hr

theorem Res.bind_ok_iff {α β : Type} {x : Res α} {f : α → Res β} {b : β} :
    x.bind f = .ok b ↔ ∃ a, x = .ok a ∧ f a = .ok b := by
  cases x <;> simp [Res.bind]

end Maa

namespace Maa.HashHeap

open Tab (Entry)

variable {K D : Type}

/-- the counters of a table are at most `n` -/
def Counts (n : Nat) (t : HTab) : Prop :=
  t.entries ≤ n ∧ t.resizings ≤ n ∧ t.retrievals ≤ n ∧ t.hits + t.misses ≤ t.retrievals

theorem Counts.mono {n m : Nat} {t : HTab} (h : Counts n t) (hm : n ≤ m) : Counts m t :=
  ⟨by have := h.1; omega, by have := h.2.1; omega, by have := h.2.2.1; omega, h.2.2.2⟩

theorem hcreate_counts {seed : Nat} {t : HTab} (h : hcreate seed = .ok t) (n : Nat) : Counts n t := by
  unfold hcreate at h
  split at h
  · simp at h
  · simp only [Res.ok.injEq] at h; subst h; simp [Counts]

theorem hgrow_counts {h : Heap (Entry K D)} {t : HTab} {r : Heap (Entry K D) × HTab} (hg : hgrow h t = .ok r) {n : Nat} (c : Counts n t) :
    r.2.entries ≤ n ∧ r.2.resizings ≤ n + 1 ∧ r.2.retrievals ≤ n ∧ r.2.hits + r.2.misses ≤ r.2.retrievals := by
  obtain ⟨c1, c2, c3, c4⟩ := c
  unfold hgrow at hg
  split at hg
  · simp only [Res.bind_ok_iff] at hg
    obtain ⟨new, -, q, -, h', -, e⟩ := hg
    simp only [Res.ok.injEq] at e
    subst e
    exact ⟨c1, by simp only; omega, c3, c4⟩
  · simp only [Res.ok.injEq] at hg
    subst hg
    exact ⟨c1, by simp only; omega, c3, c4⟩

theorem hinsert_counts {ops : KeyOps K} {h : Heap (Entry K D)} {t : HTab} {k : K} {d : D} {r : (Heap (Entry K D) × HTab) × Int}
    (hi : hinsert ops h t k d = .ok r) {n : Nat} (c : Counts n t) : Counts (n + 1) r.1.2 := by
  unfold hinsert at hi
  simp only at hi
  split at hi
  · simp at hi
  · rw [Res.bind_ok_iff] at hi
    obtain ⟨g, hg, hi⟩ := hi
    have := hgrow_counts hg c
    split at hi
    · simp at hi
    · rw [Res.bind_ok_iff] at hi
      obtain ⟨f, -, hi⟩ := hi
      split at hi
      · simp only [Res.ok.injEq] at hi; subst hi
        simp only [Counts]; omega
      · simp only [Res.ok.injEq] at hi; subst hi
        simp only [Counts, hpush]; omega

theorem hdelete_counts {ops : KeyOps K} {h : Heap (Entry K D)} {t : HTab} {k : K} {r : (Heap (Entry K D) × HTab) × Int}
    (hi : hdelete ops h t k = .ok r) {n : Nat} (c : Counts n t) : Counts n r.1.2 := by
  unfold Counts at c
  unfold hdelete at hi
  split at hi
  · simp at hi
  simp only at hi
  split at hi
  · simp at hi
  rw [Res.bind_ok_iff] at hi
  obtain ⟨f, -, hi⟩ := hi
  split at hi
  · simp only [Res.ok.injEq] at hi; subst hi; exact c
  · split at hi
    · rw [Res.bind_ok_iff] at hi
      obtain ⟨g, -, hi⟩ := hi
      simp only [Res.ok.injEq] at hi; subst hi; simp only [Counts]; omega
    · simp only [Res.bind_ok_iff] at hi
      obtain ⟨_, -, _, -, _, -, hi⟩ := hi
      simp only [Res.ok.injEq] at hi; subst hi; simp only [Counts]; omega

theorem hretrieve_counts {ops : KeyOps K} {h : Heap (Entry K D)} {t : HTab} {k : K} {r : (Heap (Entry K D) × HTab) × Option D}
    (hi : hretrieve ops h t k = .ok r) {n : Nat} (c : Counts n t) : Counts (n + 1) r.1.2 := by
  unfold Counts at c
  unfold hretrieve at hi
  split at hi
  · simp at hi
  simp only at hi
  rw [Res.bind_ok_iff] at hi
  obtain ⟨f, -, hi⟩ := hi
  split at hi
  · simp only [Res.ok.injEq] at hi; subst hi; simp only [Counts]; omega
  · split at hi
    · simp only [Res.ok.injEq] at hi; subst hi; simp only [Counts]; omega
    · split at hi
      · simp only [Res.bind_ok_iff] at hi
        obtain ⟨_, -, _, -, _, -, hi⟩ := hi
        simp only [Res.ok.injEq] at hi; subst hi; simp only [Counts]; omega
      · simp only [Res.ok.injEq] at hi; subst hi; simp only [Counts]; omega

theorem heapStep_counts {ops : KeyOps K} {s : Heap (Entry K Ptr) × HTab} {o : Spec.HashOp K} {r : (Heap (Entry K Ptr) × HTab) × Spec.Ret}
    (hi : heapStep ops s o = .ok r) {n : Nat} (c : Counts n s.2) : Counts (n + 1) r.1.2 := by
  cases o with
  | insert k d =>
    simp only [heapStep, Res.bind_ok_iff, Res.ok.injEq] at hi
    obtain ⟨q, hq, rfl⟩ := hi
    exact hinsert_counts hq c
  | delete k =>
    simp only [heapStep, Res.bind_ok_iff, Res.ok.injEq] at hi
    obtain ⟨q, hq, rfl⟩ := hi
    exact (hdelete_counts hq c).mono (by omega)
  | retrieve k =>
    simp only [heapStep, Res.bind_ok_iff, Res.ok.injEq] at hi
    obtain ⟨q, hq, rfl⟩ := hi
    exact hretrieve_counts hq c
  | readonly f =>
    simp only [heapStep, Res.ok.injEq] at hi
    subst hi
    exact (show Counts n { s.2 with readonly := f } from c).mono (by omega)

end Maa.HashHeap

namespace Maa.Tables
open HashHeap Set
open Tab (Entry)

variable {K : Type}

/-- C75: after any calls on any number of hash tables, no counter of any of them exceeds the number of calls. -/
theorem C75_hash_tables (env : FnEnv K) (place : Policy) (hist : List (Spec.TabOp K)) (s : HTables K) (xs : List Spec.Ret)
    (h : Spec.run (tablesStep env) (HTables.empty place) hist = .ok (s, xs)) (i : Nat) (t : HTable) (ht : s.tabs i = some t) :
    t.tab.entries ≤ hist.length ∧ t.tab.resizings ≤ hist.length ∧ t.tab.retrievals ≤ hist.length ∧
      t.tab.hits + t.tab.misses ≤ t.tab.retrievals := by
  have := Spec.run_count (fun n (s : HTables K) => ∀ i t, s.tabs i = some t → Counts n t.tab) (tablesStep env) (by
    intro n s o s' x h0 hs i t ht
    cases o with
    | create f c =>
      simp only [tablesStep, tabCreate, Res.bind_ok_iff, Res.ok.injEq, Prod.mk.injEq] at hs
      obtain ⟨u, hu, rfl, -⟩ := hs
      simp only at ht
      split at ht
      · simp only [Option.some.injEq] at ht; subst ht; exact hcreate_counts hu _
      · exact (h0 i t ht).mono (by omega)
    | call j o =>
      simp only [tablesStep, tabCall, Res.bind_ok_iff, Res.ok.injEq, Prod.mk.injEq] at hs
      obtain ⟨u, hu, q, hq, rfl, -⟩ := hs
      have hj : s.tabs j = some u := by
        unfold HTables.get at hu
        split at hu
        · simp only [Res.ok.injEq] at hu; subst hu; assumption
        · simp at hu
      simp only [HTables.put] at ht
      split at ht
      · simp only [Option.some.injEq] at ht; subst ht; exact heapStep_counts hq (h0 j u hj)
      · exact (h0 i t ht).mono (by omega)
    | destroy j =>
      simp only [tablesStep, tabDestroy, Res.bind_ok_iff, Res.ok.injEq, Prod.mk.injEq] at hs
      obtain ⟨u, hu, q, hq, rfl, -⟩ := hs
      simp only [HTables.put] at ht
      split at ht
      · simp at ht
      · exact (h0 i t ht).mono (by omega)) hist 0 _ s xs (by intro i t ht; simp [HTables.empty] at ht) h i t ht
  simpa only [Nat.zero_add, Counts] using this

end Maa.Tables

namespace Maa.SetHeap
open Set (FnEnv eqOf)

variable {K : Type}

/-- Number of insertions a call asks for directly. -/
def inserts : Spec.SetOp K → Nat
  | .insert _ _ => 1
  | _ => 0

/-- every set consists of different elements among those of `L` -/
structure From (env : FnEnv K) (L : List K) (s : Spec.ASet K) : Prop where
  refl : ∀ a, eqOf env s.cmpFn a a = true
  symm : ∀ a b, eqOf env s.cmpFn a b = true → eqOf env s.cmpFn b a = true
  sub : s.elems ⊆ L
  ne : s.elems.Pairwise fun a b => eqOf env s.cmpFn a b = false

theorem From.mono {env : FnEnv K} {L L' : List K} {s : Spec.ASet K} (h : From env L s) (hL : L ⊆ L') : From env L' s :=
  { h with sub := fun _ ha => hL (h.sub ha) }

theorem From.length {env : FnEnv K} {L : List K} {s : Spec.ASet K} (h : From env L s) : s.elems.length ≤ L.length := by
  have : s.elems.Nodup := h.ne.imp fun {a b} hab e => by rw [e, h.refl b] at hab; simp at hab
  exact (List.subperm_of_subset this h.sub).length_le

theorem From.filter {env : FnEnv K} {L : List K} {s : Spec.ASet K} (h : From env L s) (p : K → Bool) (ro : Int) :
    From env L { s with elems := s.elems.filter p, readonly := ro } :=
  { h with sub := fun _ ha => h.sub (List.mem_of_mem_filter ha), ne := h.ne.filter p }

theorem From.union {env : FnEnv K} {L : List K} {s t : Spec.ASet K} (h : From env L s) (h' : From env L t) (e : s.cmpFn = t.cmpFn) (ro : Int) :
    From env L { s with elems := Spec.union (eqOf env s.cmpFn) s.elems t.elems, readonly := ro } :=
  { h with
    sub := fun a ha => by
      simp only [Spec.union, List.mem_append] at ha
      rcases ha with ha | ha
      · exact h.sub ha
      · exact h'.sub (List.mem_of_mem_filter ha)
    ne := by
      simp only [Spec.union]
      rw [List.pairwise_append]
      refine ⟨h.ne, by rw [e]; exact h'.ne.filter _, fun a ha b hb => ?_⟩
      simp only [List.mem_filter, Bool.not_eq_true', Spec.mem, List.any_eq_false] at hb
      have := hb.2 a ha
      simpa using this }

theorem get_objs {σ : Spec.AStore K} {i : Nat} {s : Spec.ASet K} (h : σ.get i = .ok s) : σ.objs i = some s := by
  unfold Spec.AStore.get at h
  split at h
  · simp only [Res.ok.injEq] at h; subst h; assumption
  · simp at h

theorem get2_objs {σ : Spec.AStore K} {i j : Nat} {p : Spec.ASet K × Spec.ASet K} (h : σ.get2 i j = .ok p) :
    σ.objs i = some p.1 ∧ σ.objs j = some p.2 ∧ p.1.cmpFn = p.2.cmpFn := by
  simp only [Spec.AStore.get2, Res.bind_ok_iff] at h
  obtain ⟨a, ha, b, hb, h⟩ := h
  split at h
  · rename_i hc
    simp only [Res.ok.injEq] at h; subst h
    exact ⟨get_objs ha, get_objs hb, hc.2⟩
  · simp at h

theorem spec_from (env : FnEnv K) (hist : List (Spec.SetOp K)) (ok : ∀ o ∈ hist, LawfulOp env o) (σ : Spec.AStore K) (xs : List Int)
    (hr : Spec.run (Spec.setStep (eqOf env)) Spec.AStore.empty hist = .ok (σ, xs)) :
    ∃ L : List K, L.length ≤ (hist.map inserts).sum ∧ ∀ i s, σ.objs i = some s → From env L s := by
  have := Spec.run_measure_of (LawfulOp env) (fun n (σ : Spec.AStore K) => ∃ L : List K, L.length ≤ n ∧ ∀ i s, σ.objs i = some s → From env L s)
    inserts (Spec.setStep (eqOf env)) (by
      rintro n σ o σ' x ho ⟨L, hL, hσ⟩ h
      have put : ∀ (τ : Spec.AStore K) i (t : Option (Spec.ASet K)), τ.objs = σ.objs → (∀ s, t = some s → From env L s) →
          ∀ j s, (τ.put i t).objs j = some s → From env L s := by
        intro τ i t hτ ht j s hs
        simp only [Spec.AStore.put] at hs
        split at hs
        · exact ht s hs
        · rw [hτ] at hs; exact hσ j s hs
      have alloc : ∀ (t : Spec.ASet K), From env L t → ∀ j s, (σ.alloc t).objs j = some s → From env L s := by
        intro t ht j s hs
        simp only [Spec.AStore.alloc] at hs
        split at hs
        · simp only [Option.some.injEq] at hs; subst hs; exact ht
        · exact hσ j s hs
      cases o <;> simp only [Spec.setStep, Res.bind_ok_iff, Res.ok.injEq, Prod.mk.injEq] at h
      case create f c =>
        obtain ⟨rfl, -⟩ := h
        have law := ho f c rfl
        refine ⟨L, by omega, alloc _ ⟨fun a => ?_, fun a b hab => ?_, by simp, by simp⟩⟩
        · simp only [eqOf, beq_iff_eq]; exact law.refl a
        · simp only [eqOf, beq_iff_eq] at hab ⊢; exact law.symm a b hab
      case insert i e =>
        obtain ⟨s, hs, h⟩ := h
        have hs := hσ i s (get_objs hs)
        split at h
        · simp at h
        · simp only [Res.ok.injEq, Prod.mk.injEq] at h
          obtain ⟨rfl, -⟩ := h
          refine ⟨e :: L, by simp only [List.length_cons, inserts]; omega, fun j t ht => ?_⟩
          simp only [Spec.AStore.put] at ht
          split at ht
          · simp only [Option.some.injEq] at ht; subst ht
            have hs' := hs.mono (L' := e :: L) (List.subset_cons_self e L)
            simp only [Spec.sinsert]
            split
            · exact hs'
            · rename_i hm
              refine { hs' with sub := List.cons_subset.2 ⟨by simp, hs'.sub⟩, ne := List.pairwise_cons.2 ⟨fun a ha => ?_, hs'.ne⟩ }
              simp only [Spec.mem, List.any_eq_true, not_exists, not_and] at hm
              have := hm a ha
              simp only
              cases hc : eqOf env s.cmpFn e a
              · rfl
              · exact absurd (hs.symm _ _ hc) this
          · exact (hσ j t ht).mono (List.subset_cons_self e L)
      case delete i e =>
        obtain ⟨s, hs, h⟩ := h
        have hs := hσ i s (get_objs hs)
        split at h
        · simp at h
        · simp only [Res.ok.injEq, Prod.mk.injEq] at h
          obtain ⟨rfl, -⟩ := h
          refine ⟨L, by omega, put σ i _ rfl ?_⟩
          intro t ht; simp only [Option.some.injEq] at ht; subst ht
          exact hs.filter _ s.readonly
      case readonly i f =>
        obtain ⟨s, hs, rfl, -⟩ := h
        have hs := hσ i s (get_objs hs)
        refine ⟨L, by omega, put σ i _ rfl ?_⟩
        intro t ht; simp only [Option.some.injEq] at ht; subst ht
        exact { hs with }
      case destroy i =>
        obtain ⟨s, hs, h⟩ := h
        split at h
        · simp at h
        · simp only [Res.ok.injEq, Prod.mk.injEq] at h
          obtain ⟨rfl, -⟩ := h
          exact ⟨L, by omega, put σ i _ rfl (by simp)⟩
      case add i j =>
        obtain ⟨p, hp, h⟩ := h
        obtain ⟨h1, h2, h3⟩ := get2_objs hp
        split at h
        · simp at h
        · simp only [Res.ok.injEq, Prod.mk.injEq] at h
          obtain ⟨rfl, -⟩ := h
          refine ⟨L, by omega, put σ i _ rfl ?_⟩
          intro t ht; simp only [Option.some.injEq] at ht; subst ht
          exact (hσ i _ h1).union (hσ j _ h2) h3 p.1.readonly
      case del i j =>
        obtain ⟨p, hp, h⟩ := h
        obtain ⟨h1, h2, h3⟩ := get2_objs hp
        split at h
        · simp at h
        · simp only [Res.ok.injEq, Prod.mk.injEq] at h
          obtain ⟨rfl, -⟩ := h
          refine ⟨L, by omega, put σ i _ rfl ?_⟩
          intro t ht; simp only [Option.some.injEq] at ht; subst ht
          exact (hσ i _ h1).filter _ p.1.readonly
      case union i j =>
        obtain ⟨p, hp, rfl, -⟩ := h
        obtain ⟨h1, h2, h3⟩ := get2_objs hp
        exact ⟨L, by omega, alloc _ ((hσ i _ h1).union (hσ j _ h2) h3 0)⟩
      case inter i j =>
        obtain ⟨p, hp, rfl, -⟩ := h
        obtain ⟨h1, h2, h3⟩ := get2_objs hp
        exact ⟨L, by omega, alloc _ ((hσ i _ h1).filter _ 0)⟩
      case diff i j =>
        obtain ⟨p, hp, rfl, -⟩ := h
        obtain ⟨h1, h2, h3⟩ := get2_objs hp
        exact ⟨L, by omega, alloc _ ((hσ i _ h1).filter _ 0)⟩
      all_goals
        obtain ⟨_, -, rfl, -⟩ := h
        exact ⟨L, by omega, hσ⟩) hist ok 0 Spec.AStore.empty σ xs ⟨[], by simp, by simp [Spec.AStore.empty]⟩ hr
  simpa only [Nat.zero_add] using this

/-- C75: after any calls on any number of sets (unions included), `set_count` of any of them is at most the number of calls of `set_insert`. -/
theorem C75_sets (place : Policy) (hp : Heap.Allocator place) (env : FnEnv K) (hist : List (Spec.SetOp K)) (ok : ∀ o ∈ hist, LawfulOp env o)
    (s : HStore K) (outs : List Int) (hr : Spec.run (hsetStep env) (HStore.empty place) hist = .ok (s, outs)) (i : Nat) (t : HSet)
    (ht : s.sets i = some t) : t.tab.entries ≤ (hist.map inserts).sum := by
  have hc : Spec.run (hsetStep env) (HStore.empty place) (hist ++ [.count i]) = .ok (s, outs ++ [(t.tab.entries : Int)]) := by
    rw [Spec.run_append, hr]
    simp only [Res.bind, Spec.run, hsetStep, HStore.get, ht]
  have ok' : ∀ o ∈ hist ++ [.count i], LawfulOp env o := by
    intro o ho
    simp only [List.mem_append, List.mem_singleton] at ho
    rcases ho with ho | rfl
    · exact ok o ho
    · intro h c e; simp at e
  rcases C13_any_arguments_partial place hp env _ ok' with h | ⟨h, -⟩
  · rw [hc] at h
    simp only [Spec.observe, Res.bind] at h
    cases hs : Spec.run (Spec.setStep (eqOf env)) Spec.AStore.empty (hist ++ [.count i]) with
    | ok q =>
      rw [hs] at h
      simp only [Res.ok.injEq] at h
      rw [Spec.run_append, Res.bind_ok_iff] at hs
      obtain ⟨p, hp1, hs⟩ := hs
      obtain ⟨L, hL, hall⟩ := spec_from env hist ok p.1 p.2 hp1
      simp only [Spec.run, Spec.setStep, Res.bind_ok_iff, Res.ok.injEq] at hs
      obtain ⟨u, ⟨_, ⟨a, ha, rfl⟩, _, rfl, rfl⟩, rfl⟩ := hs
      have hl := (hall i a (get_objs ha)).length
      have := (List.append_inj' h rfl).2
      simp only [List.cons.injEq, and_true] at this
      omega
    | _ => rw [hs] at h; simp at h
  · rw [hc] at h
    simp [Spec.observe, Res.bind] at h

-- two insertions, a union: three sets, the largest with two elements
example : (match Spec.run (hsetStep Set.exEnv) HStore.empty [.create 0 0, .create 0 0, .insert 0 5, .insert 1 6, .union 0 1, .count 2] with
    | .ok (_, xs) => some xs
    | _ => none) = some [0, 1, 0, 0, 2, 2] := by decide +kernel

end Maa.SetHeap

namespace Maa.Objects

variable {α : Type}

/-- C75: after any calls on a memory of objects, none of its counters (`int`) has left the range from minus to plus the number of calls. -/
theorem C75_objects (zero junk : α × Nat) (h0 : Heap α) (size : Int) (hist : List Spec.ObjOp) (h : Heap α) (p : Pool) (xs : List Nat)
    (hr : Spec.run (step zero junk) (h0, create size) hist = .ok ((h, p), xs)) :
    0 ≤ p.total ∧ p.total ≤ hist.length ∧ 0 ≤ p.reused ∧ p.reused ≤ hist.length ∧ -(hist.length : Int) ≤ p.used ∧ p.used ≤ hist.length ∧
      p.size = size := by
  have hget : ∀ (h : Heap α) (p : Pool) (n : Nat),
      (0 ≤ p.total ∧ p.total ≤ n ∧ 0 ≤ p.reused ∧ p.reused ≤ n ∧ -(n : Int) ≤ p.used ∧ p.used ≤ n ∧ p.size = size) →
      let q := (getObject junk h p).2.1
      0 ≤ q.total ∧ q.total ≤ (n + 1 : Nat) ∧ 0 ≤ q.reused ∧ q.reused ≤ (n + 1 : Nat) ∧ -((n + 1 : Nat) : Int) ≤ q.used ∧ q.used ≤ (n + 1 : Nat) ∧ q.size = size := by
    intro h p n hp
    unfold getObject
    simp only
    split <;> simp only <;> omega
  have := Spec.run_count (fun n (s : Heap α × Pool) => 0 ≤ s.2.total ∧ s.2.total ≤ n ∧ 0 ≤ s.2.reused ∧ s.2.reused ≤ n ∧
      -(n : Int) ≤ s.2.used ∧ s.2.used ≤ n ∧ s.2.size = size) (step zero junk) (by
    intro n s o s' x hs hst
    cases o with
    | get =>
      simp only [step, Res.ok.injEq, Prod.mk.injEq] at hst
      obtain ⟨rfl, -⟩ := hst
      exact hget s.1 s.2 n hs
    | getEmpty =>
      simp only [step, getEmptyObject, Res.bind_ok_iff, Res.ok.injEq, Prod.mk.injEq] at hst
      obtain ⟨q, ⟨h', -, rfl⟩, rfl, -⟩ := hst
      exact hget s.1 s.2 n hs
    | free q =>
      simp only [step, Res.ok.injEq, Prod.mk.injEq] at hst
      obtain ⟨rfl, -⟩ := hst
      simp only [freeObject]
      omega) hist 0 (h0, create size) (h, p) xs (by simp [create]) hr
  simpa only [Nat.zero_add] using this

-- a foreign object given back: `used` is negative
example : (match Spec.run (step ((0 : Nat), 0) (0, 0)) (Heap.init Heap.neverAgain, create 8) [.get, .free 1, .free 5] with
    | .ok ((_, p), _) => some (stats p)
    | _ => none) = some (1, -1, 0, 8) := by decide +kernel

end Maa.Objects

namespace Maa.StrMem

/-- The bytes a call asks a string memory to store. -/
def asked : Spec.StrOp → Nat
  | .strcpy s => s.length
  | .strncpy _ n => n + 1
  | .grow _ n => n
  | .finish => 1

theorem grow_counts {h : Mem} {i : SInfo} {s : List Byte} {n : Nat} {r : Mem × SInfo} (hg : grow h i s n = .ok r) :
    r.2.count = i.count ∧ r.2.bytes = i.bytes + n ∧ r.2.growing = i.growing + n := by
  unfold grow at hg
  split at hg
  · simp at hg
  simp only at hg
  split at hg
  · split at hg
    · simp only [Res.bind_ok_iff, Res.ok.injEq] at hg
      obtain ⟨_, -, rfl⟩ := hg; exact ⟨rfl, rfl, rfl⟩
    · simp only [Res.bind_ok_iff, Res.ok.injEq] at hg
      obtain ⟨_, -, _, -, _, -, rfl⟩ := hg; exact ⟨rfl, rfl, rfl⟩
  · simp only [Res.bind_ok_iff, Res.ok.injEq] at hg
    obtain ⟨_, -, rfl⟩ := hg; exact ⟨rfl, rfl, rfl⟩

theorem cstr_length {b s : List Byte} (h : CStr.cstr b = .ok s) : s.length + 1 ≤ b.length := by
  obtain ⟨-, rest, e⟩ := CStr.cstr_ok h
  rw [e]; simp

/-- one call -/
theorem step_counts {s s' : Mem × SInfo} {o : Spec.StrOp} {x : Nat} (h : step s o = .ok (s', x)) :
    s'.2.count ≤ s.2.count + 1 ∧ s'.2.bytes ≤ s.2.bytes + asked o ∧ s'.2.growing ≤ s.2.growing + asked o := by
  cases o with
  | strcpy b =>
    simp only [step, strcpy, Res.bind_ok_iff, Res.ok.injEq, Prod.mk.injEq] at h
    obtain ⟨t, ht, rfl, -⟩ := h
    have := cstr_length ht
    simp only [asked]; omega
  | strncpy b n =>
    simp only [step, strncpy] at h
    split at h
    · simp at h
    · simp only [Res.ok.injEq, Prod.mk.injEq] at h
      obtain ⟨rfl, -⟩ := h
      simp only [asked]; omega
  | grow b n =>
    simp only [step, Res.bind_ok_iff, Res.ok.injEq, Prod.mk.injEq] at h
    obtain ⟨r, hr, rfl, -⟩ := h
    have := grow_counts hr
    simp only [asked]; omega
  | finish =>
    simp only [step, finish, Res.bind_ok_iff, Res.ok.injEq, Prod.mk.injEq] at h
    obtain ⟨r, hr, rfl, -⟩ := h
    have := grow_counts hr
    simp only [asked]; omega

/-- C75: after any calls on a string memory, its number of strings (`int`) is at most the number of calls and its number of
bytes (`int`) at most the number of bytes passed. -/
theorem C75_strings (h0 : Mem) (hist : List Spec.StrOp) (h : Mem) (i : SInfo) (xs : List Nat)
    (hr : Spec.run step (h0, create) hist = .ok ((h, i), xs)) :
    i.count ≤ hist.length ∧ i.bytes ≤ (hist.map asked).sum ∧ i.growing ≤ (hist.map asked).sum := by
  have h1 := Spec.run_count (fun n (s : Mem × SInfo) => s.2.count ≤ n) step (by
    intro n s o s' x hs hst
    have := step_counts hst
    omega) hist 0 (h0, create) (h, i) xs (by simp [create]) hr
  have h2 := Spec.run_measure (fun n (s : Mem × SInfo) => s.2.bytes ≤ n ∧ s.2.growing ≤ n) asked step (by
    intro n s o s' x hs hst
    have := step_counts hst
    omega) hist 0 (h0, create) (h, i) xs (by simp [create]) hr
  simp only [Nat.zero_add] at h1 h2
  exact ⟨h1, h2⟩

/-- C75, the limit is real for bytes: two strings of `n` bytes make the counter (`int`) `2 n`, which for `n` = 2³⁰ is more than an
`int` can hold. -/
theorem C75_bytes_reach (h0 : Mem) (n : Nat) (s : List Byte) (hs : s.length = n + 1) :
    ∃ h i xs, Spec.run step (h0, create) [.strncpy s n, .strncpy s n] = .ok ((h, i), xs) ∧ (stats i).2 = 2 * (n + 1) := by
  have e : ¬ s.length < n + 1 := by omega
  simp only [Spec.run, step, strncpy, if_neg e, Res.bind, create, stats]
  exact ⟨_, _, _, rfl, by simp only; omega⟩

end Maa.StrMem

namespace Maa.Arg
open StrMem (Mem)

theorem append_counts {a b : ArgList} {p : Nat} (h : append a p = .ok b) :
    b.argc = a.argc + 1 ∧ (b.argm = a.argm ∨ a.argm ≤ a.argc + 2 ∧ b.argm = a.argm * 2) ∧ b.str = a.str := by
  unfold append at h
  simp only [Res.bind_ok_iff, Res.ok.injEq] at h
  obtain ⟨v, -, w, -, rfl⟩ := h
  split
  · rename_i hc; exact ⟨rfl, Or.inr ⟨hc, rfl⟩, rfl⟩
  · exact ⟨rfl, Or.inl rfl, rfl⟩

/-- C75: after any calls on an argument list, its length (`int`) is at most the number of calls, and the room it has (`int`) at
most four more than twice that. -/
theorem C75_arguments (h0 : Mem) (hist : List Spec.StrOp) (h : Mem) (a : ArgList) (xs : List Unit)
    (hr : Spec.run step (h0, create) hist = .ok ((h, a), xs)) :
    a.argc ≤ hist.length ∧ a.argm ≤ 2 * hist.length + 4 ∧ a.str.count ≤ hist.length ∧ a.str.bytes ≤ (hist.map StrMem.asked).sum := by
  have key : ∀ (s : Mem × ArgList) o s' x, step s o = .ok (s', x) →
      (s'.2.argc = s.2.argc ∧ s'.2.argm = s.2.argm ∨ s'.2.argc = s.2.argc + 1 ∧ (s'.2.argm = s.2.argm ∨ s.2.argm ≤ s.2.argc + 2 ∧ s'.2.argm = s.2.argm * 2)) ∧
      s'.2.str.count ≤ s.2.str.count + 1 ∧ s'.2.str.bytes ≤ s.2.str.bytes + StrMem.asked o := by
    intro s o s' x hs
    cases o with
    | strcpy b =>
      simp only [step, add, Res.bind_ok_iff, Res.ok.injEq, Prod.mk.injEq] at hs
      obtain ⟨_, ⟨r, hr, b', hb, rfl⟩, rfl, -⟩ := hs
      have h1 := StrMem.step_counts (s := (s.1, s.2.str)) (o := .strcpy b) (s' := r.1) (x := r.2) hr
      have h2 := append_counts hb
      simp only at h1 h2 ⊢
      rw [h2.2.2]; exact ⟨Or.inr ⟨h2.1, h2.2.1⟩, h1.1, h1.2.1⟩
    | strncpy b n =>
      simp only [step, addn, Res.bind_ok_iff, Res.ok.injEq, Prod.mk.injEq] at hs
      obtain ⟨_, ⟨r, hr, b', hb, rfl⟩, rfl, -⟩ := hs
      have h1 := StrMem.step_counts (s := (s.1, s.2.str)) (o := .strncpy b n) (s' := r.1) (x := r.2) hr
      have h2 := append_counts hb
      simp only at h1 h2 ⊢
      rw [h2.2.2]; exact ⟨Or.inr ⟨h2.1, h2.2.1⟩, h1.1, h1.2.1⟩
    | grow b n =>
      simp only [step, grow, Res.bind_ok_iff, Res.ok.injEq, Prod.mk.injEq] at hs
      obtain ⟨_, ⟨r, hr, rfl⟩, rfl, -⟩ := hs
      have := StrMem.grow_counts hr
      simp only [StrMem.asked, true_and, true_or]; omega
    | finish =>
      simp only [step, finish, Res.bind_ok_iff, Res.ok.injEq, Prod.mk.injEq] at hs
      obtain ⟨_, ⟨r, hr, b', hb, rfl⟩, rfl, -⟩ := hs
      have h1 := StrMem.step_counts (s := (s.1, s.2.str)) (o := .finish) (s' := r.1) (x := r.2) hr
      have h2 := append_counts hb
      simp only at h1 h2 ⊢
      rw [h2.2.2]; exact ⟨Or.inr ⟨h2.1, h2.2.1⟩, h1.1, h1.2.1⟩
  have h1 := Spec.run_count (fun n (s : Mem × ArgList) => s.2.argc ≤ n ∧ s.2.argm ≤ 2 * s.2.argc + 4 ∧ s.2.str.count ≤ n) step (by
    intro n s o s' x hs hst
    have := key _ _ _ _ hst
    omega) hist 0 (h0, create) (h, a) xs (by simp [create, StrMem.create]) hr
  have h2 := Spec.run_measure (fun n (s : Mem × ArgList) => s.2.str.bytes ≤ n) StrMem.asked step (by
    intro n s o s' x hs hst
    have := key _ _ _ _ hst
    omega) hist 0 (h0, create) (h, a) xs (by simp [create, StrMem.create]) hr
  simp only [Nat.zero_add] at h1 h2
  exact ⟨h1.1, by omega, h1.2.2, h2⟩

example : (match Spec.run step (Heap.init Heap.neverAgain, create) [.strcpy [97, 0], .grow [98] 1, .finish] with
    | .ok ((_, a), _) => some (a.argc, a.argm, a.str.count, a.str.bytes)
    | _ => none) = some (2, 4, 2, 4) := by decide +kernel

end Maa.Arg

namespace Maa.Lst
open Spec (LstOp)

theorem memGet_frame {σ : State} {r : State × Nat} (h : memGet σ = .ok r) : r.1.lists = σ.lists ∧ r.1.allocated = σ.allocated := by
  unfold memGet at h
  split at h
  · simp at h
  · simp only [Res.ok.injEq] at h; subst h; exact ⟨rfl, rfl⟩

theorem memFree_frame {σ σ' : State} {d : Nat} (h : memFree σ d = .ok σ') : σ'.lists = σ.lists ∧ σ'.allocated = σ.allocated := by
  unfold memFree at h
  split at h
  · simp at h
  · simp only [Res.ok.injEq] at h; subst h; exact ⟨rfl, rfl⟩

theorem freeRest_frame : ∀ {n : Nat} {σ : State} {d : Nat} {r : State × Nat}, freeRest n σ d = .ok r →
    r.1.lists = σ.lists ∧ r.1.allocated = σ.allocated := by
  intro n
  induction n with
  | zero => intro σ d r h; simp [freeRest] at h
  | succ n ih =>
    intro σ d r h
    unfold freeRest at h
    split at h
    · simp only [Res.ok.injEq] at h; subst h; exact ⟨rfl, rfl⟩
    · simp only [Res.bind_ok_iff, Res.ok.injEq] at h
      obtain ⟨c, -, σ1, h1, q, h2, rfl⟩ := h
      have a := memFree_frame h1
      have b := ih h2
      exact ⟨b.1.trans a.1, b.2.trans a.2⟩

theorem check_lists {σ : State} {i : Nat} {l : LObj} (h : σ.check i = .ok l) : σ.lists i = some l := by
  unfold State.check at h
  split at h
  · simp at h
  · split at h
    · simp only [Res.ok.injEq] at h; subst h; assumption
    · simp at h

/-- every list has at most `n` elements by its own count, and `lst_total_allocated` is at most `32 n` -/
def Counts (n : Nat) (σ : State) : Prop := σ.allocated ≤ 32 * n ∧ ∀ j l, σ.lists j = some l → l.count ≤ n

theorem Counts.mono {n m : Nat} {σ : State} (h : Counts n σ) (hm : n ≤ m) : Counts m σ :=
  ⟨by have := h.1; omega, fun j l hl => by have := h.2 j l hl; omega⟩

theorem Counts.frame {n : Nat} {σ τ : State} (h : Counts n σ) (h1 : τ.lists = σ.lists) (h2 : τ.allocated = σ.allocated) : Counts n τ :=
  ⟨by rw [h2]; exact h.1, by rw [h1]; exact h.2⟩

theorem Counts.put {n : Nat} {σ τ : State} (h : Counts n σ) (h1 : τ.lists = σ.lists) (h2 : τ.allocated ≤ σ.allocated + 16) (i : Nat) (o : Option LObj)
    (ho : ∀ l, o = some l → l.count ≤ n + 1) : Counts (n + 1) (τ.set i o) := by
  refine ⟨by have := h.1; simp only [State.set]; omega, fun j l hl => ?_⟩
  simp only [State.set] at hl
  split at hl
  · exact ho l hl
  · rw [h1] at hl; have := h.2 j l hl; omega

theorem step_counts {n : Nat} {σ σ' : State} {o : LstOp} {x : Nat} (c : Counts n σ) (h : step σ o = .ok (σ', x)) : Counts (n + 1) σ' := by
  have same : σ' = σ → Counts (n + 1) σ' := fun e => e ▸ c.mono (by omega)
  cases o <;> simp only [step, Res.bind_ok_iff, Res.ok.injEq, Prod.mk.injEq] at h
  case create =>
    simp only [lstCreate, Prod.mk.injEq] at h
    obtain ⟨rfl, -⟩ := h
    refine ⟨by have := c.1; simp only; omega, fun j l hl => ?_⟩
    simp only at hl
    split at hl
    · simp only [Option.some.injEq] at hl; subst hl; simp
    · have := c.2 j l hl; omega
  case destroy i =>
    simp only [lstDestroy, Res.bind_ok_iff, Res.ok.injEq] at h
    obtain ⟨_, ⟨l, hl, r, hr, rfl⟩, rfl, -⟩ := h
    have f := freeRest_frame hr
    exact c.put f.1 (by omega) i none (by simp)
  case append i d =>
    obtain ⟨s, h, rfl, -⟩ := h
    unfold lstAppend at h
    split at h
    · simp only [Res.ok.injEq] at h; subst h; exact same rfl
    · rw [Res.bind_ok_iff] at h
      obtain ⟨g, hg, h⟩ := h
      have f := memGet_frame hg
      simp only [Res.bind_ok_iff] at h
      obtain ⟨l, hl, h', hw, h⟩ := h
      have hc := check_lists hl
      simp only [f.1] at hc
      have hc := c.2 i l hc
      split at h
      · rw [Res.bind_ok_iff] at h
        obtain ⟨t, -, h⟩ := h
        split at h
        · simp at h
        · simp only [Res.bind_ok_iff, Res.ok.injEq] at h
          obtain ⟨h'', -, rfl⟩ := h
          refine c.put (τ := { g.1 with allocated := g.1.allocated + 16, heap := h'' }) f.1 (by simp only; omega) i _ ?_
          intro l' e; simp only [Option.some.injEq] at e; subst e; simp only; omega
      · simp only [Res.ok.injEq] at h
        subst h
        refine c.put (τ := { g.1 with allocated := g.1.allocated + 16, heap := h' }) f.1 (by simp only; omega) i _ ?_
        intro l' e; simp only [Option.some.injEq] at e; subst e; simp only; omega
  case push i d =>
    obtain ⟨s, h, rfl, -⟩ := h
    simp only [lstPush, Res.bind_ok_iff, Res.ok.injEq] at h
    obtain ⟨g, hg, l, hl, h', hw, rfl⟩ := h
    have f := memGet_frame hg
    have hc := check_lists hl
    simp only [f.1] at hc
    have hc := c.2 i l hc
    refine c.put (τ := { g.1 with allocated := g.1.allocated + 16, heap := h' }) f.1 (by simp only; omega) i _ ?_
    intro l' e; simp only [Option.some.injEq] at e; subst e; simp only; omega
  case pop i =>
    simp only [lstPop, Res.bind_ok_iff] at h
    obtain ⟨l, hl, h⟩ := h
    have hc := c.2 i l (check_lists hl)
    split at h
    · simp only [Res.bind_ok_iff, Res.ok.injEq, Prod.mk.injEq] at h
      obtain ⟨e, -, τ, hm, rfl, -⟩ := h
      have f := memFree_frame hm
      refine (c.put (τ := σ) rfl (by omega) i _ ?_).frame f.1 f.2
      intro l' e; simp only [Option.some.injEq] at e; subst e; simp only; omega
    · simp only [Res.ok.injEq, Prod.mk.injEq] at h; exact same h.1.symm
  case nthSet i k d =>
    simp only [lstNthSet, Res.bind_ok_iff] at h
    obtain ⟨s, ⟨l, hl, h⟩, rfl, -⟩ := h
    split at h
    · simp at h
    · rw [Res.bind_ok_iff] at h
      obtain ⟨r, -, h⟩ := h
      split at h
      · simp at h
      · simp only [Res.bind_ok_iff, Res.ok.injEq] at h
        obtain ⟨_, -, h', -, rfl⟩ := h
        exact (c.frame (τ := { σ with heap := h' }) rfl rfl).mono (by omega)
  case truncate i k =>
    simp only [lstTruncate, Res.bind_ok_iff] at h
    obtain ⟨s, ⟨l, hl, h⟩, rfl, -⟩ := h
    have hc := c.2 i l (check_lists hl)
    split at h
    · simp only [Res.ok.injEq] at h; subst h; exact same rfl
    · split at h
      · rw [Res.bind_ok_iff] at h
        obtain ⟨r, hr, h⟩ := h
        have f := freeRest_frame hr
        split at h
        · simp at h
        · simp only [Res.ok.injEq] at h; subst h
          refine ⟨by have := c.1; have := f.2; simp only [State.set] at this ⊢; omega, fun j l' hl' => ?_⟩
          simp only [State.set, f.1] at hl'
          split at hl'
          · simp only [Option.some.injEq] at hl'; subst hl'; simp only; omega
          · have := c.2 j l' hl'; omega
      · simp only [Res.bind_ok_iff] at h
        obtain ⟨d, -, e, -, h', -, r, hr, h⟩ := h
        have f := freeRest_frame hr
        split at h
        · simp at h
        · simp only [Res.ok.injEq] at h; subst h
          refine ⟨by have := c.1; have := f.2; simp only [State.set] at this ⊢; omega, fun j l' hl' => ?_⟩
          simp only [State.set, f.1] at hl'
          split at hl'
          · simp only [Option.some.injEq] at hl'; subst hl'; simp only; omega
          · have := c.2 j l' hl'; omega
  case truncatePosition i p =>
    simp only [lstTruncatePosition, Res.bind_ok_iff] at h
    obtain ⟨s, ⟨l, hl, h⟩, rfl, -⟩ := h
    have hc := c.2 i l (check_lists hl)
    split at h
    · simp only [Res.bind_ok_iff, Res.ok.injEq] at h
      obtain ⟨r, hr, rfl⟩ := h
      have f := freeRest_frame hr
      refine ⟨by have := c.1; have := f.2; simp only [State.set] at this ⊢; omega, fun j l' hl' => ?_⟩
      simp only [State.set, f.1] at hl'
      split at hl'
      · simp only [Option.some.injEq] at hl'; subst hl'; simp only; omega
      · have := c.2 j l' hl'; omega
    · simp only [Res.bind_ok_iff, Res.ok.injEq] at h
      obtain ⟨e, -, h', -, r, hr, rfl⟩ := h
      have f := freeRest_frame hr
      refine ⟨by have := c.1; have := f.2; simp only [State.set] at this ⊢; omega, fun j l' hl' => ?_⟩
      simp only [State.set, f.1] at hl'
      split at hl'
      · simp only [Option.some.injEq] at hl'; subst hl'; simp only; omega
      · have := c.2 j l' hl'; omega
  case setPosition p d =>
    obtain ⟨s, h, rfl, -⟩ := h
    unfold lstSetPosition at h
    split at h
    · simp only [Res.ok.injEq] at h; subst h; exact same rfl
    · simp only [Res.bind_ok_iff, Res.ok.injEq] at h
      obtain ⟨_, -, h', -, rfl⟩ := h
      exact (c.frame (τ := { σ with heap := h' }) rfl rfl).mono (by omega)
  case shutdown =>
    obtain ⟨s, h, rfl, -⟩ := h
    unfold lstShutdown at h
    split at h
    · simp only [Res.ok.injEq] at h; subst h; exact same rfl
    · simp only [Res.bind_ok_iff, Res.ok.injEq] at h
      obtain ⟨h', -, rfl⟩ := h
      exact (c.frame (τ := { σ with heap := h', mem := none }) rfl rfl).mono (by omega)
  case totalAllocated => exact same h.1.symm
  all_goals obtain ⟨_, _, e, _⟩ := h; exact same e.symm

/-- C75: after any calls on any number of lists and stacks made of lists, the length of every list (`unsigned int`) is at most the number of calls, and
what `lst_total_allocated` counts (`long`) at most 32 times that. -/
theorem C75_lists (place : Policy) (hist : List LstOp) (σ : State) (xs : List Nat) (h : Spec.run step (State.init place) hist = .ok (σ, xs)) :
    lstTotalAllocated σ ≤ 32 * hist.length ∧ ∀ i k, lstLength σ i = .ok k → k ≤ hist.length := by
  have := Spec.run_count Counts step (fun n s o s' x => step_counts) hist 0 _ σ xs ⟨by simp [State.init], by simp [State.init]⟩ h
  rw [Nat.zero_add] at this
  refine ⟨this.1, fun i k hk => ?_⟩
  simp only [lstLength, Res.bind_ok_iff, Res.ok.injEq] at hk
  obtain ⟨l, hl, rfl⟩ := hk
  exact this.2 i l (check_lists hl)

-- one append in three calls: the length is 1, 48 bytes counted
example : (match Spec.run step State.init [.create, .append 1 7, .length 1] with
    | .ok (σ, xs) => some (lstTotalAllocated σ, xs)
    | _ => none) = some (48, [1, 0, 1]) := by decide +kernel

end Maa.Lst

namespace Maa.Sl

theorem check_lists {σ : State} {i : Nat} {l : SList} (h : σ.check i = .ok l) : σ.lists i = some l := by
  unfold State.check at h
  split at h
  · simp at h
  · split at h
    · simp only [Res.ok.injEq] at h; subst h; assumption
    · simp at h

/-- C75: after any calls on any number of skip lists, the count of each (`int`) is at most the number of calls in absolute value. -/
theorem C75_skip_lists (place : Policy) (hist : List Spec.SlOp) (σ : State) (xs : List Nat) (h : Spec.run step (State.init place) hist = .ok (σ, xs))
    (i : Nat) (l : SList) (hl : σ.lists i = some l) : -(hist.length : Int) ≤ l.count ∧ l.count ≤ hist.length := by
  have := Spec.run_count (fun n (σ : State) => ∀ i l, σ.lists i = some l → -(n : Int) ≤ l.count ∧ l.count ≤ n) step (by
    intro n σ o σ' x c h i l hl
    have put : ∀ (τ : State) (k : Nat) (hp : Heap) (o : Option SList), τ.lists = σ.lists → (∀ l, o = some l → -((n + 1 : Nat) : Int) ≤ l.count ∧ l.count ≤ (n + 1 : Nat)) →
        ∀ i l, (τ.put k hp o).lists i = some l → -((n + 1 : Nat) : Int) ≤ l.count ∧ l.count ≤ (n + 1 : Nat) := by
      intro τ k hp o ht ho i l hl
      simp only [State.put] at hl
      split at hl
      · exact ho l hl
      · rw [ht] at hl; have := c i l hl; omega
    cases o <;> simp only [step, Res.bind_ok_iff, Res.ok.injEq, Prod.mk.injEq] at h
    case create cmp key =>
      unfold create at h
      split at h
      · simp only [Res.bind_ok_iff, Res.ok.injEq, Prod.mk.injEq] at h
        obtain ⟨_, -, _, -, rfl, -⟩ := h
        simp only at hl
        split at hl
        · simp only [Option.some.injEq] at hl; subst hl; simp only; omega
        · have := c i l hl; omega
      · simp at h
    case destroy k =>
      simp only [destroy, Res.bind_ok_iff, Res.ok.injEq] at h
      obtain ⟨_, ⟨_, -, _, -, rfl⟩, rfl, -⟩ := h
      exact put σ k _ none rfl (by simp) i l hl
    case insert k d rnd =>
      simp only [insert, Res.bind_ok_iff, Res.ok.injEq] at h
      obtain ⟨_, ⟨s, hs, _, -, _, -, _, -, _, -, _, -, rfl⟩, rfl, -⟩ := h
      refine put σ k _ _ rfl ?_ i l hl
      intro l' e; simp only [Option.some.injEq] at e; subst e
      have := c k s (check_lists hs); simp only; omega
    case delete k d =>
      simp only [delete, Res.bind_ok_iff, Res.ok.injEq] at h
      obtain ⟨_, ⟨s, hs, _, -, _, -, _, -, _, -, _, -, rfl⟩, rfl, -⟩ := h
      refine put σ k _ _ rfl ?_ i l hl
      intro l' e; simp only [Option.some.injEq] at e; subst e
      have := c k s (check_lists hs); simp only; omega
    case find k d =>
      obtain ⟨_, -, rfl, -⟩ := h
      have := c i l hl; omega) hist 0 _ σ xs (by simp [State.init]) h i l hl
  simpa only [Nat.zero_add] using this

end Maa.Sl

namespace Maa.Source
open Spec (SrcOp)

/-- The bytes a call asks to be stored. -/
def asked : SrcOp → Nat
  | .line _ len => len + 1
  | _ => 0

/-- C75: after any calls of the source manager, the number of lines it holds (`int`) and the number of tokens (`int`) are at most
the number of calls, its array has room (`int`) for at most 1000 more lines than that, and the bytes it counts (`int`) are at most the bytes passed. -/
theorem C75_source (hist : List SrcOp) (σ : State) (xs : List Spec.SrcVal) (h : Spec.run step State.init hist = .ok (σ, xs)) :
    σ.used ≤ hist.length ∧ σ.total ≤ hist.length ∧ σ.count ≤ hist.length + 1000 ∧ σ.bytes ≤ (hist.map asked).sum := by
  have key : ∀ σ o σ' x, step σ o = .ok (σ', x) → σ'.used ≤ σ.used + 1 ∧ σ'.total ≤ σ.total + 1 ∧ σ.used ≤ σ'.used ∧
      (σ'.count = σ.count ∨ σ'.count = 1000 ∨ σ'.used ≥ σ'.count - 1000) ∧ σ'.bytes ≤ σ.bytes + asked o := by
    intro σ o σ' x h
    have same : σ' = σ → σ'.used ≤ σ.used + 1 ∧ σ'.total ≤ σ.total + 1 ∧ σ.used ≤ σ'.used ∧
      (σ'.count = σ.count ∨ σ'.count = 1000 ∨ σ'.used ≥ σ'.count - 1000) ∧ σ'.bytes ≤ σ.bytes + asked o := by
      rintro rfl; exact ⟨by omega, by omega, by omega, Or.inl rfl, by omega⟩
    cases o <;> simp only [step, Res.bind_ok_iff, Res.ok.injEq, Prod.mk.injEq] at h
    case create =>
      obtain ⟨τ, h, rfl, -⟩ := h
      unfold srcCreate at h
      split at h
      · simp at h
      · simp only [Res.ok.injEq] at h; subst h; simp [increment, asked]
    case destroy =>
      obtain ⟨rfl, -⟩ := h
      unfold srcDestroy
      split <;> simp
    case line buf len =>
      simp only [srcLine, Res.bind_ok_iff, Res.ok.injEq] at h
      obtain ⟨_, ⟨τ, hτ, s, -, t, -, a, -, r, -, rfl⟩, rfl, -⟩ := h
      have e : τ.used = σ.used ∧ τ.total ≤ σ.total ∧ (τ.count = σ.count ∨ τ.count = 1000) ∧ τ.bytes ≤ σ.bytes := by
        unfold ensure at hτ
        split at hτ
        · unfold srcCreate at hτ
          split at hτ
          · simp at hτ
          · simp only [Res.ok.injEq] at hτ; subst hτ; simp [increment]
        · simp only [Res.ok.injEq] at hτ; subst hτ; simp
      simp only [regrow, asked, increment]
      split
      · simp only; omega
      · simp only; omega
    case newFile n => obtain ⟨rfl, -⟩ := h; simp [srcNewFile, asked]
    case newLine n => obtain ⟨rfl, -⟩ := h; simp [srcNewLine, asked]
    case advance n => obtain ⟨rfl, -⟩ := h; simp [srcAdvance, asked]
    case get n =>
      obtain ⟨r, h, rfl, -⟩ := h
      unfold srcGet at h
      split at h
      · simp at h
      · simp only [Res.ok.injEq] at h; subst h; simp [srcAdvance, asked]
    case stats => exact same h.1.symm
    case filename t => obtain ⟨_, -, e, -⟩ := h; exact same e.symm
    case linenumber t => obtain ⟨_, -, e, -⟩ := h; exact same e.symm
    case offset t => obtain ⟨_, -, e, -⟩ := h; exact same e.symm
    case length t => obtain ⟨_, -, e, -⟩ := h; exact same e.symm
    case sourceLine t => obtain ⟨_, -, e, -⟩ := h; exact same e.symm
    case printLine t => obtain ⟨_, -, _, -, e, -⟩ := h; exact same e.symm
    case printError t => obtain ⟨_, -, e, -⟩ := h; exact same e.symm
    case printMessage t => obtain ⟨_, -, e, -⟩ := h; exact same e.symm
  have h1 := Spec.run_count (fun n (s : State) => s.used ≤ n ∧ s.total ≤ n ∧ s.count ≤ n + 1000) step (by
    intro n s o s' x hs hst
    have := key _ _ _ _ hst
    omega) hist 0 _ σ xs (by simp [State.init, StateOf.init]) h
  have h2 := Spec.run_measure (fun n (s : State) => s.bytes ≤ n) asked step (by
    intro n s o s' x hs hst
    have := key _ _ _ _ hst
    omega) hist 0 _ σ xs (by simp [State.init, StateOf.init]) h
  simp only [Nat.zero_add] at h1 h2
  exact ⟨h1.1, h1.2.1, h1.2.2, h2⟩

example : (match Spec.run step State.init [.line [97, 10, 0] 2, .get 1, .destroy, .create] with
    | .ok (σ, _) => some (σ.used, σ.total, σ.count, σ.bytes)
    | _ => none) = some (1, 0, 1000, 0) := by decide +kernel

end Maa.Source
