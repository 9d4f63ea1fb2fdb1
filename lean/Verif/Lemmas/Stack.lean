import Verif.Model.Stack
import Verif.Lemmas.Heap

set_option linter.unusedSimpArgs false

namespace Maa.Stack

open Heap (Seg Chain)

/-- `A i` lists the cells of stack `i`. -/
structure Rep (σ : State) (s : Spec.Stacks) (A : Nat → List (Nat × Nat)) : Prop where
  ok : σ.heap.Ok
  next : σ.next = s.next
  dom : ∀ i, σ.stk i = none ↔ s.stk i = none
  chain : ∀ i p, σ.stk i = some p → Chain σ.heap.mem p (A i)
  vals : ∀ i l, s.stk i = some l → (A i).map Prod.snd = l
  disj : ∀ i j, i ≠ j → σ.stk i ≠ none → σ.stk j ≠ none →
    ∀ a ∈ (A i).map Prod.fst, a ∉ (A j).map Prod.fst
  live : ∀ a, (σ.heap.mem a).isSome → ∃ i, σ.stk i ≠ none ∧ a ∈ (A i).map Prod.fst
  bound : ∀ i, σ.next ≤ i → σ.stk i = none

/-- replace the cells of one stack -/
def setA (A : Nat → List (Nat × Nat)) (i : Nat) (l : List (Nat × Nat)) : Nat → List (Nat × Nat) :=
  fun j => if j = i then l else A j

theorem Rep.get {σ : State} {s : Spec.Stacks} {A} (r : Rep σ s A) (i : Nat) :
    (σ.get i = .ub ∧ s.get i = .ub) ∨
      ∃ p, σ.get i = .ok p ∧ s.get i = .ok ((A i).map Prod.snd) ∧ σ.stk i = some p ∧
        s.stk i = some ((A i).map Prod.snd) ∧ Chain σ.heap.mem p (A i) := by
  cases h : σ.stk i with
  | none => left; exact ⟨by simp [State.get, h], by simp [Spec.Stacks.get, (r.dom i).1 h]⟩
  | some p =>
    right
    cases h2 : s.stk i with
    | none => rw [(r.dom i).2 h2] at h; simp at h
    | some l =>
      have := r.vals i l h2
      exact ⟨p, by simp [State.get, h], by simp [Spec.Stacks.get, h2, this], rfl, by rw [this], r.chain i p h⟩

theorem create_rep {σ : State} {s : Spec.Stacks} {A} (r : Rep σ s A) :
    Rep (stkCreate σ).1 { stk := fun j => if j = s.next then some [] else s.stk j, next := s.next + 1 }
      (setA A σ.next []) := by
  have hn := r.next
  have key : ∀ i, i ≠ σ.next → (stkCreate σ).1.stk i = σ.stk i := by
    intro i hi; simp [stkCreate, hi]
  refine ⟨r.ok, by simp [stkCreate, hn], ?_, ?_, ?_, ?_, ?_, ?_⟩
  · intro i
    simp only [stkCreate, hn]
    split
    · simp
    · exact r.dom i
  · intro i p h
    by_cases hi : i = σ.next
    · subst hi
      simp only [stkCreate, if_true, Option.some.injEq] at h
      subst h
      simp [setA, Seg]
    · rw [key i hi] at h
      simp only [setA, hi, if_false]
      exact r.chain i p h
  · intro i l h
    simp only [setA, hn] at h ⊢
    split
    · rename_i hi; simp [hi] at h; simp [h]
    · rename_i hi; simp only [hi, if_false] at h; exact r.vals i l h
  · intro i j hij hi hj a ha
    simp only [setA] at ha ⊢
    by_cases h1 : i = σ.next
    · simp [h1] at ha
    · by_cases h2 : j = σ.next
      · simp [h2]
      · simp only [h1, h2, if_false] at ha ⊢
        rw [key i h1] at hi
        rw [key j h2] at hj
        exact r.disj i j hij hi hj a ha
  · intro a ha
    obtain ⟨i, h1, h2⟩ := r.live a ha
    have hi : i ≠ σ.next := by
      rintro rfl; exact h1 (r.bound _ (Nat.le_refl _))
    exact ⟨i, by rw [key i hi]; exact h1, by simpa [setA, hi] using h2⟩
  · intro i hi
    simp only [stkCreate] at hi
    rw [key i (by omega)]
    exact r.bound i (by omega)

/-- change stack `i` to chain `l` starting at `p`, in memory `h'` -/
theorem Rep.update {σ : State} {s : Spec.Stacks} {A} (r : Rep σ s A) {i : Nat} (hi : σ.stk i ≠ none)
    {h' : Heap Nat} {p : Nat} {l : List (Nat × Nat)} (ok : h'.Ok) (hc : Chain h'.mem p l)
    (hout : ∀ a, a ∉ (A i).map Prod.fst → a ∉ l.map Prod.fst → h'.mem a = σ.heap.mem a)
    (hnew : ∀ a ∈ l.map Prod.fst, a ∈ (A i).map Prod.fst ∨ σ.heap.mem a = none)
    (hgone : ∀ a ∈ (A i).map Prod.fst, a ∉ l.map Prod.fst → h'.mem a = none) :
    Rep ({ σ with heap := h' }.set i (some p)) (s.set i (some (l.map Prod.snd))) (setA A i l) := by
  have hold : ∀ j, j ≠ i → σ.stk j ≠ none → ∀ a ∈ (A j).map Prod.fst, a ∉ (A i).map Prod.fst ∧ a ∉ l.map Prod.fst := by
    intro j hj hjn a ha
    have h1 := r.disj j i hj hjn hi a ha
    refine ⟨h1, fun hl => ?_⟩
    rcases hnew a hl with h2 | h2
    · exact h1 h2
    · obtain ⟨q, hq⟩ := Option.ne_none_iff_exists'.1 hjn
      have := (Seg.live (r.chain j q hq) a ha).1
      rw [h2] at this; simp at this
  refine ⟨ok, r.next, ?_, ?_, ?_, ?_, ?_, ?_⟩
  · intro j
    simp only [State.set, Spec.Stacks.set]
    split
    · simp
    · exact r.dom j
  · intro j q hq
    simp only [State.set] at hq ⊢
    by_cases hj : j = i
    · simp only [hj, if_true, Option.some.injEq] at hq
      subst hq
      simp only [setA, hj, if_true]
      exact hc
    · simp only [hj, if_false] at hq
      simp only [setA, hj, if_false]
      refine (r.chain j q hq).frame (fun a ha => ?_)
      have := hold j hj (by rw [hq]; simp) a ha
      exact hout a this.1 this.2
  · intro j l' hl'
    simp only [Spec.Stacks.set] at hl'
    by_cases hj : j = i
    · simp only [hj, if_true, Option.some.injEq] at hl'
      simp [setA, hj, hl']
    · simp only [hj, if_false] at hl'
      simp only [setA, hj, if_false]
      exact r.vals j l' hl'
  · intro j k hjk hj hk a ha hb
    simp only [State.set] at hj hk
    simp only [setA] at ha hb
    by_cases h1 : j = i
    · have h2 : k ≠ i := fun h => hjk (h1.trans h.symm)
      simp only [h1, h2, if_true, if_false] at ha hb hk
      exact (hold k h2 hk a hb).2 ha
    · by_cases h2 : k = i
      · simp only [h1, h2, if_true, if_false] at ha hb hj
        exact (hold j h1 hj a ha).2 hb
      · simp only [h1, h2, if_false] at ha hb hj hk
        exact r.disj j k hjk hj hk a ha hb
  · intro a ha
    by_cases hl : a ∈ l.map Prod.fst
    · exact ⟨i, by simp [State.set], by simpa [setA] using hl⟩
    · by_cases hA : a ∈ (A i).map Prod.fst
      · have := hgone a hA hl
        simp only [State.set] at ha
        rw [this] at ha; simp at ha
      · simp only [State.set] at ha
        rw [hout a hA hl] at ha
        obtain ⟨j, h1, h2⟩ := r.live a ha
        have hj : j ≠ i := by rintro rfl; exact hA h2
        exact ⟨j, by simpa [State.set, hj] using h1, by simpa [setA, hj] using h2⟩
  · intro j hj
    simp only [State.set] at hj ⊢
    have hb := r.bound j hj
    have : j ≠ i := by rintro rfl; exact hi hb
    simpa [this] using hb

/-- a stack without cells can be dropped -/
theorem Rep.drop {σ : State} {s : Spec.Stacks} {A} (r : Rep σ s A) {i : Nat} (hA : A i = []) :
    Rep (σ.set i none) (s.set i none) A := by
  refine ⟨r.ok, r.next, ?_, ?_, ?_, ?_, ?_, ?_⟩
  · intro j; simp only [State.set, Spec.Stacks.set]; split
    · simp
    · exact r.dom j
  · intro j p h
    simp only [State.set] at h
    split at h
    · simp at h
    · exact r.chain j p h
  · intro j l h
    simp only [Spec.Stacks.set] at h
    split at h
    · simp at h
    · exact r.vals j l h
  · intro j k hjk hj hk
    simp only [State.set] at hj hk
    split at hj
    · simp at hj
    · split at hk
      · simp at hk
      · exact r.disj j k hjk hj hk
  · intro a ha
    obtain ⟨j, h1, h2⟩ := r.live a ha
    have : j ≠ i := by rintro rfl; rw [hA] at h2; simp at h2
    exact ⟨j, by simpa [State.set, this] using h1, h2⟩
  · intro j hj
    simp only [State.set]
    split
    · rfl
    · exact r.bound j hj

theorem push_rep {σ : State} {s : Spec.Stacks} {A} (r : Rep σ s A) (i d : Nat) :
    Spec.ResRel (fun c b => ∃ A', Rep c b A') (stkPush σ i d)
      ((s.get i).bind fun l => .ok (s.set i (some (d :: l)))) := by
  unfold stkPush
  rcases r.get i with ⟨h1, h2⟩ | ⟨p, h1, h2, h3, h4, h5⟩
  · rw [h1, h2]; trivial
  · rw [h1, h2]
    simp only [Res.bind, Spec.ResRel]
    refine ⟨_, r.update (l := (σ.heap.addr, d) :: A i) (by rw [h3]; simp) (r.ok.alloc _) ?_ ?_ ?_ ?_⟩
    · refine ⟨rfl, r.ok.addr.2, p, by simp [Heap.alloc], ?_⟩
      refine h5.frame (fun a ha => ?_)
      have : a ≠ σ.heap.addr := r.ok.ne (Seg.live h5 a ha).1
      simp [Heap.alloc, this]
    · intro a _ ha
      have : a ≠ σ.heap.addr := by rintro rfl; simp at ha
      simp [Heap.alloc, this]
    · intro a ha
      simp only [List.map_cons, List.mem_cons] at ha
      rcases ha with rfl | ha
      · right; exact r.ok.addr.1
      · left; exact ha
    · intro a ha hn
      exact absurd (List.mem_cons_of_mem _ ha) (by simpa using hn)

theorem pop_rep {σ : State} {s : Spec.Stacks} {A} (r : Rep σ s A) (i : Nat) :
    Spec.ResRel (fun c b => c.2 = b.2 ∧ ∃ A', Rep c.1 b.1 A' ∧ A' i = (A i).tail ∧ c.1.heap.clock = σ.heap.clock)
      (stkPop σ i) ((s.get i).bind fun l => .ok (s.set i (some l.tail), l.headD 0)) := by
  unfold stkPop
  rcases r.get i with ⟨h1, h2⟩ | ⟨p, h1, h2, h3, h4, h5⟩
  · rw [h1, h2]; trivial
  · rw [h1, h2]
    simp only [Res.bind]
    cases hA : A i with
    | nil =>
      rw [hA] at h5 h4
      have : p = 0 := h5
      subst this
      simp only [ne_eq, not_true, if_false, Spec.ResRel, List.map_nil, List.tail_nil, List.headD_nil, true_and]
      refine ⟨A, ?_, hA, trivial⟩
      have : s.set i (some []) = s := by
        unfold Spec.Stacks.set
        cases s with
        | mk f n =>
          simp only [Spec.Stacks.mk.injEq, and_true]
          funext j
          split
          · rename_i hj; rw [hj]; exact h4.symm
          · rfl
      rw [this]; exact r
    | cons c l =>
      have hnd := Heap.Chain.nodup h5
      rw [hA] at h5 hnd
      obtain ⟨e1, e2, nx, e3, e4⟩ := h5
      subst e1
      simp only [ne_eq, e2, not_false_eq_true, if_true, Heap.read_ok e3, Heap.free_ok e3, Spec.ResRel,
        List.map_cons, List.tail_cons, List.headD_cons, true_and]
      simp only [List.map_cons, List.nodup_cons] at hnd
      refine ⟨setA A i l, ?_, by simp [setA], rfl⟩
      refine r.update (by rw [h3]; simp) (r.ok.free (Heap.free_ok e3)) ?_ ?_ ?_ ?_
      · refine e4.frame (fun a ha => ?_)
        have : a ≠ c.1 := by rintro rfl; exact hnd.1 ha
        simp [this]
      · intro a ha _
        rw [hA] at ha
        have : a ≠ c.1 := by rintro rfl; simp at ha
        simp [this]
      · intro a ha; left; rw [hA]; simp only [List.map_cons, List.mem_cons]; exact Or.inr ha
      · intro a ha hn
        rw [hA] at ha
        simp only [List.map_cons, List.mem_cons] at ha
        rcases ha with rfl | ha
        · simp
        · exact absurd ha hn

theorem destroyLoop_rep (l : List (Nat × Nat)) : ∀ (n : Nat) {σ : State} {s : Spec.Stacks} {A} (i : Nat),
    Rep σ s A → A i = l → l.length < n → σ.stk i ≠ none →
    ∃ σ' s' A', destroyLoop n σ i = .ok σ' ∧ Rep σ' s' A' ∧ A' i = [] ∧
      (∀ j, j ≠ i → s'.stk j = s.stk j) ∧ s'.next = s.next := by
  induction l with
  | nil =>
    intro n σ s A i r hA hn hi
    cases n with
    | zero => omega
    | succ n =>
      rcases r.get i with ⟨h1, h2⟩ | ⟨p, h1, h2, h3, h4, h5⟩
      · unfold State.get at h1; split at h1 <;> simp at h1; rename_i h; exact absurd h hi
      · rw [hA] at h5
        have : p = 0 := h5
        subst this
        exact ⟨σ, s, A, by simp [destroyLoop, stkIsempty, h1, Res.bind], r, hA, fun _ _ => rfl, rfl⟩
  | cons c l ih =>
    intro n σ s A i r hA hn hi
    cases n with
    | zero => omega
    | succ n =>
      have hp := pop_rep r i
      rcases r.get i with ⟨h1, h2⟩ | ⟨p, h1, h2, h3, h4, h5⟩
      · unfold State.get at h1; split at h1 <;> simp at h1; rename_i h; exact absurd h hi
      · rw [h2] at hp
        simp only [Res.bind] at hp
        cases hc : stkPop σ i <;> rw [hc] at hp <;> simp only [Spec.ResRel] at hp
        rename_i q
        obtain ⟨-, A', r', e1, e2⟩ := hp
        have hp0 : p ≠ 0 := by
          rw [hA] at h5; rw [h5.1]; exact h5.2.1
        have hq : q.1.stk i ≠ none := by
          intro h
          have := (r'.dom i).1 h
          simp [Spec.Stacks.set] at this
        obtain ⟨σ', s', A'', i1, i2, i3, i4, i5⟩ := ih n i r' (by rw [e1, hA]; rfl) (by simp at hn; omega) hq
        refine ⟨σ', s', A'', ?_, i2, i3, ?_, ?_⟩
        · simp only [destroyLoop, stkIsempty, h1, Res.bind, ne_eq, hp0, not_false_eq_true, if_true, hc]
          exact i1
        · intro j hj
          rw [i4 j hj]
          simp [Spec.Stacks.set, hj]
        · rw [i5]; rfl

theorem step_rep (σ : State) (s : Spec.Stacks) (o : Spec.StackOp) (h : ∃ A, Rep σ s A) :
    Spec.ResRel (fun c b => c.2 = b.2 ∧ ∃ A, Rep c.1 b.1 A) (step σ o) (Spec.stackStep s o) := by
  obtain ⟨A, r⟩ := h
  cases o with
  | create =>
    simp only [step, Spec.stackStep]
    exact ⟨by simp [stkCreate, r.next], _, create_rep r⟩
  | push i d =>
    simp only [step, Spec.stackStep]
    have h1 := push_rep r i d
    rcases r.get i with ⟨h2, h3⟩ | ⟨p, h2, h3, -⟩ <;> rw [h3] at h1 ⊢ <;> simp only [Res.bind] at h1 ⊢ <;>
      cases hc : stkPush σ i d <;> rw [hc] at h1 <;> simp only [Spec.ResRel] at h1 ⊢
    exact ⟨trivial, h1⟩
  | pop i =>
    simp only [step, Spec.stackStep]
    have h1 := pop_rep r i
    rcases r.get i with ⟨h2, h3⟩ | ⟨p, h2, h3, -⟩ <;> rw [h3] at h1 ⊢ <;> simp only [Res.bind] at h1 ⊢ <;>
      cases hc : stkPop σ i <;> rw [hc] at h1 <;> simp only [Spec.ResRel] at h1 ⊢
    obtain ⟨e1, A', e2, -⟩ := h1
    exact ⟨by rw [e1], A', e2⟩
  | top i =>
    simp only [step, Spec.stackStep, stkTop]
    rcases r.get i with ⟨h2, h3⟩ | ⟨p, h2, h3, h4, h5, h6⟩ <;> rw [h2, h3] <;> simp only [Res.bind]
    · trivial
    · cases hA : A i with
      | nil =>
        rw [hA] at h6
        have : p = 0 := h6
        subst this
        exact ⟨rfl, A, r⟩
      | cons c l =>
        rw [hA] at h6
        obtain ⟨e1, e2, nx, e3, e4⟩ := h6
        subst e1
        rw [if_pos e2, Heap.read_ok e3]
        exact ⟨rfl, A, r⟩
  | isempty i =>
    simp only [step, Spec.stackStep, stkIsempty]
    rcases r.get i with ⟨h2, h3⟩ | ⟨p, h2, h3, h4, h5, h6⟩ <;> rw [h2, h3] <;> simp only [Res.bind]
    · trivial
    · refine ⟨?_, A, r⟩
      have := Heap.Chain.zero h6
      by_cases hp : p = 0
      · rw [if_neg (by simp [hp]), if_pos (by rw [this.1 hp]; rfl)]
      · rw [if_pos hp, if_neg]
        intro hl
        exact hp (this.2 (by simpa using hl))
  | destroy i =>
    simp only [step, Spec.stackStep, stkDestroy]
    rcases r.get i with ⟨h2, h3⟩ | ⟨p, h2, h3, h4, h5, h6⟩
    · rw [h3]
      have : destroyLoop σ.heap.clock σ i = .ub := by
        have := r.ok.pos
        cases hf : σ.heap.clock with
        | zero => omega
        | succ n => simp [destroyLoop, stkIsempty, h2, Res.bind]
      rw [this]; trivial
    · obtain ⟨σ', s', A', i1, i2, i3, i4, i5⟩ := destroyLoop_rep (A i) σ.heap.clock i r rfl
        (Heap.Chain.length_lt r.ok h6) (by rw [h4]; simp)
      rw [i1, h3]
      simp only [Res.bind]
      refine ⟨rfl, A', ?_⟩
      have : s.set i none = s'.set i none := by
        unfold Spec.Stacks.set
        rw [i5]
        congr 1
        funext j
        split
        · rfl
        · rename_i hj; exact (i4 j hj).symm
      rw [this]
      exact i2.drop i3

end Maa.Stack
