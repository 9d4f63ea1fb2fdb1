import Verif.Props.ListsOwned

/-! # C83: list nodes are used again -/

namespace Maa.Lst

open Spec (LstOp Lists)
open Objects (Pool)

/-- the same addresses are live -/
def Keep (σ σ' : State) : Prop := ∀ a, (σ'.heap.mem a).isSome = (σ.heap.mem a).isSome

theorem Keep.refl (σ : State) : Keep σ σ := fun _ => rfl
theorem Keep.trans {σ σ' σ'' : State} (h : Keep σ σ') (h' : Keep σ' σ'') : Keep σ σ'' := fun a => (h' a).trans (h a)

theorem write_keep (h : Heap Nat) (p : Nat) (c : Nat × Nat) :
    Ends (fun h' => ∀ a, (h'.mem a).isSome = (h.mem a).isSome) (h.write p c) := by
  intro h' e a
  unfold Heap.write at e
  split at e
  · rename_i x hx
    cases e
    simp only
    by_cases hap : a = p
    · rw [hap, hx]; simp
    · rw [if_neg hap]
  · cases e

theorem memFree_keep (σ : State) (d : Nat) : Ends (Keep σ) (memFree σ d) := by
  unfold memFree
  split
  · exact Ends.abort
  · exact Ends.ok fun _ => rfl

theorem freeRest_keep (n : Nat) : ∀ (σ : State) (d : Nat), Ends (fun r => Keep σ r.1) (freeRest n σ d) := by
  induction n with
  | zero => intro σ d; exact Ends.ub
  | succ n ih =>
    intro σ d
    unfold freeRest
    exact Ends.ite (Ends.ok (Keep.refl σ)) (Ends.any fun c => Ends.bind (memFree_keep σ d) fun σ' h' =>
      Ends.bind (ih σ' c.2) fun r hr => Ends.ok (h'.trans hr))

/-- no node is waiting to be used again -/
def Empty (σ : State) : Prop := ∃ p, σ.mem = some p ∧ p.free = []

theorem memGet_keep {σ : State} (hz : ∀ p, σ.mem = some p → (0 : Nat) ∉ p.free) : Ends (fun g => Keep σ g.1 ∨ Empty g.1) (memGet σ) := by
  unfold memGet
  split
  · exact Ends.ub
  · rename_i p hp
    apply Ends.ok
    simp only [Objects.getObject]
    by_cases ho : p.free.headD 0 = 0
    · right
      rw [if_pos ho]
      refine ⟨_, rfl, ?_⟩
      simp only
      cases hf : p.free with
      | nil => rfl
      | cons q qs =>
        rw [hf] at ho
        exact absurd (by rw [hf]; simp only [List.headD_cons] at ho; rw [ho]; simp) (hz p hp)
    · left
      rw [if_neg ho]
      exact fun _ => rfl

theorem step_keep {σ : State} (hz : ∀ p, σ.mem = some p → (0 : Nat) ∉ p.free) (h : Owned σ) (o : LstOp) :
    Ends (fun r => Keep σ r.1 ∨ Empty r.1 ∨ ∀ a, r.1.heap.mem a = none) (step σ o) := by
  have lift : ∀ {x : Res State}, Ends (fun s => Keep σ s ∨ Empty s ∨ ∀ a, s.heap.mem a = none) x →
      Ends (fun r : State × Nat => Keep σ r.1 ∨ Empty r.1 ∨ ∀ a, r.1.heap.mem a = none) (x.bind fun s => .ok (s, 0)) :=
    fun hx => Ends.bind hx fun s hs => Ends.ok hs
  have same : ∀ {x : Res Nat}, Ends (fun r : State × Nat => Keep σ r.1 ∨ Empty r.1 ∨ ∀ a, r.1.heap.mem a = none) (x.bind fun y => .ok (σ, y)) :=
    fun {x} => Ends.any fun y => Ends.ok (Or.inl (Keep.refl σ))
  have two : ∀ {g : State} {h1 : Heap Nat} (s' : State), (Keep σ g ∨ Empty g) → (∀ a, (h1.mem a).isSome = (g.heap.mem a).isSome) →
      s'.heap = h1 → s'.mem = g.mem → (Keep σ s' ∨ Empty s' ∨ ∀ a, s'.heap.mem a = none) := by
    intro g h1 s' hg hk e1 e2
    rcases hg with hg | ⟨p, hg, hf⟩
    · left; intro a; rw [e1, hk a]; exact hg a
    · right; left; exact ⟨p, by rw [e2]; exact hg, hf⟩
  cases o with
  | create => exact Ends.ok (Or.inl fun _ => rfl)
  | destroy i => exact lift (Ends.any fun l => Ends.bind (freeRest_keep _ σ _) fun r hr => Ends.ok (Or.inl hr))
  | append i d =>
    apply lift
    unfold lstAppend
    refine Ends.ite (Ends.ok (Or.inl (Keep.refl σ))) (Ends.bind (memGet_keep hz) fun g hg => Ends.any fun l => ?_)
    refine Ends.bind (write_keep _ _ _) fun h1 k1 => ?_
    refine Ends.ite (Ends.any fun t => Ends.ite Ends.abort (Ends.bind (write_keep _ _ _) fun h2 k2 => Ends.ok ?_)) (Ends.ok ?_)
    · exact two (h1 := h2) _ hg (fun a => (k2 a).trans (k1 a)) rfl rfl
    · exact two (h1 := h1) _ hg k1 rfl rfl
  | push i d =>
    apply lift
    unfold lstPush
    refine Ends.bind (memGet_keep hz) fun g hg => Ends.any fun l => ?_
    exact Ends.bind (write_keep _ _ _) fun h1 k1 => Ends.ok (two (h1 := h1) _ hg k1 rfl rfl)
  | pop i =>
    simp only [step]
    unfold lstPop
    exact Ends.any fun l => Ends.ite (Ends.any fun c => Ends.bind (memFree_keep _ _) fun s hs => Ends.ok (Or.inl hs)) (Ends.ok (Or.inl (Keep.refl σ)))
  | nthSet i n d =>
    apply lift
    unfold lstNthSet
    exact Ends.any fun l => Ends.ite Ends.fatal (Ends.any fun r => Ends.ite Ends.abort (Ends.any fun c =>
      Ends.bind (write_keep _ _ _) fun h1 k1 => Ends.ok (Or.inl k1)))
  | truncate i n =>
    apply lift
    unfold lstTruncate
    refine Ends.any fun l => Ends.ite (Ends.ok (Or.inl (Keep.refl σ))) (Ends.ite ?_ ?_)
    · exact Ends.bind (freeRest_keep _ _ _) fun r hr => Ends.ite Ends.abort (Ends.ok (Or.inl hr))
    · exact Ends.any fun d => Ends.any fun c => Ends.bind (write_keep _ _ _) fun h1 k1 =>
        Ends.bind (freeRest_keep _ _ _) fun r hr => Ends.ite Ends.abort (Ends.ok (Or.inl fun a => (hr a).trans (k1 a)))
  | truncatePosition i p =>
    apply lift
    unfold lstTruncatePosition
    refine Ends.any fun l => Ends.ite ?_ ?_
    · exact Ends.bind (freeRest_keep _ _ _) fun r hr => Ends.ok (Or.inl hr)
    · exact Ends.any fun c => Ends.bind (write_keep _ _ _) fun h1 k1 =>
        Ends.bind (freeRest_keep _ _ _) fun r hr => Ends.ok (Or.inl fun a => (hr a).trans (k1 a))
  | setPosition p d =>
    apply lift
    unfold lstSetPosition
    exact Ends.ite (Ends.ok (Or.inl (Keep.refl σ))) (Ends.any fun c => Ends.bind (write_keep _ _ _) fun h1 k1 => Ends.ok (Or.inl k1))
  | totalAllocated => exact Ends.ok (Or.inl (Keep.refl σ))
  | shutdown =>
    intro r e
    have ho := step_owned h .shutdown r e
    simp only [step, lstShutdown] at e
    cases hm : σ.mem with
    | none =>
      rw [hm] at e
      simp only [Res.bind, Res.ok.injEq] at e
      rw [← e]
      exact Or.inl (Keep.refl σ)
    | some p =>
      rw [hm] at e
      simp only at e
      cases hd : Objects.destroy σ.heap p with
      | ok h' =>
        rw [hd] at e
        simp only [Res.bind, Res.ok.injEq] at e
        right; right
        intro a
        cases ha : r.1.heap.mem a with
        | none => rfl
        | some c =>
          obtain ⟨q, hq, -⟩ := ho a (by rw [ha]; rfl)
          rw [← e] at hq
          simp at hq
      | _ => rw [hd] at e; simp [Res.bind] at e
  | _ => exact same

/-- The lists have `n` elements together. -/
def Elements (S : Lists) (n : Nat) : Prop := ∃ l : List Nat, l.Nodup ∧ (∀ a, a ∈ l ↔ S.InUse a) ∧ l.length = n

/-- There are `n` nodes in memory. -/
def Nodes (σ : State) (n : Nat) : Prop := ∃ l : List Nat, l.Nodup ∧ (∀ a, a ∈ l ↔ (σ.heap.mem a).isSome) ∧ l.length = n

theorem reachable_owned {σ : State} {S : Lists} (h : Reachable σ S) : Owned σ := by
  obtain ⟨place, hist, -, f⟩ := h
  have key : ∀ {σ S hist σ' S'}, Follows σ S hist σ' S' → Owned σ → Owned σ' := by
    intro σ S hist σ' S' f
    induction f with
    | nil => exact id
    | cons _ h2 _ _ _ ih => exact fun h => ih (step_owned h _ _ h2)
  exact key f init_owned

theorem nodes_of_empty {σ : State} {S : Lists} (h : Reachable σ S) (he : Empty σ) : ∃ n, Nodes σ n ∧ Elements S n := by
  have r := h.rep
  obtain ⟨p, hp, hf⟩ := he
  rcases r.pool with ⟨h1, -⟩ | ⟨q, held, h1, -, h3, h4⟩
  · rw [h1] at hp; cases hp
  · rw [hp] at h1
    cases h1
    have hperm := h3.perm
    rw [hf, List.nil_append] at hperm
    refine ⟨p.allocated.length, ⟨p.allocated, h3.nodup, fun a => ⟨fun ha => (h3.live a ha).1, fun ha => ?_⟩, rfl⟩,
      ⟨held, hperm.nodup_iff.2 h3.nodup, h4, hperm.length_eq⟩⟩
    obtain ⟨q, hq, hm⟩ := reachable_owned h a ha
    rw [hp] at hq
    cases hq
    exact hm

/-- **C83.** Nodes are used again: after any history there are no more nodes in memory than the lists had elements together at some time before (so a
program whose lists stay small needs little memory, however many elements it puts in and takes out). -/
theorem C83_nodes_at_peak (place : Policy) (hp : Heap.Allocator place) (hist : List LstOp) (σ : State) (S : Lists)
    (h : Follows (State.init place) Lists.empty hist σ S) :
    ∃ pre, pre <+: hist ∧ ∃ σ₁ S₁, Follows (State.init place) Lists.empty pre σ₁ S₁ ∧ ∃ n, Nodes σ n ∧ Elements S₁ n := by
  have key : ∀ {σ S hist σ' S'}, Follows σ S hist σ' S' → ∀ pre0, Follows (State.init place) Lists.empty pre0 σ S →
      (∃ pre, pre <+: pre0 ∧ ∃ σ₁ S₁, Follows (State.init place) Lists.empty pre σ₁ S₁ ∧ ∃ n, Nodes σ n ∧ Elements S₁ n) →
      ∃ pre, pre <+: pre0 ++ hist ∧ ∃ σ₁ S₁, Follows (State.init place) Lists.empty pre σ₁ S₁ ∧ ∃ n, Nodes σ' n ∧ Elements S₁ n := by
    intro σ S hist σ' S' f
    induction f with
    | nil => intro pre0 _ h; rwa [List.append_nil]
    | @cons σ S σ₁ S₁ σ' S' o os x h1 h2 h3 h4 _ ih =>
      intro pre0 f0 hpk
      have f1 := f0.snoc h1 h2 h3 h4
      have := ih (pre0 ++ [o]) f1 ?_
      · simpa using this
      have reach0 : Reachable σ S := ⟨place, pre0, hp, f0⟩
      have reach1 : Reachable σ₁ S₁ := ⟨place, _, hp, f1⟩
      have hz : ∀ p, σ.mem = some p → (0 : Nat) ∉ p.free := by
        intro p hm hc
        rcases reach0.rep.pool with ⟨e, -⟩ | ⟨q, held, e, -, e3, -⟩
        · rw [e] at hm; cases hm
        · rw [e] at hm
          cases hm
          exact (e3.mem (by simp [hc])).2 rfl
      rcases step_keep hz (reachable_owned reach0) o _ h2 with hk | hk | hk
      · obtain ⟨pre, e1, σ₂, S₂, e2, n, ⟨l, n1, n2, n3⟩, e4⟩ := hpk
        refine ⟨pre, e1.trans (List.prefix_append _ _), σ₂, S₂, e2, n, ⟨l, n1, fun a => ?_, n3⟩, e4⟩
        rw [n2 a, hk a]
      · obtain ⟨n, e1, e2⟩ := nodes_of_empty reach1 hk
        exact ⟨_, List.prefix_refl _, σ₁, S₁, f1, n, e1, e2⟩
      · exact ⟨[], List.nil_prefix, _, _, .nil _ _, 0, ⟨[], List.nodup_nil, fun a => by simp only at hk; simp [hk a], rfl⟩,
          ⟨[], List.nodup_nil, fun a => ⟨by simp, by rintro ⟨i, l, hl, -⟩; simp [Lists.empty] at hl⟩, rfl⟩⟩
  have := key h [] (.nil _ _) ⟨[], List.prefix_refl _, _, _, .nil _ _, 0,
    ⟨[], List.nodup_nil, fun a => by simp [State.init, Heap.init], rfl⟩,
    ⟨[], List.nodup_nil, fun a => ⟨by simp, by rintro ⟨i, l, hl, -⟩; simp [Lists.empty] at hl⟩, rfl⟩⟩
  simpa using this

/-- **C83**: and every node in memory belongs to an element of a list or waits to be used again; a call takes new memory only when none waits. -/
theorem C83_new_node (σ : State) (S : Lists) (h : Reachable σ S) (o : LstOp) (σ' : State) (S' : Lists) (x : Nat) (hu : ¬ S.Undefined o)
    (hs : step σ o = .ok (σ', x)) (ha : S.Allowed (.ok (S', x)) o) (hl : ∀ i l, S'.lists i = some l → listing σ' i = .ok l)
    (hnew : ∃ a, σ.heap.mem a = none ∧ (σ'.heap.mem a).isSome) : ∀ b, (σ'.heap.mem b).isSome → S'.InUse b := by
  obtain ⟨place, hist, hp, f⟩ := h
  have reach0 : Reachable σ S := ⟨place, hist, hp, f⟩
  have reach1 : Reachable σ' S' := ⟨place, _, hp, f.snoc hu hs ha hl⟩
  have hz : ∀ p, σ.mem = some p → (0 : Nat) ∉ p.free := by
    intro p hm hc
    rcases reach0.rep.pool with ⟨e, -⟩ | ⟨q, held, e, -, e3, -⟩
    · rw [e] at hm; cases hm
    · rw [e] at hm
      cases hm
      exact (e3.mem (by simp [hc])).2 rfl
  obtain ⟨a, n1, n2⟩ := hnew
  rcases step_keep hz (reachable_owned reach0) o _ hs with hk | hk | hk
  · have := hk a
    simp only at this
    rw [n1, n2] at this
    simp at this
  · obtain ⟨n, ⟨l, m1, m2, m3⟩, ⟨l', k1, k2, k3⟩⟩ := nodes_of_empty reach1 hk
    intro b hb
    obtain ⟨p, hp, hf⟩ := hk
    rcases reach1.rep.pool with ⟨e, -⟩ | ⟨q, held, e, -, e3, e4⟩
    · simp only at hp; rw [e] at hp; cases hp
    · simp only at hp
      rw [e] at hp
      cases hp
      obtain ⟨q', hq, hm⟩ := reachable_owned reach1 b hb
      rw [e] at hq
      cases hq
      have := e3.perm
      rw [hf, List.nil_append] at this
      exact (e4 b).1 (this.symm.subset hm)
  · simp only at hk
    rw [hk a] at n2
    simp at n2

/-- Six elements are put in, never more than three at a time, in two lists: three nodes are made (the clock starts at 1). -/
example : ((Spec.run step (State.init Heap.neverAgain) [.create, .create, .append 1 10, .append 1 20, .push 2 30, .destroy 1, .append 2 40, .pop 2, .push 2 50,
    .append 2 60]).bind fun r => Res.ok (r.1.heap.clock, r.2)) = .ok (4, [1, 2, 0, 0, 0, 0, 0, 30, 0, 0]) := by
  decide +kernel

end Maa.Lst
