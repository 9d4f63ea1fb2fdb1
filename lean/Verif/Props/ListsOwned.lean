import Verif.Props.Lists

/-! # C53 for lists: `_lst_shutdown` gives back all list nodes -/

namespace Maa.Lst

open Spec (LstOp Lists)
open Objects (Pool)

/-- every node in memory was allocated by the node pool, which still knows it -/
def Owned (σ : State) : Prop := ∀ a, (σ.heap.mem a).isSome → ∃ p, σ.mem = some p ∧ a ∈ p.allocated

/-- if the call succeeds, `P` holds of its result -/
def Ends {α : Type} (P : α → Prop) (x : Res α) : Prop := ∀ a, x = .ok a → P a

theorem Ends.ok {α : Type} {P : α → Prop} {a : α} (h : P a) : Ends P (.ok a) := by
  intro b e; cases e; exact h

theorem Ends.bind {α β : Type} {P : α → Prop} {Q : β → Prop} {x : Res α} {f : α → Res β} (h : Ends P x)
    (k : ∀ a, P a → Ends Q (f a)) : Ends Q (x.bind f) := by
  intro b e
  cases x with
  | ok a => exact k a (h a rfl) b e
  | _ => simp [Res.bind] at e

theorem Ends.any {α β : Type} {Q : β → Prop} {x : Res α} {f : α → Res β} (k : ∀ a, Ends Q (f a)) : Ends Q (x.bind f) :=
  Ends.bind (P := fun _ => True) (fun _ _ => trivial) fun a _ => k a

theorem Ends.ite {α : Type} {P : α → Prop} {c : Prop} [Decidable c] {x y : Res α} (h1 : Ends P x) (h2 : Ends P y) :
    Ends P (if c then x else y) := by split <;> assumption

theorem Ends.abort {α : Type} {P : α → Prop} : Ends P (.abort : Res α) := by intro a e; cases e
theorem Ends.fatal {α : Type} {P : α → Prop} : Ends P (.fatal : Res α) := by intro a e; cases e
theorem Ends.ub {α : Type} {P : α → Prop} : Ends P (.ub : Res α) := by intro a e; cases e

theorem Owned.set {σ : State} (h : Owned σ) (i : Nat) (o : Option LObj) : Owned (σ.set i o) := h

theorem write_owned {σ : State} (h : Owned σ) (p : Nat) (c : Nat × Nat) :
    Ends (fun h' => ∀ a, (h'.mem a).isSome → (σ.heap.mem a).isSome) (σ.heap.write p c) := by
  intro h' e a ha
  unfold Heap.write at e
  split at e
  · rename_i x hx
    cases e
    simp only at ha
    by_cases hap : a = p
    · rw [hap, hx]; rfl
    · rw [if_neg hap] at ha; exact ha
  · cases e

theorem Owned.heap {σ : State} (h : Owned σ) {h' : Heap Nat} (k : ∀ a, (h'.mem a).isSome → (σ.heap.mem a).isSome) :
    Owned { σ with heap := h' } := fun a ha => h a (k a ha)

theorem memGet_owned {σ : State} (h : Owned σ) : Ends (fun g => Owned g.1) (memGet σ) := by
  unfold memGet
  split
  · exact Ends.ub
  · rename_i p hp
    apply Ends.ok
    intro a ha
    simp only [Objects.getObject] at ha ⊢
    by_cases ho : p.free.headD 0 = 0
    · simp only [ho, if_true, Heap.alloc] at ha ⊢
      by_cases haf : a = σ.heap.addr
      · exact ⟨_, rfl, by simp [haf]⟩
      · simp only [haf, if_false] at ha
        obtain ⟨q, hq, hm⟩ := h a ha
        rw [hp] at hq
        cases hq
        exact ⟨_, rfl, by simp [hm]⟩
    · simp only [if_neg ho] at ha ⊢
      obtain ⟨q, hq, hm⟩ := h a ha
      rw [hp] at hq
      cases hq
      exact ⟨_, rfl, hm⟩

theorem memFree_owned {σ : State} (h : Owned σ) (d : Nat) : Ends Owned (memFree σ d) := by
  unfold memFree
  split
  · exact Ends.abort
  · rename_i p hp
    apply Ends.ok
    intro a ha
    obtain ⟨q, hq, hm⟩ := h a ha
    rw [hp] at hq
    cases hq
    exact ⟨_, rfl, hm⟩

theorem freeRest_owned (n : Nat) : ∀ {σ : State}, Owned σ → ∀ d, Ends (fun r => Owned r.1) (freeRest n σ d) := by
  induction n with
  | zero => intro σ _ d; exact Ends.ub
  | succ n ih =>
    intro σ h d
    unfold freeRest
    exact Ends.ite (Ends.ok h) (Ends.any fun c => Ends.bind (memFree_owned h d) fun σ' h' =>
      Ends.bind (ih h' c.2) fun r hr => Ends.ok hr)

theorem step_owned {σ : State} (h : Owned σ) (o : LstOp) : Ends (fun r => Owned r.1) (step σ o) := by
  have lift : ∀ {x : Res State}, Ends Owned x → Ends (fun r : State × Nat => Owned r.1) (x.bind fun s => .ok (s, 0)) :=
    fun hx => Ends.bind hx fun s hs => Ends.ok hs
  have same : ∀ {x : Res Nat}, Ends (fun r : State × Nat => Owned r.1) (x.bind fun y => .ok (σ, y)) :=
    fun {x} => Ends.any fun y => Ends.ok h
  cases o with
  | create =>
    apply Ends.ok
    intro a ha
    obtain ⟨p, hp, hm⟩ := h a ha
    exact ⟨p, by simp only [lstCreate, hp], hm⟩
  | destroy i => exact lift (Ends.any fun l => Ends.bind (freeRest_owned _ h _) fun r hr => Ends.ok (hr.set _ _))
  | append i d =>
    apply lift
    unfold lstAppend
    refine Ends.ite (Ends.ok h) (Ends.bind (memGet_owned h) fun g hg => Ends.any fun l => ?_)
    have hg' : Owned { g.1 with allocated := g.1.allocated + 16 } := hg
    refine Ends.bind (write_owned hg' _ _) fun h1 k1 => ?_
    have h1o := hg'.heap k1
    refine Ends.ite (Ends.any fun t => Ends.ite Ends.abort (Ends.bind (write_owned h1o _ _) fun h2 k2 => Ends.ok ?_)) (Ends.ok (h1o.set _ _))
    exact (h1o.heap k2).set _ _
  | push i d =>
    apply lift
    unfold lstPush
    refine Ends.bind (memGet_owned h) fun g hg => Ends.any fun l => ?_
    have hg' : Owned { g.1 with allocated := g.1.allocated + 16 } := hg
    exact Ends.bind (write_owned hg' _ _) fun h1 k1 => Ends.ok ((hg'.heap k1).set _ _)
  | pop i =>
    simp only [step]
    unfold lstPop
    exact Ends.any fun l => Ends.ite (Ends.any fun c => Ends.bind (memFree_owned (h.set _ _) _) fun s hs => Ends.ok hs) (Ends.ok h)
  | nthSet i n d =>
    apply lift
    unfold lstNthSet
    exact Ends.any fun l => Ends.ite Ends.fatal (Ends.any fun r => Ends.ite Ends.abort (Ends.any fun c =>
      Ends.bind (write_owned h _ _) fun h1 k1 => Ends.ok (h.heap k1)))
  | truncate i n =>
    apply lift
    unfold lstTruncate
    refine Ends.any fun l => Ends.ite (Ends.ok h) (Ends.ite ?_ ?_)
    · exact Ends.bind (freeRest_owned _ (h.set _ _) _) fun r hr => Ends.ite Ends.abort (Ends.ok (hr.set _ _))
    · exact Ends.any fun d => Ends.any fun c => Ends.bind (write_owned h _ _) fun h1 k1 =>
        Ends.bind (freeRest_owned _ ((h.heap k1).set _ _) _) fun r hr => Ends.ite Ends.abort (Ends.ok (hr.set _ _))
  | truncatePosition i p =>
    apply lift
    unfold lstTruncatePosition
    refine Ends.any fun l => Ends.ite ?_ ?_
    · exact Ends.bind (freeRest_owned _ (h.set _ _) _) fun r hr => Ends.ok (hr.set _ _)
    · exact Ends.any fun c => Ends.bind (write_owned h _ _) fun h1 k1 =>
        Ends.bind (freeRest_owned _ ((h.heap k1).set _ _) _) fun r hr => Ends.ok (hr.set _ _)
  | setPosition p d =>
    apply lift
    unfold lstSetPosition
    exact Ends.ite (Ends.ok h) (Ends.any fun c => Ends.bind (write_owned h _ _) fun h1 k1 => Ends.ok (h.heap k1))
  | totalAllocated => exact Ends.ok h
  | shutdown =>
    apply lift
    unfold lstShutdown
    split
    · exact Ends.ok h
    · rename_i p hp
      intro s e
      simp only [Objects.destroy] at e
      cases hd : Objects.destroyLoop p.allocated σ.heap with
      | ok h' =>
        rw [hd] at e
        simp only [Res.bind, Res.ok.injEq] at e
        subst e
        intro a ha
        simp only at ha
        exfalso
        have key : ∀ (l : List Nat) (h0 h1 : Heap Nat), Objects.destroyLoop l h0 = .ok h1 → ∀ a, (h1.mem a).isSome → (h0.mem a).isSome ∧ a ∉ l := by
          intro l
          induction l with
          | nil => intro h0 h1 e a ha; cases e; exact ⟨ha, by simp⟩
          | cons q l ih =>
            intro h0 h1 e a ha
            simp only [Objects.destroyLoop] at e
            unfold Heap.free at e
            cases hq : h0.mem q with
            | none => rw [hq] at e; simp [Res.bind] at e
            | some c =>
              rw [hq] at e
              simp only [Res.bind] at e
              obtain ⟨i1, i2⟩ := ih _ _ e a ha
              simp only at i1
              by_cases haq : a = q
              · rw [if_pos haq] at i1; simp at i1
              · rw [if_neg haq] at i1
                exact ⟨i1, by simp [haq, i2]⟩
        obtain ⟨k1, k2⟩ := key _ _ _ hd a ha
        obtain ⟨p', hp', hm⟩ := h a k1
        rw [hp] at hp'
        cases hp'
        exact k2 hm
      | _ => rw [hd] at e; simp [Res.bind] at e
  | _ => exact same

theorem run_owned (hist : List LstOp) : ∀ {σ σ' : State} {xs : List Nat}, Owned σ → Spec.run step σ hist = .ok (σ', xs) → Owned σ' := by
  induction hist with
  | nil => intro σ σ' xs h e; simp only [Spec.run, Res.ok.injEq, Prod.mk.injEq] at e; exact e.1 ▸ h
  | cons o os ih =>
    intro σ σ' xs h e
    simp only [Spec.run] at e
    cases hs : step σ o with
    | ok r =>
      rw [hs] at e
      simp only [Res.bind] at e
      cases hr : Spec.run step r.1 os with
      | ok q =>
        rw [hr] at e
        simp only [Res.ok.injEq, Prod.mk.injEq] at e
        exact e.1 ▸ ih (step_owned h o r hs) (by rw [hr])
      | _ => rw [hr] at e; simp at e
    | _ => rw [hs] at e; simp [Res.bind] at e

theorem init_owned {place : Policy} : Owned (State.init place) := by intro a ha; simp [State.init, Heap.init] at ha

end Maa.Lst
