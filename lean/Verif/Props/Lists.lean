import Verif.Lemmas.Lists

/-! # Properties C18-C21: maa/list.c -/

namespace Maa.Lst

open Spec (Lists LstOp)

/-- C18: for every history of calls on any number of lists (`lst_truncate` only with lengths 0 and 1, see
C19) all returned values and all terminations are those of independent sequences (Spec/Lists.lean),
whatever addresses the allocator chooses. -/
theorem C18_lists_are_sequences (place : Policy) (hp : Heap.Allocator place) (hist : List LstOp)
    (ht : ∀ o ∈ hist, match o with | .truncate _ n => n ≤ 1 | _ => True) :
    ∃ T, Lists.Runs Lists.empty hist (Spec.observe (Spec.run step (State.init place) hist)) T := by
  obtain ⟨T, h, -⟩ := run_good hist (init_rep hp) (fun o ho => by
    have := ht o ho
    cases o <;> simp only [TruncateOk] at this ⊢
    exact this)
  exact ⟨T, h⟩

/-- What a user sees of list `i`: the positions and data the loop `LST_ITERATE` (maa/maa.h:296-299) visits. -/
def listing (σ : State) (i : Nat) : Res (List (Nat × Nat)) :=
  (lstInitPosition σ i).bind fun p => positionLoop σ σ.heap.clock p

/-- `Follows σ S hist σ' S'`: the library is in state `σ`, the documentation says the lists are `S`; every
call of `hist` has a documented meaning and returned as documented; now the library is in state `σ'` and
the lists ought to be `S'` (with the positions the user sees). -/
inductive Follows : State → Lists → List LstOp → State → Lists → Prop where
  | nil (σ S) : Follows σ S [] σ S
  | cons {σ S σ₁ S₁ σ' S' : _} {o : LstOp} {os : List LstOp} {x : Nat} :
      ¬ S.Undefined o → step σ o = .ok (σ₁, x) → S.Allowed (.ok (S₁, x)) o →
      (∀ i l, S₁.lists i = some l → listing σ₁ i = .ok l) → Follows σ₁ S₁ os σ' S' → Follows σ S (o :: os) σ' S'

/-- States reachable from program start by documented calls. -/
def Reachable (σ : State) (S : Lists) : Prop :=
  ∃ place hist, Heap.Allocator place ∧ Follows (State.init place) Lists.empty hist σ S

theorem positionLoop_ok (σ : State) (l : List (Nat × Nat)) : ∀ (n p : Nat), l.length < n →
    Heap.Chain σ.heap.mem p l → positionLoop σ n p = .ok l := by
  induction l with
  | nil =>
    intro n p hn hc
    obtain ⟨k, rfl⟩ : ∃ k, n = k + 1 := ⟨n - 1, by omega⟩
    have : p = 0 := hc
    simp [positionLoop, this]
  | cons c l ih =>
    intro n p hn hc
    obtain ⟨k, rfl⟩ : ∃ k, n = k + 1 := ⟨n - 1, by omega⟩
    obtain ⟨a, x⟩ := c
    obtain ⟨rfl, h0, nx, h1, h2⟩ := hc
    simp only [positionLoop, h0, if_false, lstGetPosition, lstNextPosition, Heap.read_ok h1, Res.bind]
    rw [ih k nx (by simp at hn; omega) h2]

theorem Rep.listing {σ : State} {S : Lists} (r : Rep σ S) {i : Nat} {l} (h : S.lists i = some l) (h0 : i ≠ 0) :
    listing σ i = .ok l := by
  obtain ⟨ob, hob, l1, l2, l3⟩ := r.list i l h
  simp only [Lst.listing, lstInitPosition, check_some h0 hob, Res.bind]
  exact positionLoop_ok σ l _ _ (Heap.Chain.length_lt r.ok l1) l1

theorem inj_of_nodup {b b' a a' : List (Nat × Nat)} {p d d' : Nat}
    (hnd : (pos (b ++ (p, d) :: a)).Nodup) (he : b ++ (p, d) :: a = b' ++ (p, d') :: a') : b = b' ∧ d = d' ∧ a = a' := by
  induction b generalizing b' with
  | nil =>
    cases b' with
    | nil => simp at he; exact ⟨rfl, he.1, he.2⟩
    | cons c b' =>
      simp only [List.nil_append, List.cons_append, List.cons.injEq] at he
      simp only [List.nil_append, List.map_cons, List.nodup_cons] at hnd
      rw [he.2] at hnd
      simp at hnd
  | cons c b ih =>
    cases b' with
    | nil =>
      simp only [List.nil_append, List.cons_append, List.cons.injEq] at he
      simp only [List.cons_append, List.map_cons, List.nodup_cons] at hnd
      rw [he.1] at hnd
      simp at hnd
    | cons c' b' =>
      simp only [List.cons_append, List.cons.injEq] at he
      simp only [List.cons_append, List.map_cons, List.nodup_cons] at hnd
      obtain ⟨e1, e2, e3⟩ := ih hnd.2 he.2
      exact ⟨by rw [he.1, e1], e2, e3⟩

/-- what the documentation allows is unique once the positions are known -/
theorem allowed_unique {σ σ' : State} {S S' S'' : Lists} {o : LstOp} {x : Nat} (r : Rep σ S)
    (h1 : S.Allowed (.ok (S', x)) o) (h2 : S.Allowed (.ok (S'', x)) o)
    (m1 : ∀ i l, S'.lists i = some l → listing σ' i = .ok l)
    (r2 : Rep σ' S'') : S' = S'' := by
  have h0 : ∀ i l, S.lists i = some l → ∀ j, j = i → S.lists j = some l := fun i l h j hj => hj ▸ h
  cases o with
  | append i d =>
    simp only [Lists.Allowed] at h1 h2
    split at h1
    · rename_i hi
      simp only [hi, if_true, Res.ok.injEq, Prod.mk.injEq] at h1 h2
      rw [h1.1, h2.1]
    · rename_i hi
      simp only [hi, if_false, Res.ok.injEq, Prod.mk.injEq] at h1 h2
      obtain ⟨l, a, e1, -, -, e2, -⟩ := h1
      obtain ⟨l', a', f1, -, -, f2, -⟩ := h2
      rw [e1] at f1; cases f1
      have g1 := m1 i (l ++ [(a, d)]) (by rw [e2]; simp [Lists.set])
      have g2 := r2.listing (i := i) (l := l ++ [(a', d)]) (by rw [f2]; simp [Lists.set]) hi
      rw [g1] at g2
      simp only [Res.ok.injEq] at g2
      rw [e2, f2, g2]
  | push i d =>
    simp only [Lists.Allowed, Lists.on] at h1 h2
    split at h1
    · simp at h1
    · rename_i hi
      simp only [hi, if_false, Res.ok.injEq, Prod.mk.injEq] at h1 h2
      obtain ⟨l, e1, a, -, -, e2, -⟩ := h1
      obtain ⟨l', f1, a', -, -, f2, -⟩ := h2
      rw [e1] at f1; cases f1
      have g1 := m1 i ((a, d) :: l) (by rw [e2]; simp [Lists.set])
      have g2 := r2.listing (i := i) (l := (a', d) :: l) (by rw [f2]; simp [Lists.set]) hi
      rw [g1] at g2
      simp only [Res.ok.injEq] at g2
      rw [e2, f2, g2]
  | setPosition p e =>
    simp only [Lists.Allowed] at h1 h2
    split at h1
    · rename_i hi
      simp only [hi, if_true, Res.ok.injEq, Prod.mk.injEq] at h1 h2
      rw [h1.1, h2.1]
    · rename_i hi
      simp only [hi, if_false, Res.ok.injEq, Prod.mk.injEq] at h1 h2
      obtain ⟨i, b, d, a, e1, e2, -⟩ := h1
      obtain ⟨i', b', d', a', f1, f2, -⟩ := h2
      by_cases hii : i = i'
      · subst hii
        rw [e1] at f1
        simp only [Option.some.injEq] at f1
        obtain ⟨rfl, rfl, rfl⟩ := inj_of_nodup (r.nodup e1) f1
        rw [e2, f2]
      · exact absurd (by simp) (r.disj i i' _ _ hii e1 f1 p (by simp))
  | truncatePosition i p =>
    simp only [Lists.Allowed, Lists.on] at h1 h2
    split at h1
    · simp at h1
    · rename_i hi
      simp only [hi, if_false] at h1 h2
      obtain ⟨l, e1, e2⟩ := h1
      obtain ⟨l', f1, f2⟩ := h2
      rw [e1] at f1; cases f1
      split at e2
      · rename_i hp
        simp only [hp, if_true, Res.ok.injEq, Prod.mk.injEq] at e2 f2
        rw [e2.1, f2.1]
      · rename_i hp
        simp only [hp, if_false, Res.ok.injEq, Prod.mk.injEq] at e2 f2
        obtain ⟨b, d, a, e3, e4, -⟩ := e2
        obtain ⟨b', d', a', f3, f4, -⟩ := f2
        have hn := r.nodup e1
        rw [e3] at hn f3
        obtain ⟨rfl, rfl, rfl⟩ := inj_of_nodup hn f3
        rw [e4, f4]
  | nextPosition p =>
    simp only [Lists.Allowed] at h1 h2
    split at h1
    · rename_i hi
      simp only [hi, if_true, Res.ok.injEq, Prod.mk.injEq] at h1 h2
      rw [h1.1, h2.1]
    · rename_i hi
      simp only [hi, if_false, Res.ok.injEq, Prod.mk.injEq] at h1 h2
      obtain ⟨i, b, d, a, e1, e2, -⟩ := h1
      obtain ⟨i', b', d', a', f1, f2, -⟩ := h2
      rw [e2, f2]
  | getPosition p =>
    simp only [Lists.Allowed] at h1 h2
    split at h1
    · rename_i hi
      simp only [hi, if_true, Res.ok.injEq, Prod.mk.injEq] at h1 h2
      rw [h1.1, h2.1]
    · rename_i hi
      simp only [hi, if_false, Res.ok.injEq, Prod.mk.injEq] at h1 h2
      obtain ⟨i, b, d, a, e1, e2, -⟩ := h1
      obtain ⟨i', b', d', a', f1, f2, -⟩ := h2
      rw [e2, f2]
  | nthSet i n d =>
    simp only [Lists.Allowed, Lists.on] at h1 h2
    split at h1
    · simp at h1
    · rename_i hi
      simp only [hi, if_false] at h1 h2
      obtain ⟨l, e1, e2⟩ := h1
      obtain ⟨l', f1, f2⟩ := h2
      rw [e1] at f1; cases f1
      cases hn : Spec.nth l n with
      | none => rw [hn] at e2; simp at e2
      | some e =>
        rw [hn] at e2 f2
        simp only [Res.ok.injEq, Prod.mk.injEq] at e2 f2
        rw [e2.1, f2.1]
  | create =>
    simp only [Lists.Allowed, Res.ok.injEq, Prod.mk.injEq] at h1 h2; rw [h1.1, h2.1]
  | totalAllocated =>
    simp only [Lists.Allowed, Res.ok.injEq, Prod.mk.injEq] at h1 h2; rw [h1.1, h2.1]
  | shutdown =>
    simp only [Lists.Allowed, Res.ok.injEq, Prod.mk.injEq] at h1 h2; rw [h1.1, h2.1]
  | _ =>
    simp only [Lists.Allowed, Lists.on] at h1 h2
    split at h1
    · simp at h1
    · rename_i hi
      simp only [hi, if_false] at h1 h2
      obtain ⟨l, e1, e2⟩ := h1
      obtain ⟨l', f1, f2⟩ := h2
      rw [e1] at f1; cases f1
      simp only [Res.ok.injEq, Prod.mk.injEq] at e2 f2
      rw [e2.1, f2.1]

theorem goodOr {σ : State} {S : Lists} (r : Rep σ S) (o : LstOp) (hs : step σ o ≠ .ub) (hu : ¬ S.Undefined o) : Good σ S o := by
  cases o with
  | truncate i n =>
    refine truncate_good r i n ?_
    by_contra hc
    push Not at hc
    obtain ⟨h1, l, h2, h3⟩ := hc
    by_cases h0 : i = 0
    · rw [h0, r.null] at h2; cases h2
    · exact hs (truncate_bad r h0 h2 (by omega) (by omega))
  | _ => exact step_good r _ trivial

theorem Follows.rep {σ σ' : State} {S S' : Lists} {hist : List LstOp} (f : Follows σ S hist σ' S') (r : Rep σ S) :
    Rep σ' S' := by
  induction f with
  | nil => exact r
  | cons h1 h2 h3 h4 _ ih =>
    apply ih
    rcases goodOr r _ (by rw [h2]; simp) h1 with h | ⟨σ₂, S₂, y, e1, e2, e3⟩ | ⟨e1, -⟩ | ⟨e1, -⟩
    · exact absurd h h1
    · rw [h2] at e1
      simp only [Res.ok.injEq, Prod.mk.injEq] at e1
      obtain ⟨rfl, rfl⟩ := e1
      rw [allowed_unique r h3 e2 h4 e3]
      exact e3
    · rw [h2] at e1; simp at e1
    · rw [h2] at e1; simp at e1

theorem Reachable.rep {σ : State} {S : Lists} (h : Reachable σ S) : Rep σ S := by
  obtain ⟨place, hist, hp, f⟩ := h
  exact f.rep (init_rep hp)

theorem Follows.snoc {σ S hist σ₁ S₁ σ₂ S₂} {o : LstOp} {x : Nat} (f : Follows σ S hist σ₁ S₁) (h1 : ¬ S₁.Undefined o)
    (h2 : step σ₁ o = .ok (σ₂, x)) (h3 : S₁.Allowed (.ok (S₂, x)) o)
    (h4 : ∀ i l, S₂.lists i = some l → listing σ₂ i = .ok l) : Follows σ S (hist ++ [o]) σ₂ S₂ := by
  induction f with
  | nil => exact .cons h1 h2 h3 h4 (.nil _ _)
  | cons g1 g2 g3 g4 _ ih => exact .cons g1 g2 g3 g4 (ih h1 h2 h3)

theorem Rep.match {σ : State} {S : Lists} (r : Rep σ S) (i l) (h : S.lists i = some l) : Lst.listing σ i = .ok l := by
  refine r.listing h ?_
  rintro rfl
  rw [r.null] at h; cases h

/-- C18, one call: in every reachable state every documented call (`lst_truncate`: see C19) does what the
documentation says, and leads to a reachable state in which every list is what it ought to be. -/
theorem C18_every_call (σ : State) (S : Lists) (h : Reachable σ S) (o : LstOp) (hu : ¬ S.Undefined o)
    (ht : ∀ i n, o = .truncate i n → n ≤ 1 ∨ ∀ l, S.lists i = some l → l.length ≤ n) :
    (∃ σ' S' x, step σ o = .ok (σ', x) ∧ S.Allowed (.ok (S', x)) o ∧ Reachable σ' S' ∧
        ∀ i l, S'.lists i = some l → listing σ' i = .ok l) ∨
    (step σ o = .abort ∧ S.Allowed .abort o) ∨ (step σ o = .fatal ∧ S.Allowed .fatal o) := by
  have r := h.rep
  have hg : Good σ S o := by
    cases o with
    | truncate i n => exact truncate_good r i n (ht i n rfl)
    | _ => exact step_good r _ trivial
  rcases hg with h1 | ⟨σ', S', x, e1, e2, e3⟩ | h1 | h1
  · exact absurd h1 hu
  · obtain ⟨place, hist, hp, f⟩ := h
    exact Or.inl ⟨σ', S', x, e1, e2, ⟨place, _, hp, f.snoc hu e1 e2 e3.match⟩, e3.match⟩
  · exact Or.inr (Or.inl h1)
  · exact Or.inr (Or.inr h1)

/-- C19, the part that holds: `lst_truncate(l, n)` keeps exactly the first `n` elements and changes no other
list, provided `n ≤ 1` or the list has at most `n` elements.  Missing: `1 < n < length`, where the
property is false (`C19_refuted`). -/
theorem C19_truncate_partial (σ : State) (S : Lists) (h : Reachable σ S) (i n : Nat) (l : List (Nat × Nat))
    (hl : S.lists i = some l) (hn : n ≤ 1 ∨ l.length ≤ n) :
    ∃ σ', step σ (.truncate i n) = .ok (σ', 0) ∧ listing σ' i = .ok (l.take n) ∧
      ∀ j lj, j ≠ i → S.lists j = some lj → listing σ' j = .ok lj := by
  have r := h.rep
  have h0 : i ≠ 0 := by rintro rfl; rw [r.null] at hl; cases hl
  have hu : ¬ S.Undefined (.truncate i n) := by
    rintro (⟨j, h1, -, h3⟩ | h1)
    · simp only [LstOp.handle, Option.some.injEq] at h1; rw [← h1, hl] at h3; cases h3
    · exact h1
  rcases C18_every_call σ S h _ hu (fun j m e => by
      cases e
      rcases hn with hn | hn
      · exact Or.inl hn
      · exact Or.inr (fun l' h' => by rw [hl] at h'; cases h'; exact hn)) with
    ⟨σ', S', x, e1, e2, e3, e4⟩ | ⟨-, e⟩ | ⟨-, e⟩
  · simp only [Lists.Allowed, Lists.on, h0, if_false, Res.ok.injEq, Prod.mk.injEq] at e2
    obtain ⟨l', f1, f2, f3⟩ := e2
    rw [hl] at f1; cases f1
    subst f3
    refine ⟨σ', e1, e4 _ _ (by rw [f2]; simp [Lists.set]), ?_⟩
    intro j lj hj hlj
    exact e4 j lj (by rw [f2]; simp [Lists.set, hj, hlj])
  · simp [Lists.Allowed, Lists.on, h0] at e
  · simp [Lists.Allowed, Lists.on, h0] at e

/-- C19 is false of the code otherwise: truncating a list to more than one element, when there is something
to remove, dereferences NULL (the loop at maa/list.c:293 never increments `i`). -/
theorem C19_refuted (σ : State) (S : Lists) (h : Reachable σ S) (i n : Nat) (l : List (Nat × Nat))
    (hl : S.lists i = some l) (h1 : 1 < n) (h2 : n < l.length) : step σ (.truncate i n) = .ub := by
  have r := h.rep
  exact truncate_bad r (by rintro rfl; rw [r.null] at hl; cases hl) hl h1 h2

/-- A concrete program on which `lst_truncate` fails. -/
theorem C19_refuted_example : Spec.run step State.init
    [.create, .append 1 10, .append 1 20, .append 1 30, .truncate 1 2] = .ub :=
  Res.eq_ub_of (by decide +kernel)

/-- Calls that leave the first elements of list `i` alone: appending to it, looking at it, anything done to
other lists. -/
def KeepsPrefix (i : Nat) : LstOp → Prop
  | .append _ _ | .top _ | .nthGet _ _ | .member _ _ | .length _ | .initPosition _ | .lastPosition _
  | .nextPosition _ | .nthPosition _ _ | .getPosition _ | .totalAllocated | .create => True
  | .destroy j | .push j _ | .pop j | .nthSet j _ _ | .truncate j _ | .truncatePosition j _ => j ≠ i
  | .setPosition _ _ | .shutdown => False

theorem keeps {S S' : Lists} {o : LstOp} {x i : Nat} {l s : List (Nat × Nat)} (hk : KeepsPrefix i o)
    (ha : S.Allowed (.ok (S', x)) o) (hl : S.lists i = some (l ++ s)) (hn : i < S.next) :
    ∃ s', S'.lists i = some (l ++ s') := by
  have other : ∀ {j : Nat} {lx}, j ≠ i → S' = S.set j lx → ∃ s', S'.lists i = some (l ++ s') := by
    intro j lx hj he
    refine ⟨s, ?_⟩
    rw [he]
    have : i ≠ j := fun h => hj h.symm
    simp [Lists.set, this, hl]
  cases o with
  | append j d =>
    simp only [Lists.Allowed] at ha
    split at ha
    · simp only [Res.ok.injEq, Prod.mk.injEq] at ha; exact ⟨s, by rw [ha.1]; exact hl⟩
    · simp only [Res.ok.injEq, Prod.mk.injEq] at ha
      obtain ⟨l', a, e1, -, -, e2, -⟩ := ha
      by_cases hj : j = i
      · subst hj
        rw [hl] at e1; cases e1
        exact ⟨s ++ [(a, d)], by rw [e2]; simp [Lists.set]⟩
      · refine ⟨s, ?_⟩
        have : i ≠ j := fun h => hj h.symm
        rw [e2]; simp [Lists.set, this, hl]
  | push j d =>
    simp only [Lists.Allowed, Lists.on] at ha
    split at ha
    · simp at ha
    · simp only [Res.ok.injEq, Prod.mk.injEq] at ha
      obtain ⟨l', e1, a, -, -, e2, -⟩ := ha
      refine ⟨s, ?_⟩
      have : i ≠ j := fun h => hk h.symm
      rw [e2]; simp [Lists.set, this, hl]
  | create =>
    simp only [Lists.Allowed, Res.ok.injEq, Prod.mk.injEq] at ha
    refine ⟨s, ?_⟩
    rw [ha.1]
    simp only
    rw [if_neg (by omega)]; exact hl
  | destroy j =>
    simp only [Lists.Allowed, Lists.on] at ha
    split at ha
    · simp at ha
    · simp only [Res.ok.injEq, Prod.mk.injEq] at ha
      obtain ⟨_, _, e2, -⟩ := ha
      exact other hk e2
  | pop j =>
    simp only [Lists.Allowed, Lists.on] at ha
    split at ha
    · simp at ha
    · simp only [Res.ok.injEq, Prod.mk.injEq] at ha
      obtain ⟨_, _, e2, -⟩ := ha
      exact other hk e2
  | truncate j n =>
    simp only [Lists.Allowed, Lists.on] at ha
    split at ha
    · simp at ha
    · simp only [Res.ok.injEq, Prod.mk.injEq] at ha
      obtain ⟨_, _, e2, -⟩ := ha
      exact other hk e2
  | nthSet j n d =>
    simp only [Lists.Allowed, Lists.on] at ha
    split at ha
    · simp at ha
    · obtain ⟨l', _, e2⟩ := ha
      cases hn : Spec.nth l' n with
      | none => rw [hn] at e2; simp at e2
      | some e =>
        rw [hn] at e2
        simp only [Res.ok.injEq, Prod.mk.injEq] at e2
        exact other hk e2.1
  | truncatePosition j p =>
    simp only [Lists.Allowed, Lists.on] at ha
    split at ha
    · simp at ha
    · obtain ⟨l', _, e2⟩ := ha
      split at e2
      · simp only [Res.ok.injEq, Prod.mk.injEq] at e2; exact other hk e2.1
      · obtain ⟨b, d, a, -, e3⟩ := e2
        simp only [Res.ok.injEq, Prod.mk.injEq] at e3; exact other hk e3.1
  | setPosition p d => exact hk.elim
  | shutdown => exact hk.elim
  | totalAllocated => simp only [Lists.Allowed, Res.ok.injEq, Prod.mk.injEq] at ha; exact ⟨s, by rw [ha.1]; exact hl⟩
  | nextPosition p =>
    simp only [Lists.Allowed] at ha
    split at ha
    · simp only [Res.ok.injEq, Prod.mk.injEq] at ha; exact ⟨s, by rw [ha.1]; exact hl⟩
    · simp only [Res.ok.injEq, Prod.mk.injEq] at ha
      obtain ⟨_, _, _, _, _, e, -⟩ := ha
      exact ⟨s, by rw [e]; exact hl⟩
  | getPosition p =>
    simp only [Lists.Allowed] at ha
    split at ha
    · simp only [Res.ok.injEq, Prod.mk.injEq] at ha; exact ⟨s, by rw [ha.1]; exact hl⟩
    · simp only [Res.ok.injEq, Prod.mk.injEq] at ha
      obtain ⟨_, _, _, _, _, e, -⟩ := ha
      exact ⟨s, by rw [e]; exact hl⟩
  | _ =>
    simp only [Lists.Allowed, Lists.on] at ha
    split at ha
    · simp at ha
    · simp only [Res.ok.injEq, Prod.mk.injEq] at ha
      obtain ⟨_, _, e2, -⟩ := ha
      exact ⟨s, by rw [e2]; exact hl⟩

theorem keeps_all {σ σ' : State} {S S' : Lists} {hist : List LstOp} (f : Follows σ S hist σ' S') (r : Rep σ S)
    {i : Nat} {l s : List (Nat × Nat)} (hk : ∀ o ∈ hist, KeepsPrefix i o) (hl : S.lists i = some (l ++ s)) :
    ∃ s', S'.lists i = some (l ++ s') := by
  induction f generalizing s with
  | nil => exact ⟨s, hl⟩
  | @cons σ S σ₁ S₁ σ' S' o os x h1 h2 h3 h4 h5 ih =>
    have hn : i < S.next := by
      by_contra hc
      have := r.old i (by omega)
      rw [hl] at this; cases this
    obtain ⟨s', hs'⟩ := keeps (hk _ (by simp)) h3 hl hn
    refine ih ?_ (fun o ho => hk o (by simp [ho])) hs'
    exact (Follows.cons h1 h2 h3 h4 (.nil _ _)).rep r

/-- C20: take `p = lst_last_position(l)` in any reachable state; after any number of appends to the list
(and of calls that only look at it or concern other lists), `lst_truncate_position(l, p)` brings back the
contents the list had when `p` was taken.  (An empty list gives `p` = NULL, and the list is emptied.) -/
theorem C20_truncate_position_restores (σ : State) (S : Lists) (h : Reachable σ S) (i : Nat)
    (l : List (Nat × Nat)) (hl : S.lists i = some l) :
    ∃ p, step σ (.lastPosition i) = .ok (σ, p) ∧
      ∀ hist σ₁ S₁, Follows σ S hist σ₁ S₁ → (∀ o ∈ hist, KeepsPrefix i o) →
        ∃ σ₂, step σ₁ (.truncatePosition i p) = .ok (σ₂, 0) ∧ listing σ₂ i = listing σ i ∧
          ∀ j lj, j ≠ i → S₁.lists j = some lj → listing σ₂ j = .ok lj := by
  have r := h.rep
  have h0 : i ≠ 0 := by rintro rfl; rw [r.null] at hl; cases hl
  obtain ⟨ob, hob, l1, l2, l3⟩ := r.list i l hl
  refine ⟨Spec.lastPos l, by simp [step, lstLastPosition, check_some h0 hob, Res.bind, l2], ?_⟩
  intro hist σ₁ S₁ f hk
  have r1 := f.rep r
  obtain ⟨s, hs⟩ := keeps_all f r (s := []) hk (by simpa using hl)
  rw [r.match i l hl]
  rcases nil_or_snoc l with rfl | ⟨l', ⟨t, x⟩, rfl⟩
  · obtain ⟨ob1, hob1, -⟩ := r1.list i _ hs
    obtain ⟨m, e1, e2⟩ := clear_rep r1 hs hob1
    refine ⟨_, ?_, e2.match i [] (by simp [Lists.set]), ?_⟩
    · simp only [step, lstTruncatePosition, check_some h0 hob1, Res.bind, Spec.lastPos]
      simp only [List.getLast?_nil, Option.map_none, Option.getD_none, if_true, e1]
    · intro j lj hj hlj
      exact e2.match j lj (by simp [Lists.set, hj, hlj])
  · rw [lastPos_snoc]
    obtain ⟨ob1, hob1, -⟩ := r1.list i _ hs
    rw [List.append_assoc, List.singleton_append] at hs
    obtain ⟨nx, h', m, e1, e2, e3, e4⟩ := cut_rep r1 hs hob1
    have ht : t ≠ 0 := (Heap.Seg.live l1 t (by simp)).2
    refine ⟨_, ?_, e4.match i _ (by simp [Lists.set]), ?_⟩
    · simp only [step, lstTruncatePosition, check_some h0 hob1, Res.bind, ht, if_false, Heap.read_ok e1, e2, e3]
    · intro j lj hj hlj
      exact e4.match j lj (by simp [Lists.set, hj, hlj])

/-- What calling an iterator on a sequence of data does: in order, until it returns non-zero. -/
def visit {τ : Type} (f : τ → Nat → τ × Int) : List Nat → τ → τ × Int
  | [], t => (t, 0)
  | d :: ds, t => if (f t d).2 ≠ 0 then ((f t d).1, 1) else visit f ds (f t d).1

theorem iterateLoop_ok {τ : Type} (f : τ → Nat → τ × Int) (h : Heap Nat) (l : List (Nat × Nat)) : ∀ (n d : Nat) (t : τ),
    l.length < n → Heap.Chain h.mem d l → iterateLoop f n h d t = .ok (visit f (l.map Prod.snd) t) := by
  induction l with
  | nil =>
    intro n d t hn hc
    obtain ⟨k, rfl⟩ : ∃ k, n = k + 1 := ⟨n - 1, by omega⟩
    have : d = 0 := hc
    simp [iterateLoop, this, visit]
  | cons c l ih =>
    intro n d t hn hc
    obtain ⟨k, rfl⟩ : ∃ k, n = k + 1 := ⟨n - 1, by omega⟩
    obtain ⟨a, x⟩ := c
    obtain ⟨rfl, h0, nx, h1, h2⟩ := hc
    simp only [iterateLoop, h0, if_false, Heap.read_ok h1, Res.bind, List.map_cons, visit]
    split
    · rfl
    · exact ih k nx _ (by simp at hn; omega) h2

/-- C21: in every reachable state, the positions of a list, followed with `lst_init_position` /
`lst_next_position` / `lst_get_position`, are its elements in order, ended by NULL (`listing`), all
positions being different; `lst_nth_position` is the `n`-th of them; `lst_iterate` and `lst_iterate_arg`
call any iterator on the data in order until it returns non-zero. -/
theorem C21_positions (σ : State) (S : Lists) (h : Reachable σ S) (i : Nat) (l : List (Nat × Nat))
    (hl : S.lists i = some l) :
    listing σ i = .ok l ∧ (l.map Prod.fst).Nodup ∧ (∀ p ∈ l.map Prod.fst, p ≠ 0) ∧
    (∀ n, step σ (.nthPosition i n) = .ok (σ, if n = 0 then 0 else ((l[n - 1]?).map Prod.fst).getD 0)) ∧
    (∀ (τ : Type) (f : τ → Nat → τ × Int) (t : τ), lstIterate σ i f t = .ok (visit f (l.map Prod.snd) t)) := by
  have r := h.rep
  have h0 : i ≠ 0 := by rintro rfl; rw [r.null] at hl; cases hl
  obtain ⟨ob, hob, l1, l2, l3⟩ := r.list i l hl
  refine ⟨r.match i l hl, r.nodup hl, fun p hp => (Heap.Seg.live l1 p hp).2, ?_, ?_⟩
  · intro n
    have e : (if n = 0 then 0 else ((l[n - 1]?).map Prod.fst).getD 0) = ((Spec.nth l n).map Prod.fst).getD 0 := by
      simp only [Spec.nth]; split <;> rfl
    rw [e]
    have hu : ¬ S.Undefined (.nthPosition i n) := by
      rintro (⟨j, h1, -, h3⟩ | h1)
      · simp only [LstOp.handle, Option.some.injEq] at h1; rw [← h1, hl] at h3; cases h3
      · exact h1
    by_cases hn : n < 1 ∨ n > ob.count
    · rw [nth_none ⟨l1, l2, l3⟩ hn]
      simp only [step, lstNthPosition, check_some h0 hob, Res.bind, if_pos hn]; rfl
    · obtain ⟨b, p, x, a, e1, e2, e3, e4, nx, e5⟩ := nth_found ⟨l1, l2, l3⟩ hn
      rw [e3]
      simp only [step, lstNthPosition, check_some h0 hob, Res.bind, if_neg hn, e4, ne_eq, not_true_eq_false, if_false]; rfl
  · intro τ f t
    simp only [lstIterate, check_some h0 hob, Res.bind]
    exact iterateLoop_ok f σ.heap l _ _ t (Heap.Chain.length_lt r.ok l1) l1

/-- C21, changing an element: `lst_set_position` changes the datum at that position and nothing else, in
any list. -/
theorem C21_set_position (σ : State) (S : Lists) (h : Reachable σ S) (i p d e : Nat) (before after : List (Nat × Nat))
    (hl : S.lists i = some (before ++ (p, d) :: after)) :
    ∃ σ', step σ (.setPosition p e) = .ok (σ', 0) ∧ listing σ' i = .ok (before ++ (p, e) :: after) ∧
      ∀ j lj, j ≠ i → S.lists j = some lj → listing σ' j = .ok lj := by
  have r := h.rep
  obtain ⟨ob, hob, l1, l2, l3⟩ := r.list i _ hl
  obtain ⟨n, c1, c2, c3, c4⟩ := Heap.Seg.cell l1
  obtain ⟨h', w1, w2⟩ := poke_rep r (e := e) hl c1
  refine ⟨_, by simp only [step, lstSetPosition, c3, if_false, Res.bind, Heap.read_ok c1, w1], w2.match i _ (by simp [Lists.set]), ?_⟩
  intro j lj hj hlj
  exact w2.match j lj (by simp [Lists.set, hj, hlj])

/-- Non-vacuity: a history with two lists, positions, truncation to one element and node reuse. -/
example : Spec.observe (Spec.run step State.init
    [.create, .create, .append 1 10, .push 1 5, .append 2 7, .lastPosition 1, .append 1 20, .append 1 30, .length 1,
     .nthGet 1 4, .nthGet 1 5, .truncatePosition 1 1, .append 2 8, .nthPosition 2 2, .getPosition 1, .pop 1, .pop 1, .pop 1,
     .truncate 2 1, .length 2, .member 2 7, .top 2, .totalAllocated, .shutdown]) =
    .ok [1, 2, 0, 0, 0, 1, 0, 0, 4, 30, 0, 0, 0, 5, 10, 5, 10, 0, 0, 1, 1, 7, 160, 0] := by rfl

theorem Reachable.append {σ : State} {S : Lists} (h : Reachable σ S) {i d : Nat} {l} (hl : S.lists i = some l)
    (ha : S.alive = true) : ∃ σ' S' a, Reachable σ' S' ∧ S'.lists i = some (l ++ [(a, d)]) ∧ S'.alive = true := by
  have h0 : i ≠ 0 := by rintro rfl; rw [h.rep.null] at hl; cases hl
  rcases C18_every_call σ S h (.append i d) (by
      rintro (⟨j, h1, -, h3⟩ | h1)
      · simp only [LstOp.handle, Option.some.injEq] at h1; rw [← h1, hl] at h3; cases h3
      · rw [ha] at h1; simp at h1) (by simp) with ⟨σ', S', x, e1, e2, e3, e4⟩ | ⟨-, e⟩ | ⟨-, e⟩
  · simp only [Lists.Allowed, h0, if_false, Res.ok.injEq, Prod.mk.injEq] at e2
    obtain ⟨l', a, f1, -, -, f2, -⟩ := e2
    rw [hl] at f1; cases f1
    exact ⟨σ', S', a, e3, by rw [f2]; simp [Lists.set], by rw [f2]; exact ha⟩
  · simp [Lists.Allowed, h0] at e
  · simp [Lists.Allowed, h0] at e

/-- Non-vacuity of `Reachable`: a list with three elements (so C19, C20 and C21 apply to it). -/
theorem reachable_three : ∃ σ S a b c, Reachable σ S ∧ S.lists 1 = some [(a, 10), (b, 20), (c, 30)] := by
  rcases C18_every_call State.init Lists.empty ⟨_, [], Heap.neverAgain_ok, .nil _ _⟩ .create (by
      rintro (⟨j, h1, -⟩ | h1)
      · simp [LstOp.handle] at h1
      · exact h1) (by simp) with ⟨σ, S, x, e1, e2, e3, e4⟩ | ⟨-, e⟩ | ⟨-, e⟩
  · simp only [Lists.Allowed, Res.ok.injEq, Prod.mk.injEq] at e2
    obtain ⟨σ1, S1, a, r1, l1, a1⟩ := e3.append (i := 1) (d := 10) (l := []) (by rw [e2.1]; rfl) (by rw [e2.1])
    obtain ⟨σ2, S2, b, r2, l2, a2⟩ := r1.append (i := 1) (d := 20) l1 a1
    obtain ⟨σ3, S3, c, r3, l3, a3⟩ := r2.append (i := 1) (d := 30) l2 a2
    exact ⟨σ3, S3, a, b, c, r3, by simpa using l3⟩
  · simp [Lists.Allowed] at e
  · simp [Lists.Allowed] at e

end Maa.Lst
