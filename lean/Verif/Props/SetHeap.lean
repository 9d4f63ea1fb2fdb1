import Verif.Lemmas.SetAlias
import Verif.Props.Set

/-! # Properties C11, C12, C13: all sets of a program in one memory (maa/set.c)

Model/SetHeap.lean keeps the chains of all sets in one memory, so that set_add, set_del, set_union, set_inter, set_diff and set_equal
walk the chains of one set while they change, or reorder, another one — or the same one. -/

namespace Maa.SetHeap

open Set (FnEnv)

variable {K : Type} {env : FnEnv K}

theorem history_full {place : Policy} (hp : Heap.Allocator place) (hist : List (Spec.SetOp K)) (ok : ∀ o ∈ hist, Set.OkOp env o) :
    Spec.ResRel (fun c b => c.2 = b.2 ∧ Full env c.1 b.1) (Spec.run (hsetStep env) (HStore.empty place) hist)
      (Spec.run (Spec.setStep (Set.eqOf env)) Spec.AStore.empty hist) :=
  Spec.run_sim_of (Set.OkOp env) (Full env) _ _ (fun _ _ o ho h => h.step o ho) _ _ hist ok (Full.empty hp)

/-- C11, C12, C13, C14 for all sets of a program in one memory: every history of calls — any number of sets, the two operands of
set_union, set_inter, set_diff and set_equal different or the same — returns what mathematical sets return and ends where they end,
whatever addresses the allocator chooses. -/
theorem C11_pointers_many (place : Policy) (hp : Heap.Allocator place) (env : FnEnv K)
    (hist : List (Spec.SetOp K)) (ok : ∀ o ∈ hist, Set.OkOp env o) :
    Spec.observe (Spec.run (hsetStep env) (HStore.empty place) hist) =
      Spec.observe (Spec.run (Spec.setStep (Set.eqOf env)) Spec.AStore.empty hist) :=
  (history_full hp hist ok).observe

/-- C11, memory: after any history every live cell belongs to exactly one live set, so that nothing is lost and nothing is shared; when
all sets have been destroyed, no cell is left. -/
theorem C11_pointers_many_memory (place : Policy) (hp : Heap.Allocator place) (env : FnEnv K)
    (hist : List (Spec.SetOp K)) (ok : ∀ o ∈ hist, Set.OkOp env o) (s : HStore K) (outs : List Int)
    (hr : Spec.run (hsetStep env) (HStore.empty place) hist = .ok (s, outs)) :
    (∀ a, (s.heap.mem a).isSome ↔ ∃ i t, s.sets i = some t ∧ Spec.InChains s.heap t.tab a) ∧
    (∀ i j t u a, s.sets i = some t → s.sets j = some u → Spec.InChains s.heap t.tab a → Spec.InChains s.heap u.tab a → i = j) ∧
    ((∀ i, s.sets i = none) → ∀ a, s.heap.mem a = none) := by
  have h := history_full hp hist ok
  rw [hr] at h
  cases hb : Spec.run (Spec.setStep (Set.eqOf env)) Spec.AStore.empty hist <;> rw [hb] at h <;> simp only [Spec.ResRel] at h
  obtain ⟨-, σ, A, r, -⟩ := h
  obtain ⟨m1, m2, m3⟩ := r.m.memory
  refine ⟨fun a => (m1 a).trans ⟨?_, ?_⟩, ?_, fun hn => m3 fun i => by simp [hn i]⟩
  · rintro ⟨i, t, h1, h2⟩
    simp only [Option.map_eq_some_iff] at h1
    obtain ⟨t, h3, rfl⟩ := h1
    exact ⟨i, t, h3, h2⟩
  · rintro ⟨i, t, h1, h2⟩
    exact ⟨i, t.tab, by simp [h1], h2⟩
  · intro i j t u a hi hj
    exact m2 i j t.tab u.tab a (by simp [hi]) (by simp [hj])

/-- Non-vacuity: three sets in one memory, growing and shrinking while each other's chains are walked, two of them destroyed. -/
example : Spec.observe (Spec.run (hsetStep Set.exEnv) HStore.empty
    [.create 0 0, .insert 0 1, .insert 0 4, .create 0 0, .insert 1 4, .insert 1 7, .union 0 1, .add 1 0, .del 0 1, .count 0, .count 1, .equal 1 2,
     .inter 2 2, .destroy 0, .destroy 1]) = .ok [0, 0, 0, 1, 0, 0, 2, 1, 0, 0, 3, 1, 3, 0, 0] := by
  rw [C11_pointers_many _ Heap.neverAgain_ok Set.exEnv]
  · rfl
  · intro o ho
    refine ⟨?_, fun h c _ => Set.exEnv_lawful h c⟩
    simp only [List.mem_cons, List.not_mem_nil, or_false] at ho
    rcases ho with rfl | rfl | rfl | rfl | rfl | rfl | rfl | rfl | rfl | rfl | rfl | rfl | rfl | rfl | rfl <;> simp [Spec.SetOp.NoAlias]

/-! ## The same set twice -/

/-- Sets are created with functions obeying the documented contract; nothing else is asked of the calls. -/
def LawfulOp (env : FnEnv K) (o : Spec.SetOp K) : Prop := ∀ h c, o = .create h c → (env.ops h c).Lawful

theorem noAlias_or (o : Spec.SetOp K) : o.NoAlias ∨ ∃ i, o = .add i i ∨ o = .del i i := by
  cases o with
  | add i j =>
    by_cases h : i = j
    · subst h; exact Or.inr ⟨i, Or.inl rfl⟩
    · exact Or.inl h
  | del i j =>
    by_cases h : i = j
    · subst h; exact Or.inr ⟨i, Or.inr rfl⟩
    · exact Or.inl h
  | _ => exact Or.inl trivial

theorem history_any (hist : List (Spec.SetOp K)) : ∀ (s : HStore K) (α : Spec.AStore K), Full env s α → (∀ o ∈ hist, LawfulOp env o) →
    Spec.ResRel (fun c b => c.2 = b.2 ∧ Full env c.1 b.1) (Spec.run (hsetStep env) s hist) (Spec.run (Spec.setStep (Set.eqOf env)) α hist) ∨
    (Spec.run (hsetStep env) s hist = .ub ∧ ∃ o ∈ hist, ¬ o.NoAlias) := by
  induction hist with
  | nil => intro s α f _; exact Or.inl ⟨rfl, f⟩
  | cons o os ih =>
    intro s α f ok
    have hstep : Spec.ResRel (fun c b => c.2 = b.2 ∧ Full env c.1 b.1) (hsetStep env s o) (Spec.setStep (Set.eqOf env) α o) ∨
        (hsetStep env s o = .ub ∧ ¬ o.NoAlias) := by
      by_cases hna : o.NoAlias
      · exact Or.inl (f.step o ⟨hna, ok o (by simp)⟩)
      · rcases noAlias_or o with h | ⟨i, h⟩
        · exact absurd h hna
        · exact (f.self o i h).imp id fun h => ⟨h, hna⟩
    simp only [Spec.run]
    rcases hstep with h | ⟨h1, h2⟩
    · cases ha : hsetStep env s o <;> cases hb : Spec.setStep (Set.eqOf env) α o <;> rw [ha, hb] at h <;> simp only [Spec.ResRel] at h
      · rename_i c b
        simp only [Res.bind]
        rcases ih c.1 b.1 h.2 (fun o ho => ok o (by simp [ho])) with h3 | ⟨h3, o', h4, h5⟩
        · left
          cases hc : Spec.run (hsetStep env) c.1 os <;> cases hd : Spec.run (Spec.setStep (Set.eqOf env)) b.1 os <;> rw [hc, hd] at h3 <;>
            simp only [Spec.ResRel] at h3 ⊢
          exact ⟨by rw [h.1, h3.1], h3.2⟩
        · right
          rw [h3]
          exact ⟨rfl, o', by simp [h4], h5⟩
      all_goals exact Or.inl trivial
    · right
      rw [h1]
      exact ⟨rfl, o, by simp, h2⟩

/-- C13 without any restriction on the arguments: for every history, also one with `set_add(s,s)` and `set_del(s,s)`, the program
behaves like mathematical sets — or it contains such a self-call and uses freed memory.  (The second case is what is missing from the full
property; which self-calls those are is settled by `C13_add_self` and `C13_del_self`.) -/
theorem C13_any_arguments_partial (place : Policy) (hp : Heap.Allocator place) (env : FnEnv K)
    (hist : List (Spec.SetOp K)) (ok : ∀ o ∈ hist, LawfulOp env o) :
    Spec.observe (Spec.run (hsetStep env) (HStore.empty place) hist) = Spec.observe (Spec.run (Spec.setStep (Set.eqOf env)) Spec.AStore.empty hist) ∨
    (Spec.observe (Spec.run (hsetStep env) (HStore.empty place) hist) = .ub ∧ ∃ i, .add i i ∈ hist ∨ .del i i ∈ hist) := by
  rcases history_any hist (HStore.empty place) Spec.AStore.empty (Full.empty hp) ok with h | ⟨h1, o, h2, h3⟩
  · exact Or.inl h.observe
  · right
    refine ⟨by rw [h1]; rfl, ?_⟩
    rcases noAlias_or o with h | ⟨i, rfl | rfl⟩
    · exact absurd h h3
    · exact ⟨i, Or.inl h2⟩
    · exact ⟨i, Or.inr h2⟩

theorem full_of_history {place : Policy} (hp : Heap.Allocator place) {hist : List (Spec.SetOp K)} (ok : ∀ o ∈ hist, LawfulOp env o) {s : HStore K} {outs : List Int}
    (hr : Spec.run (hsetStep env) (HStore.empty place) hist = .ok (s, outs)) : ∃ α, Full env s α := by
  rcases history_any hist (HStore.empty place) Spec.AStore.empty (Full.empty hp) ok with h | ⟨h1, -⟩
  · rw [hr] at h
    cases hb : Spec.run (Spec.setStep (Set.eqOf env)) Spec.AStore.empty hist <;> rw [hb] at h <;> simp only [Spec.ResRel] at h
    exact ⟨_, h.2⟩
  · rw [hr] at h1; simp at h1

/-- C13, `set_add(s,s)` on any reachable set: an empty set stays as it is; a non-empty read-only set aborts; otherwise nothing changes as
long as the set has at most half as many elements as buckets, and freed memory is used when it has more. -/
theorem C13_add_self (place : Policy) (hp : Heap.Allocator place) (env : FnEnv K)
    (hist : List (Spec.SetOp K)) (ok : ∀ o ∈ hist, LawfulOp env o) (s : HStore K) (outs : List Int)
    (hr : Spec.run (hsetStep env) (HStore.empty place) hist = .ok (s, outs)) (i : Nat) (t : HSet) (hi : s.sets i = some t) (n : Nat)
    (hn : hsetStep env s (.count i) = .ok (s, (n : Int))) :
    (n = 0 → hsetStep env s (.add i i) = .ok (s, (i : Int))) ∧
    (n ≠ 0 → t.tab.readonly ≠ 0 → hsetStep env s (.add i i) = .abort) ∧
    (t.tab.readonly = 0 → n * 2 ≤ t.tab.prime → hsetStep env s (.add i i) = .ok (s, (i : Int))) ∧
    (t.tab.readonly = 0 → t.tab.prime < n * 2 → hsetStep env s (.add i i) = .ub) := by
  obtain ⟨α, f⟩ := full_of_history hp ok hr
  obtain ⟨x, a, B, h1, h2, h3, h4⟩ := f.get hi
  have hn' : t.tab.entries = n := by
    simp only [hsetStep, HStore.get, hi, Res.bind, Res.ok.injEq, Prod.mk.injEq, true_and] at hn
    exact_mod_cast hn
  simp only [hsetStep, add_self_cases (A := fun _ => B) hi h2 h3 h4, hn']
  refine ⟨fun h => ?_, fun h h' => ?_, fun h h' => ?_, fun h h' => ?_⟩
  · rw [if_pos h]; rfl
  · rw [if_neg h, if_pos h']; rfl
  · by_cases h0 : n = 0
    · rw [if_pos h0]; rfl
    · rw [if_neg h0, if_neg (by simp [h]), if_pos h']; rfl
  · rw [if_neg (by omega), if_neg (by simp [h]), if_neg (by omega)]; rfl

/-- C13, `set_del(s,s)` on any reachable set: an empty set stays as it is; a non-empty read-only set aborts; any other set makes the call use
freed memory. -/
theorem C13_del_self (place : Policy) (hp : Heap.Allocator place) (env : FnEnv K)
    (hist : List (Spec.SetOp K)) (ok : ∀ o ∈ hist, LawfulOp env o) (s : HStore K) (outs : List Int)
    (hr : Spec.run (hsetStep env) (HStore.empty place) hist = .ok (s, outs)) (i : Nat) (t : HSet) (hi : s.sets i = some t) (n : Nat)
    (hn : hsetStep env s (.count i) = .ok (s, (n : Int))) :
    (n = 0 → hsetStep env s (.del i i) = .ok (s, (i : Int))) ∧
    (n ≠ 0 → t.tab.readonly ≠ 0 → hsetStep env s (.del i i) = .abort) ∧
    (n ≠ 0 → t.tab.readonly = 0 → hsetStep env s (.del i i) = .ub) := by
  obtain ⟨α, f⟩ := full_of_history hp ok hr
  obtain ⟨x, a, B, h1, h2, h3, h4⟩ := f.get hi
  have hn' : t.tab.entries = n := by
    simp only [hsetStep, HStore.get, hi, Res.bind, Res.ok.injEq, Prod.mk.injEq, true_and] at hn
    exact_mod_cast hn
  simp only [hsetStep, del_self_cases (A := fun _ => B) hi h2 h3 h4, hn']
  refine ⟨fun h => ?_, fun h h' => ?_, fun h h' => ?_⟩
  · rw [if_pos h]; rfl
  · rw [if_neg h, if_pos h']; rfl
  · rw [if_neg h, if_neg (by simp [h'])]; rfl

/-- All three kinds of self-call happen: adding a full set to itself uses freed memory, after it has grown the same call changes nothing,
deleting it from itself uses freed memory. -/
example :
    Spec.observe (Spec.run (hsetStep Set.exEnv) HStore.empty [.create 0 0, .insert 0 1, .insert 0 4, .add 0 0]) = .ub ∧
    Spec.observe (Spec.run (hsetStep Set.exEnv) HStore.empty [.create 0 0, .insert 0 1, .insert 0 4, .delete 0 4, .insert 0 1, .add 0 0, .count 0]) =
      .ok [0, 0, 0, 0, 1, 0, 1] ∧
    Spec.observe (Spec.run (hsetStep Set.exEnv) HStore.empty [.create 0 0, .insert 0 1, .del 0 0]) = .ub := by
  refine ⟨?_, ?_, ?_⟩ <;> decide +kernel

/-- Non-vacuity: an allocator that hands out the address freed last, so that a cell of the second set lies where a cell of the first was. -/
example : Heap.Allocator Heap.atOnce ∧
    Spec.observe (Spec.run (hsetStep Set.exEnv) (HStore.empty Heap.atOnce) [.create 0 0, .insert 0 1, .insert 0 4, .delete 0 1, .create 0 0, .insert 1 7,
      .add 1 0, .union 0 1, .count 2, .member 2 7, .member 0 7]) = .ok [0, 0, 0, 0, 1, 0, 1, 2, 2, 1, 0] :=
  ⟨Heap.atOnce_ok, by decide +kernel⟩

end Maa.SetHeap
