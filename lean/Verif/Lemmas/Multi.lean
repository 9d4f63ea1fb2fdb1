import Verif.Lemmas.HashPos
import Verif.Spec.Chains

/-! Several tables in one memory. -/

namespace Maa.HashHeap

open Tab (Entry Tab)
open Heap (Seg Chain)

variable {K D : Type}

/-- Cell `a` belongs to table `i`. -/
def Own (C : Nat → Option (Tab K D)) (A : Nat → Nat → List (Nat × Entry K D)) (i a : Nat) : Prop :=
  ∃ t, C i = some t ∧ Foot t.prime (A i) a

/-- The pointer-level tables `T` in memory `h` store the chain-level tables `C`; `A i` lists the cells of table `i`.  No cell
belongs to two tables, and every cell in memory belongs to one. -/
structure MRep (h : Heap (Entry K D)) (T : Nat → Option HTab) (C : Nat → Option (Tab K D))
    (A : Nat → Nat → List (Nat × Entry K D)) : Prop where
  ok : h.Ok
  dom : ∀ i, (T i).isSome = (C i).isSome
  rep : ∀ i ht t, T i = some ht → C i = some t → HRep h ht t (A i)
  disj : ∀ i j, i ≠ j → ∀ a, Own C A i a → ¬ Own C A j a
  live : ∀ a, (h.mem a).isSome → ∃ i, Own C A i a

/-- Replace one value of a function. -/
def set1 {α : Type} (f : Nat → α) (i : Nat) (x : α) : Nat → α := fun j => if j = i then x else f j

@[simp] theorem set1_same {α : Type} (f : Nat → α) (i : Nat) (x : α) : set1 f i x i = x := by simp [set1]
theorem set1_ne {α : Type} (f : Nat → α) {i j : Nat} (x : α) (h : j ≠ i) : set1 f i x j = f j := by simp [set1, h]

variable {h h' : Heap (Entry K D)} {T : Nat → Option HTab} {C : Nat → Option (Tab K D)}
  {A : Nat → Nat → List (Nat × Entry K D)}

theorem MRep.init {place : Policy} (hp : Heap.Allocator place) :
    MRep (Heap.init place : Heap (Entry K D)) (fun _ => none) (fun _ => none) A where
  ok := Heap.Ok.init hp
  dom _ := rfl
  rep _ _ _ h := by simp at h
  disj _ _ _ _ h := by obtain ⟨t, h, -⟩ := h; simp at h
  live a h := by simp [Heap.init] at h

theorem MRep.get (m : MRep h T C A) {i : Nat} {ht : HTab} (hi : T i = some ht) : ∃ t, C i = some t ∧ HRep h ht t (A i) := by
  have := m.dom i
  rw [hi] at this
  cases hc : C i with
  | none => rw [hc] at this; simp at this
  | some t => exact ⟨t, rfl, m.rep i ht t hi hc⟩

theorem MRep.none_iff (m : MRep h T C A) (i : Nat) : T i = none ↔ C i = none := by
  have := m.dom i
  cases hT : T i <;> cases hC : C i <;> rw [hT, hC] at this <;> simp_all

theorem MRep.own_live (m : MRep h T C A) {i a : Nat} (o : Own C A i a) : (h.mem a).isSome := by
  obtain ⟨t, hc, k, hk, ha⟩ := o
  have hd := m.dom i
  rw [hc] at hd
  cases hT : T i with
  | none => rw [hT] at hd; simp at hd
  | some ht => exact (Seg.live ((m.rep i ht t hT hc).chain k hk) a ha).1

/-- A table in a memory that agrees on its cells. -/
theorem HRep.frame {ht : HTab} {t : Tab K D} {B : Nat → List (Nat × Entry K D)} (r : HRep h ht t B) (ok : h'.Ok)
    (hf : ∀ a, Foot t.prime B a → h'.mem a = h.mem a) : HRep h' ht t B :=
  { r with
    ok := ok
    chain := fun i hi => (r.chain i hi).frame fun a ha => hf a ⟨i, hi, ha⟩ }

/-- One table changes, giving up cells and taking new ones. -/
theorem MRep.update (m : MRep h T C A) {i : Nat} {t : Tab K D} (hC : C i = some t)
    {ht' : HTab} {t' : Tab K D} {B : Nat → List (Nat × Entry K D)} (r : HRep h' ht' t' B)
    (e : Eff h h' (Foot t.prime (A i)) (Foot t'.prime B)) :
    MRep h' (set1 T i (some ht')) (set1 C i (some t')) (set1 A i B) := by
  have other : ∀ j a, j ≠ i → (Own (set1 C i (some t')) (set1 A i B) j a ↔ Own C A j a) := by
    intro j a hj
    simp only [Own, set1_ne _ _ hj]
  have self : ∀ a, Own (set1 C i (some t')) (set1 A i B) i a ↔ Foot t'.prime B a := by
    intro a
    simp [Own]
  have own_i : ∀ a, Own C A i a ↔ Foot t.prime (A i) a := by
    intro a
    simp [Own, hC]
  have keep : ∀ j a, j ≠ i → Own C A j a → h'.mem a = h.mem a := by
    intro j a hj o
    exact e.frame a (m.own_live o) (fun hf => m.disj j i hj a o ((own_i a).2 hf))
  have dis : ∀ j a, j ≠ i → Own C A j a → ¬ Foot t'.prime B a := by
    intro j a hj o hf
    rcases e.grow a hf with h1 | h1
    · exact m.disj j i hj a o ((own_i a).2 h1)
    · have := m.own_live o
      rw [h1] at this; simp at this
  refine ⟨r.ok, ?_, ?_, ?_, ?_⟩
  · intro j
    by_cases hj : j = i
    · subst hj; simp
    · rw [set1_ne _ _ hj, set1_ne _ _ hj]; exact m.dom j
  · intro j htj tj h1 h2
    by_cases hj : j = i
    · subst hj
      simp only [set1_same, Option.some.injEq] at h1 h2 ⊢
      subst h1; subst h2
      exact r
    · rw [set1_ne _ _ hj] at h1 h2 ⊢
      exact (m.rep j htj tj h1 h2).frame r.ok fun a ha => keep j a hj ⟨tj, h2, ha⟩
  · intro j k hjk a h1 h2
    by_cases hj : j = i
    · subst hj
      rw [self] at h1
      rw [other k a (Ne.symm hjk)] at h2
      exact dis k a (Ne.symm hjk) h2 h1
    · rw [other j a hj] at h1
      by_cases hk : k = i
      · subst hk
        rw [self] at h2
        exact dis j a hj h1 h2
      · rw [other k a hk] at h2
        exact m.disj j k hjk a h1 h2
  · intro a ha
    by_cases hlt : (h.mem a).isSome = true
    · by_cases hf : Foot t.prime (A i) a
      · by_cases hf' : Foot t'.prime B a
        · exact ⟨i, (self a).2 hf'⟩
        · rw [e.freed a hf hf'] at ha; simp at ha
      · rw [e.frame a hlt hf] at ha
        obtain ⟨j, hj⟩ := m.live a ha
        have hne : j ≠ i := by rintro rfl; exact hf ((own_i a).1 hj)
        exact ⟨j, (other j a hne).2 hj⟩
    · exact ⟨i, (self a).2 (e.owned a (by simpa using hlt) ha)⟩

/-- A new table. -/
theorem MRep.create (m : MRep h T C A) {i : Nat} (hi : T i = none) {ht : HTab} {t : Tab K D}
    (r : HRep h ht t (fun _ => [])) :
    MRep h (set1 T i (some ht)) (set1 C i (some t)) (set1 A i (fun _ => [])) := by
  have hC := (m.none_iff i).1 hi
  have other : ∀ j a, Own (set1 C i (some t)) (set1 A i (fun _ => [])) j a ↔ Own C A j a := by
    intro j a
    by_cases hj : j = i
    · subst hj
      simp [Own, hC, Foot]
    · simp only [Own, set1_ne _ _ hj]
  refine ⟨m.ok, ?_, ?_, ?_, ?_⟩
  · intro j
    by_cases hj : j = i
    · subst hj; simp
    · rw [set1_ne _ _ hj, set1_ne _ _ hj]; exact m.dom j
  · intro j htj tj h1 h2
    by_cases hj : j = i
    · subst hj
      simp only [set1_same, Option.some.injEq] at h1 h2 ⊢
      subst h1; subst h2
      exact r
    · rw [set1_ne _ _ hj] at h1 h2 ⊢
      exact m.rep j htj tj h1 h2
  · intro j k hjk a h1 h2
    rw [other] at h1 h2
    exact m.disj j k hjk a h1 h2
  · intro a ha
    obtain ⟨j, hj⟩ := m.live a ha
    exact ⟨j, (other j a).2 hj⟩

/-- A table is destroyed. -/
theorem MRep.destroy (m : MRep h T C A) {i : Nat} {ht : HTab} {t : Tab K D} (hT : T i = some ht) (hC : C i = some t) :
    (t.readonly ≠ 0 → hdestroy h ht = .abort) ∧
    (t.readonly = 0 → ∃ h', hdestroy h ht = .ok h' ∧ MRep h' (set1 T i none) (set1 C i none) A) := by
  have r := m.rep i ht t hT hC
  constructor
  · intro hro
    rw [← r.ro] at hro
    simp [hdestroy, hro]
  · intro hro
    obtain ⟨h', f1, f2, f3, f4, f5⟩ := freeAll_ok ht.buckets (A i) h.clock (List.range t.prime) h r.ok
      List.nodup_range
      (fun i hi => by
        have hi := List.mem_range.1 hi
        exact ⟨Heap.Chain.length_lt r.ok (r.chain i hi), r.chain i hi⟩)
      (fun i hi j hj => r.disj i (List.mem_range.1 hi) j (List.mem_range.1 hj))
    have other : ∀ j a, j ≠ i → (Own (set1 C i none) A j a ↔ Own C A j a) := by
      intro j a hj
      simp only [Own, set1_ne _ _ hj]
    have own_i : ∀ a, (∃ k ∈ List.range t.prime, a ∈ addrs (A i k)) ↔ Own C A i a := by
      intro a
      simp [Own, hC, Foot]
    have nself : ∀ a, ¬ Own (set1 C i none) A i a := by
      rintro a ⟨t, h, -⟩; simp at h
    refine ⟨h', by unfold hdestroy; rw [if_neg (by simp [r.ro, hro]), r.prime, f1], f3, ?_, ?_, ?_, ?_⟩
    · intro j
      by_cases hj : j = i
      · subst hj; simp
      · rw [set1_ne _ _ hj, set1_ne _ _ hj]; exact m.dom j
    · intro j htj tj h1 h2
      by_cases hj : j = i
      · subst hj; simp at h1
      · rw [set1_ne _ _ hj] at h1 h2
        refine (m.rep j htj tj h1 h2).frame f3 fun a ha => f5 a fun hc => ?_
        exact m.disj j i hj a ⟨tj, h2, ha⟩ ((own_i a).1 hc)
    · intro j k hjk a h1 h2
      by_cases hj : j = i
      · subst hj; exact nself a h1
      · by_cases hk : k = i
        · subst hk; exact nself a h2
        · rw [other j a hj] at h1
          rw [other k a hk] at h2
          exact m.disj j k hjk a h1 h2
    · intro a ha
      by_cases hc : ∃ k ∈ List.range t.prime, a ∈ addrs (A i k)
      · rw [f4 a hc] at ha; simp at ha
      · rw [f5 a hc] at ha
        obtain ⟨j, hj⟩ := m.live a ha
        have hne : j ≠ i := by rintro rfl; exact hc ((own_i a).2 hj)
        exact ⟨j, (other j a hne).2 hj⟩

/-- Only counters and flags of a table change. -/
theorem MRep.retag (m : MRep h T C A) {i : Nat} {t : Tab K D} (hC : C i = some t) {ht' : HTab} {t' : Tab K D}
    (r : HRep h ht' t' (A i)) (hp : t'.prime = t.prime) : MRep h (set1 T i (some ht')) (set1 C i (some t')) A := by
  have := m.update hC r (by rw [hp]; exact Eff.refl _ _)
  have e : set1 A i (A i) = A := by
    funext j
    by_cases hj : j = i
    · subst hj; simp
    · rw [set1_ne _ _ hj]
  rwa [e] at this

theorem follows_iff {α : Type} {h : Heap α} (l : List (Nat × α)) :
    ∀ {p : Nat}, Chain h.mem p l → ∀ a, Spec.Follows h p a ↔ a ∈ l.map Prod.fst := by
  induction l with
  | nil =>
    intro p hc a
    have : p = 0 := hc
    subst this
    constructor
    · rintro (⟨h, -⟩ | ⟨h, -⟩) <;> exact absurd rfl h
    · intro h; simp at h
  | cons c l ih =>
    intro p hc a
    obtain ⟨h1, h2, n, h3, h4⟩ := hc
    subst h1
    simp only [List.map_cons, List.mem_cons]
    constructor
    · rintro (⟨g, g1⟩ | ⟨g, g1, g2⟩)
      · exact Or.inl rfl
      · rw [h3] at g1
        cases g1
        exact Or.inr ((ih h4 a).1 g2)
    · rintro (rfl | h)
      · exact .here h2 h3
      · exact .next h2 h3 ((ih h4 a).2 h)

theorem MRep.inChains (m : MRep h T C A) {i : Nat} {ht : HTab} (hi : T i = some ht) (a : Nat) :
    Spec.InChains h ht a ↔ Own C A i a := by
  obtain ⟨x, h1, h2⟩ := m.get hi
  constructor
  · rintro ⟨k, hk, hf⟩
    rw [h2.prime] at hk
    exact ⟨x, h1, k, hk, (follows_iff _ (h2.chain k hk) a).1 hf⟩
  · rintro ⟨tt, ht, k, hk, hf⟩
    rw [h1] at ht
    cases ht
    exact ⟨k, by rw [h2.prime]; exact hk, (follows_iff _ (h2.chain k hk) a).2 hf⟩

/-- every live cell is in a chain of exactly one table -/
theorem MRep.memory (m : MRep h T C A) :
    (∀ a, (h.mem a).isSome ↔ ∃ i t, T i = some t ∧ Spec.InChains h t a) ∧
    (∀ i j t u a, T i = some t → T j = some u → Spec.InChains h t a → Spec.InChains h u a → i = j) ∧
    ((∀ i, T i = none) → ∀ a, h.mem a = none) := by
  have main : ∀ a, (h.mem a).isSome ↔ ∃ i t, T i = some t ∧ Spec.InChains h t a := by
    intro a
    constructor
    · intro ha
      obtain ⟨i, o⟩ := m.live a ha
      have hs : (T i).isSome := by
        obtain ⟨tt, h1, -⟩ := o
        rw [m.dom i, h1]; rfl
      obtain ⟨t, ht⟩ := Option.isSome_iff_exists.1 hs
      exact ⟨i, t, ht, (m.inChains ht a).2 o⟩
    · rintro ⟨i, t, hi, h⟩
      exact m.own_live ((m.inChains hi a).1 h)
  refine ⟨main, ?_, ?_⟩
  · intro i j t u a hi hj h1 h2
    by_contra hne
    exact m.disj i j hne a ((m.inChains hi a).1 h1) ((m.inChains hj a).1 h2)
  · intro hn a
    cases hm : h.mem a with
    | none => rfl
    | some c =>
      obtain ⟨i, t, hi, -⟩ := (main a).1 (by simp [hm])
      rw [hn i] at hi
      simp at hi

end Maa.HashHeap
