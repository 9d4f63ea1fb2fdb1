import Verif.Spec.Shared
import Verif.Lemmas.Heap
import Verif.Lemmas.Objects
import Verif.Lemmas.StrMem
import Verif.Lemmas.HashPos

namespace Maa.Spec

variable {α I Op R V : Type}

/-- what the rest of the program owns after it ran -/
def rebased (h0 h h' : Heap α) : Heap α :=
  { mem := fun a => if h0.mem a = none ∧ h.mem a ≠ none then none else h'.mem a, clock := 0, place := h'.place }

theorem Shared.inv {step : Heap α × I → Op → Res ((Heap α × I) × R)} {see : V → Op → R → V → Prop}
    {keeps : α × Nat → α × Nat → Prop} {i0 : I} {v0 : V} (Inv : Heap α → Heap α × I → V → Prop)
    (hstart : ∀ h, h.Ok → Inv h (h, i0) v0)
    (hcall : ∀ h0 s v o s' r v', Inv h0 s v → step s o = .ok (s', r) → see v o r v' → Inv h0 s' v')
    (hothers : ∀ h0 s v h', Inv h0 s v → h'.Ok →
      (∀ a c, s.1.mem a = some c → h0.mem a = none → ∃ c', h'.mem a = some c' ∧ keeps c c') →
      Inv (rebased h0 s.1 h') (h', s.2) v)
    {theirs : Nat → Bool} {s : Heap α × I} {v : V} (hs : Shared step see keeps i0 v0 theirs s v) :
    ∃ h0, (∀ a, theirs a = (h0.mem a).isSome) ∧ Inv h0 s v := by
  induction hs with
  | start h ok => exact ⟨h, fun _ => rfl, hstart h ok⟩
  | call o s' r v' _ h1 h2 ih =>
    obtain ⟨h0, e, i⟩ := ih
    exact ⟨h0, e, hcall _ _ _ _ _ _ _ i h1 h2⟩
  | others h' _ h1 h2 ih =>
    rename_i theirs s v _
    obtain ⟨h0, e, i⟩ := ih
    have hk : ∀ a c, s.1.mem a = some c → h0.mem a = none → ∃ c', h'.mem a = some c' ∧ keeps c c' := by
      intro a c h3 h4
      exact h2 a c h3 (by rw [e, h4]; rfl)
    refine ⟨rebased h0 s.1 h', fun a => ?_, hothers _ _ _ _ i h1 hk⟩
    simp only [rebased, e]
    cases h3 : h0.mem a <;> cases h4 : s.1.mem a <;> simp

/-- what many containers rely on -/
structure ManyOk (step : Heap α × I → Op → Res ((Heap α × I) × R)) (see : V → Op → R → V → Prop)
    (keeps : α × Nat → α × Nat → Prop) (destroy : Heap α → I → Res (Heap α)) (i0 : I) (v0 : V) : Prop where
  ok : ∀ {T s v}, Shared step see keeps i0 v0 T s v → s.1.Ok
  live : ∀ {T s v}, Shared step see keeps i0 v0 T s v → ∀ a, T a = true → (s.1.mem a).isSome
  frame : ∀ {T s v o s' r v'}, Shared step see keeps i0 v0 T s v → step s o = .ok (s', r) → see v o r v' →
    ∀ a, T a = true → s'.1.mem a = s.1.mem a
  gone : ∀ {T s v h'}, Shared step see keeps i0 v0 T s v → destroy s.1 s.2 = .ok h' →
    h'.Ok ∧ ∀ a, h'.mem a = if T a then s.1.mem a else none
  refl : ∀ c, keeps c c

theorem Many.each {step : Heap α × I → Op → Res ((Heap α × I) × R)} {see : V → Op → R → V → Prop}
    {keeps : α × Nat → α × Nat → Prop} {destroy : Heap α → I → Res (Heap α)} {i0 : I} {v0 : V}
    (M : ManyOk step see keeps destroy i0 v0) {outside : Nat → Bool} {σ : Heap α × (Nat → I)} {v : Nat → V}
    (hm : Many step see keeps destroy i0 v0 outside σ v) :
    (∀ a, outside a = true → (σ.1.mem a).isSome) ∧
    ∃ T : Nat → Nat → Bool, (∀ k, Shared step see keeps i0 v0 (T k) (σ.1, σ.2 k) (v k)) ∧
      (∀ j k a, j ≠ k → (σ.1.mem a).isSome → T j a = true ∨ T k a = true) ∧
      (∀ k a, outside a = true → T k a = true) ∧
      (∀ a, (σ.1.mem a).isSome → outside a = false → ∃ k, T k a = false) := by
  induction hm with
  | start h ok =>
    exact ⟨fun a ha => ha, fun _ a => (h.mem a).isSome, fun _ => .start h ok, fun _ _ a _ ha => .inl ha,
      fun _ a ha => ha, fun a h1 h2 => by simp only at h1 h2; rw [h1] at h2; simp at h2⟩
  | call k o s' r v' _ h1 h2 ih =>
    rename_i outside σ v _
    obtain ⟨hl, T, e1, e2, e3, e4⟩ := ih
    have hk := Shared.call o s' r v' (e1 k) h1 h2
    have hf := M.frame (e1 k) h1 h2
    refine ⟨fun a ha => ?_, fun j a => if j = k then T k a else (s'.1.mem a).isSome && (T j a || (σ.1.mem a).isNone),
      ?_, ?_, ?_, ?_⟩
    · rw [hf a (e3 k a ha)]; exact hl a ha
    · intro j
      by_cases hj : j = k
      · subst hj; simp only [if_true]; exact hk
      · simp only [hj, if_false]
        refine Shared.others s'.1 (e1 j) (M.ok hk) fun a c h3 h4 => ⟨c, ?_, M.refl c⟩
        rcases e2 j k a hj (by rw [h3]; rfl) with h5 | h5
        · rw [h4] at h5; simp at h5
        · rw [hf a h5]; exact h3
    · intro i j a hij ha
      simp only at ha
      by_cases hi : i = k
      · subst hi
        simp only [if_true, Ne.symm hij, if_false, ha, Bool.true_and, Bool.or_eq_true]
        cases hq : σ.1.mem a with
        | none => right; right; rfl
        | some c =>
          rcases e2 i j a hij (by rw [hq]; rfl) with h5 | h5
          · exact .inl h5
          · right; left; exact h5
      · by_cases hj : j = k
        · subst hj
          simp only [if_true, hi, if_false, ha, Bool.true_and, Bool.or_eq_true]
          cases hq : σ.1.mem a with
          | none => left; right; rfl
          | some c =>
            rcases e2 i j a hij (by rw [hq]; rfl) with h5 | h5
            · left; left; exact h5
            · exact .inr h5
        · simp only [hi, hj, if_false, ha, Bool.true_and, Bool.or_eq_true]
          cases hq : σ.1.mem a with
          | none => left; right; rfl
          | some c =>
            rcases e2 i j a hij (by rw [hq]; rfl) with h5 | h5
            · left; left; exact h5
            · right; left; exact h5
    · intro j a ha
      by_cases hj : j = k
      · simp only [hj, if_true]; exact e3 k a ha
      · simp only [hj, if_false, e3 j a ha, Bool.true_or, Bool.and_true]
        rw [hf a (e3 k a ha)]; exact hl a ha
    · intro a ha ho
      simp only at ha
      cases hk' : T k a with
      | false => exact ⟨k, by simp [hk']⟩
      | true =>
        have hq := hf a hk'
        rw [hq] at ha
        obtain ⟨j, hj⟩ := e4 a ha ho
        have hjk : j ≠ k := by rintro rfl; rw [hk'] at hj; simp at hj
        exact ⟨j, by simp [hjk, hj, ha]⟩
  | destroy k h' _ h1 ih =>
    rename_i outside σ v _
    obtain ⟨hl, T, e1, e2, e3, e4⟩ := ih
    obtain ⟨ok', hf⟩ := M.gone (e1 k) h1
    refine ⟨fun a ha => ?_, fun j a => if j = k then (h'.mem a).isSome else (h'.mem a).isSome && (T j a || (σ.1.mem a).isNone),
      ?_, ?_, ?_, ?_⟩
    · simp only [hf, e3 k a ha, if_true]; exact hl a ha
    · intro j
      by_cases hj : j = k
      · subst hj; simp only [if_true]; exact .start h' ok'
      · simp only [hj, if_false]
        refine Shared.others h' (e1 j) ok' fun a c h3 h4 => ⟨c, ?_, M.refl c⟩
        rcases e2 j k a hj (by rw [h3]; rfl) with h5 | h5
        · rw [h4] at h5; simp at h5
        · rw [hf, if_pos h5]; exact h3
    · intro i j a hij ha
      simp only at ha
      by_cases hi : i = k
      · left; simp [hi, ha]
      · by_cases hj : j = k
        · right; simp [hj, ha]
        · simp only [hi, hj, if_false, ha, Bool.true_and, Bool.or_eq_true]
          cases hq : σ.1.mem a with
          | none => left; right; rfl
          | some c =>
            rcases e2 i j a hij (by rw [hq]; rfl) with h5 | h5
            · left; left; exact h5
            · right; left; exact h5
    · intro j a ha
      have hq : h'.mem a = σ.1.mem a := by rw [hf, if_pos (e3 k a ha)]
      by_cases hj : j = k
      · simp only [hj, if_true, hq]; exact hl a ha
      · simp only [hj, if_false, e3 j a ha, Bool.true_or, Bool.and_true, hq]; exact hl a ha
    · intro a ha ho
      simp only [hf] at ha
      cases hk' : T k a with
      | false => rw [hk'] at ha; simp at ha
      | true =>
        rw [hk'] at ha
        simp only [if_true] at ha
        obtain ⟨j, hj⟩ := e4 a ha ho
        have hjk : j ≠ k := by rintro rfl; rw [hk'] at hj; simp at hj
        exact ⟨j, by simp [hjk, hj, ha]⟩
  | others h' _ h1 h2 ih =>
    rename_i outside σ v _
    obtain ⟨hl, T, e1, e2, e3, e4⟩ := ih
    have hk : ∀ j a c, σ.1.mem a = some c → T j a = false → ∃ c', h'.mem a = some c' ∧ keeps c c' := by
      intro j a c h3 h4
      refine h2 a c h3 ?_
      cases ho : outside a with
      | false => rfl
      | true => rw [e3 j a ho] at h4; simp at h4
    refine ⟨fun a ha => by simp only [Bool.and_eq_true] at ha; exact ha.1,
      fun j a => (h'.mem a).isSome && (T j a || (σ.1.mem a).isNone), fun j => .others h' (e1 j) h1 (hk j), ?_, ?_, ?_⟩
    · intro i j a hij ha
      simp only at ha
      simp only [ha, Bool.true_and, Bool.or_eq_true]
      cases hq : σ.1.mem a with
      | none => left; right; rfl
      | some c =>
        rcases e2 i j a hij (by rw [hq]; rfl) with h5 | h5
        · left; left; exact h5
        · right; left; exact h5
    · intro j a ha
      simp only [Bool.and_eq_true, Bool.or_eq_true] at ha ⊢
      exact ⟨ha.1, ha.2.imp (e3 j a) id⟩
    · intro a ha ho
      simp only [ha, Bool.true_and, Bool.or_eq_false_iff] at ho
      obtain ⟨j, hj⟩ := e4 a (by cases hq : σ.1.mem a <;> simp [hq] at ho ⊢) ho.1
      exact ⟨j, by simp [hj, ho.2]⟩

end Maa.Spec

namespace Maa.Objects

variable {α : Type}

theorem Inv.others {h0 : Heap α} {s : Heap α × Pool} {c : Spec.Client} (v : Inv h0 s c) {h' : Heap α} (ok : h'.Ok)
    (hk : ∀ a x, s.1.mem a = some x → h0.mem a = none → ∃ x', h'.mem a = some x' ∧ True) :
    Inv (Spec.rebased h0 s.1 h') (h', s.2) c := by
  have hl : ∀ a ∈ s.2.allocated, (h'.mem a).isSome := fun a ha => by
    obtain ⟨x, hx⟩ := Option.isSome_iff_exists.1 (v.pool.live a ha).1
    obtain ⟨x', hx', -⟩ := hk a x hx (v.above a ha)
    rw [hx']; rfl
  refine ⟨ok, ⟨v.pool.perm, v.pool.nodup, fun a ha => ⟨hl a ha, (v.pool.live a ha).2⟩⟩, v.used, v.total, v.reused, v.peak,
    Nat.zero_le _, ?_, ?_, ?_, v.books⟩
  · intro a ha
    simp only [Spec.rebased] at ha ⊢
    split at ha
    · simp at ha
    · rename_i hc; rw [if_neg hc]
  · intro a ha hs
    simp only [Spec.rebased] at ha
    split at ha
    · rename_i hc
      exact v.new a hc.1 (Option.isSome_iff_ne_none.2 hc.2)
    · simp only at hs; rw [ha] at hs; simp at hs
  · intro a ha
    simp only [Spec.rebased]
    rw [if_pos ⟨v.above a ha, Option.isSome_iff_ne_none.1 (v.pool.live a ha).1⟩]

end Maa.Objects

namespace Maa.StrMem

open Spec (StrView)

theorem Inv.others {h0 : Mem} {s : Mem × SInfo} {v : StrView} (i : Inv h0 s v) {h' : Mem} (ok : h'.Ok)
    (hk : ∀ a c, s.1.mem a = some c → h0.mem a = none → ∃ c', h'.mem a = some c' ∧ c' = c) :
    Inv (Spec.rebased h0 s.1 h') (h', s.2) v := by
  have hkk : ∀ a c, s.1.mem a = some c → a ∈ s.2.allocated → h'.mem a = some c := fun a c h1 h2 => by
    obtain ⟨c', h3, h4⟩ := hk a c h1 (i.above a h2)
    rw [h3, h4]
  refine ⟨ok, ?_, i.nodup, i.growing, ?_, i.anodup, ?_, ?_, Nat.zero_le _, ?_, ?_, i.count, i.bytes⟩
  · intro x hx
    obtain ⟨h1, h2⟩ := i.strs x hx
    exact ⟨hkk _ _ h1 h2, h2⟩
  · intro hp
    obtain ⟨top, rest, h1, h2, h3⟩ := i.pend hp
    exact ⟨top, rest, h1, hkk _ _ h2 (by rw [h1]; simp), h3⟩
  · intro a ha
    obtain ⟨c, hc⟩ := Option.isSome_iff_exists.1 (i.live a ha)
    simp only
    rw [hkk a c hc ha]; rfl
  · intro a ha
    simp only [Spec.rebased]
    rw [if_pos ⟨i.above a ha, Option.isSome_iff_ne_none.1 (i.live a ha)⟩]
  · intro a ha
    simp only [Spec.rebased] at ha ⊢
    split at ha
    · simp at ha
    · rename_i hc; rw [if_neg hc]
  · intro a ha hs
    simp only [Spec.rebased] at ha
    split at ha
    · rename_i hc
      exact i.new a hc.1 (Option.isSome_iff_ne_none.2 hc.2)
    · simp only at hs; rw [ha] at hs; simp at hs

end Maa.StrMem

namespace Maa.HashHeap

open Tab (Entry Tab)

variable {K D : Type}

theorem HRep.others {h0 h h' : Heap (Entry K D)} {ht : HTab} {t : Tab K D} {A} (r : HRep h ht t A)
    (o : Owns h0 h t.prime A) (ok : h'.Ok)
    (hk : ∀ a c, h.mem a = some c → h0.mem a = none → ∃ c', h'.mem a = some c' ∧ c' = c) :
    HRep h' ht t A ∧ Owns (Spec.rebased h0 h h') h' t.prime A := by
  have hkk : ∀ a, Foot t.prime A a → h'.mem a = h.mem a := fun a hf => by
    obtain ⟨c, hc⟩ := Option.isSome_iff_exists.1 (r.foot_live hf)
    obtain ⟨c', h3, h4⟩ := hk a c hc (o.new a hf)
    rw [h3, h4, hc]
  refine ⟨⟨ok, r.prime, r.entries, r.resizings, r.retrievals, r.hits, r.misses, r.ro, ?_, r.ents, r.disj⟩,
    ⟨Nat.zero_le _, ?_, ?_, ?_⟩⟩
  · intro i hi
    exact (r.chain i hi).frame fun a ha => hkk a ⟨i, hi, ha⟩
  · intro a ha
    simp only [Spec.rebased] at ha ⊢
    split at ha
    · simp at ha
    · rename_i hc; rw [if_neg hc]
  · intro a ha
    constructor
    · intro hs
      simp only [Spec.rebased] at ha
      split at ha
      · rename_i hc
        exact (o.live a hc.1).1 (Option.isSome_iff_ne_none.2 hc.2)
      · rw [ha] at hs; simp at hs
    · intro hf
      rw [hkk a hf]; exact r.foot_live hf
  · intro a hf
    simp only [Spec.rebased]
    rw [if_pos ⟨o.new a hf, Option.isSome_iff_ne_none.1 (r.foot_live hf)⟩]

end Maa.HashHeap
