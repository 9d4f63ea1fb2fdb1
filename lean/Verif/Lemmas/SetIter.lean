import Verif.Lemmas.HashIter

namespace Maa.HashHeap

open Tab (Entry Tab)
open Heap (Seg Chain)

variable {K σ : Type}

/-- a set being walked by `set_iterate`: read-only -/
structure SSimR (ops : KeyOps K) (h0 : Heap (Entry K Unit)) (s : HState K Unit) (l : List (K × Unit))
    (t : Tab K Unit) (A : Nat → List (Nat × Entry K Unit)) : Prop where
  rep : HRep s.1 s.2 t A
  tab : Tab.Rep ops t l
  ro : t.readonly ≠ 0
  owns : Owns h0 s.1 t.prime A

theorem setCallStep_sim {ops : KeyOps K} (law : ops.Lawful) (h0 : Heap (Entry K Unit)) {s : HState K Unit}
    {m : Spec.OneSet K} {t A} (hs : SSimR ops h0 s m.elems t A) (rest : List (K × Unit)) (o : Spec.OneSetOp K)
    (hne : Spec.setCallStep (eqv ops) rest m o ≠ .ub) :
    Spec.ResRel (fun c b => c.2 = b.2 ∧ b.1 = m ∧ c.1.1 = s.1 ∧ ∃ t', SSimR ops h0 c.1 m.elems t' A ∧
        t'.prime = t.prime)
      (setHeapStep ops s o) (Spec.setCallStep (eqv ops) rest m o) := by
  obtain ⟨r, rep, ro, ow⟩ := hs
  have hp : t.prime ≠ 0 := by have := rep.inv.pos; omega
  cases o with
  | insert k =>
    simp only [setHeapStep, Spec.setCallStep, hinsert]
    rw [if_pos (by rw [r.ro]; exact ro)]
    trivial
  | delete k =>
    simp only [setHeapStep, Spec.setCallStep, hdelete]
    rw [if_neg (by rw [r.prime]; exact hp), if_pos (by rw [r.ro]; exact ro)]
    trivial
  | member k =>
    simp only [setHeapStep, Spec.setCallStep, Spec.oneSetStep]
    have h1 := hretrieve_hrep (ops := ops) r k
    obtain ⟨t', i1, i2, i3⟩ := Tab.retrieve_rep law rep k
    rw [i1] at h1
    cases hc : hretrieve ops s.1 s.2 k <;> rw [hc] at h1 <;> simp only [Spec.ResRel, Res.bind] at h1 ⊢
    obtain ⟨e1, A', r', ef, hro⟩ := h1
    obtain ⟨rfl, e3, e4⟩ := hro ro
    refine ⟨?_, trivial, e3, t', ⟨r', i2, by rw [i3.readonly]; exact ro, ow.step r' ef⟩, i3.prime⟩
    rw [e1]
    cases Spec.find (eqv ops) m.elems k <;> rfl
  | readonly f => exact absurd rfl hne

theorem setCalls_sim {ops : KeyOps K} (law : ops.Lawful) (h0 : Heap (Entry K Unit)) (rest : List (K × Unit))
    (p : Spec.Calls (Spec.OneSetOp K) Int σ) (m : Spec.OneSet K) (A : Nat → List (Nat × Entry K Unit)) :
    ∀ {s : HState K Unit} {t},
    SSimR ops h0 s m.elems t A → p.run (Spec.setCallStep (eqv ops) rest) m ≠ .ub →
    Spec.ResRel (fun c b => c.2 = b.2 ∧ b.1 = m ∧ c.1.1 = s.1 ∧ ∃ t', SSimR ops h0 c.1 m.elems t' A ∧
        t'.prime = t.prime)
      (p.run (setHeapStep ops) s) (p.run (Spec.setCallStep (eqv ops) rest) m) := by
  induction p with
  | ret st r => intro s t hs _; exact ⟨rfl, rfl, rfl, t, hs, rfl⟩
  | call o k ih =>
    intro s t hs hne
    simp only [Spec.Calls.run] at hne ⊢
    have h1 := setCallStep_sim law h0 hs rest o (Res.ne_ub_bind hne)
    cases hc : setHeapStep ops s o <;> cases hb : Spec.setCallStep (eqv ops) rest m o <;> rw [hc, hb] at h1 <;>
      simp only [Spec.ResRel] at h1 <;> simp only [Res.bind, Spec.ResRel]
    rename_i c b
    obtain ⟨e1, e2, e3, t1, s1, p1⟩ := h1
    rw [hb] at hne
    simp only [Res.bind] at hne
    rw [e2] at hne ⊢
    have h2 := ih b.2 s1 hne
    rw [e1]
    cases hc' : Spec.Calls.run (setHeapStep ops) (k b.2) c.1 <;>
      cases hb' : Spec.Calls.run (Spec.setCallStep (eqv ops) rest) (k b.2) m <;> rw [hc', hb'] at h2 <;>
      simp only [Spec.ResRel] at h2 ⊢
    obtain ⟨g1, g2, g3, t2, s2, p2⟩ := h2
    exact ⟨g1, g2, g3.trans e3, t2, s2, p2.trans p1⟩

/-- one chain -/
theorem siterChain_sim {ops : KeyOps K} (law : ops.Lawful) (h0 : Heap (Entry K Unit))
    (f : σ → K × Unit → Spec.Calls (Spec.OneSetOp K) Int σ) (after : List (K × Unit)) (m : Spec.OneSet K)
    (A : Nat → List (Nat × Entry K Unit))
    (rem : List (Nat × Entry K Unit)) : ∀ (n : Nat) (s : HState K Unit) (t : Tab K Unit) (pt : Nat) (st : σ),
    rem.length < n → SSimR ops h0 s m.elems t A → Chain s.1.mem pt rem →
    Spec.visit (Spec.setCallStep (eqv ops)) f (rem.map pairOf ++ after) m st ≠ .ub →
    (∃ q b, siterChain ops f n s pt st = .ok q ∧ q.2.2 ≠ 0 ∧
      Spec.visit (Spec.setCallStep (eqv ops)) f (rem.map pairOf ++ after) m st = .ok b ∧ q.2 = b.2 ∧
      b.1 = m ∧ q.1.1 = s.1 ∧ ∃ t', SSimR ops h0 q.1 m.elems t' A) ∨
    (∃ s' st' t', siterChain ops f n s pt st = .ok (s', st', 0) ∧
      Spec.visit (Spec.setCallStep (eqv ops)) f (rem.map pairOf ++ after) m st =
        Spec.visit (Spec.setCallStep (eqv ops)) f after m st' ∧ s'.1 = s.1 ∧
      SSimR ops h0 s' m.elems t' A ∧ t'.prime = t.prime) ∨
    (siterChain ops f n s pt st = .abort ∧
      Spec.visit (Spec.setCallStep (eqv ops)) f (rem.map pairOf ++ after) m st = .abort) ∨
    (siterChain ops f n s pt st = .fatal ∧
      Spec.visit (Spec.setCallStep (eqv ops)) f (rem.map pairOf ++ after) m st = .fatal) := by
  induction rem with
  | nil =>
    intro n s t pt st hn hs hc hne
    cases n with
    | zero => omega
    | succ n =>
      have h0' : pt = 0 := hc
      right; left
      exact ⟨s, st, t, by simp [siterChain, h0'], by simp, rfl, hs, rfl⟩
  | cons c rem ih =>
    intro n s t pt st hn hs hc hne
    cases n with
    | zero => omega
    | succ n =>
      obtain ⟨h1, h2, nx, h3, h4⟩ := hc
      simp only [List.map_cons, List.cons_append, Spec.visit] at hne ⊢
      have hp : (c.2.key, ()) = pairOf c := rfl
      simp only [siterChain, h1, h2, if_false, Heap.read_ok h3, Res.bind, hp]
      have hcall := setCalls_sim law h0 (rem.map pairOf ++ after) (f st (pairOf c)) m A hs (Res.ne_ub_bind hne)
      cases hcc : Spec.Calls.run (setHeapStep ops) (f st (pairOf c)) s <;>
        cases hbb : Spec.Calls.run (Spec.setCallStep (eqv ops) (rem.map pairOf ++ after)) (f st (pairOf c)) m <;>
        rw [hcc, hbb] at hcall <;> simp only [Spec.ResRel] at hcall <;> simp only [Res.bind]
      · rename_i q b
        obtain ⟨e1, e2, e3, t1, s1, p1⟩ := hcall
        rw [hbb] at hne
        simp only [Res.bind] at hne
        by_cases hz : q.2.2 ≠ 0
        · left
          rw [if_pos hz, if_pos (by rw [← e1]; exact hz)]
          exact ⟨_, _, rfl, by simp, rfl, by rw [e1], e2, e3, t1, s1⟩
        · have hz' : ¬ b.2.2 ≠ 0 := by rw [← e1]; exact hz
          rw [if_neg hz', e2] at hne
          rw [if_neg hz, if_neg hz', e2, e3, Heap.read_ok h3]
          simp only [Res.bind]
          have := ih n q.1 t1 nx q.2.1 (by simp at hn; omega) s1 (by rw [e3]; exact h4) (by rw [e1]; exact hne)
          rw [e1] at this ⊢
          rcases this with ⟨x, y, g1, g2, g3, g4, g5, g6, g7⟩ | ⟨s', st', t', g1, g2, g3, g4, g5⟩ | hr
          · exact Or.inl ⟨x, y, g1, g2, g3, g4, g5, g6.trans e3, g7⟩
          · exact Or.inr (Or.inl ⟨s', st', t', g1, g2, g3.trans e3, g4, g5.trans p1⟩)
          · exact Or.inr (Or.inr hr)
      · exact Or.inr (Or.inr (Or.inl (by simp)))
      · exact Or.inr (Or.inr (Or.inr (by simp)))
      · rw [hbb] at hne; exact absurd rfl hne

theorem siterLoop_sim {ops : KeyOps K} (law : ops.Lawful) (h0 : Heap (Entry K Unit))
    (f : σ → K × Unit → Spec.Calls (Spec.OneSetOp K) Int σ) (m : Spec.OneSet K)
    (A : Nat → List (Nat × Entry K Unit)) : ∀ (n i : Nat) (s : HState K Unit) (t : Tab K Unit) (st : σ),
    t.prime - i < n → SSimR ops h0 s m.elems t A →
    Spec.visit (Spec.setCallStep (eqv ops)) f ((cellsFrom t.prime i A).map pairOf) m st ≠ .ub →
    Spec.ResRel (fun c b => c.2 = b.2 ∧ b.1 = m ∧ c.1.1 = s.1 ∧ ∃ t', SSimR ops h0 c.1 m.elems t' A)
      (siterLoop ops f n i s st)
      (Spec.visit (Spec.setCallStep (eqv ops)) f ((cellsFrom t.prime i A).map pairOf) m st) := by
  intro n
  induction n with
  | zero => intro i s t st hn; omega
  | succ n ih =>
    intro i s t st hn hs hne
    simp only [siterLoop]
    rw [hs.rep.prime]
    by_cases hi : i < t.prime
    · rw [if_pos hi]
      rw [cellsFrom_lt A hi, List.map_append] at hne ⊢
      have hc := hs.rep.chain i hi
      rcases siterChain_sim law h0 f _ m A (A i) s.1.clock s t (s.2.buckets i) st
        (Heap.Chain.length_lt hs.rep.ok hc) hs hc hne with
        ⟨q, b, e1, e2, e3, e4, e5, e6, e7⟩ | ⟨s', st', t', e1, e2, e3, e4, e5⟩ | ⟨e1, e2⟩ | ⟨e1, e2⟩
      · rw [e1, e3]
        simp only [Res.bind]
        rw [if_pos e2]
        exact ⟨e4, e5, e6, e7⟩
      · rw [e1, e2]
        simp only [Res.bind]
        rw [if_neg (by simp)]
        rw [e2, ← e5] at hne
        rw [← e5]
        have := ih (i + 1) s' t' st' (by rw [e5]; omega) e4 hne
        rw [e3] at this
        exact this
      · rw [e1, e2]; trivial
      · rw [e1, e2]; trivial
    · rw [if_neg hi, cellsFrom_ge A (by omega)]
      exact ⟨rfl, rfl, rfl, t, hs⟩

/-- the whole function -/
theorem siterate_sim {ops : KeyOps K} (law : ops.Lawful) (h0 : Heap (Entry K Unit))
    (f : σ → K × Unit → Spec.Calls (Spec.OneSetOp K) Int σ) (m : Spec.OneSet K) (s : HState K Unit)
    (hs : SSim ops h0 s m) (st : σ) :
    ∃ order, order.Perm m.elems ∧
      (Spec.visit (Spec.setCallStep (eqv ops)) f order m st ≠ .ub → ∀ n, s.2.prime < n →
        Spec.ResRel (fun c b => c.2 = b.2 ∧ b.1 = m ∧ c.1.1 = s.1 ∧ SSim ops h0 c.1 m)
          (siterate ops f n s st) (Spec.visit (Spec.setCallStep (eqv ops)) f order m st)) := by
  obtain ⟨t, A, r, rep, ro, ow⟩ := hs
  refine ⟨(cellsFrom t.prime 0 A).map pairOf, ?_, fun hne n hn => ?_⟩
  · have := rep.perm
    unfold Tab.pairsOf at this
    rw [← cells_map r, List.map_map] at this
    exact this
  · have hs1 : SSimR ops h0 (s.1, { s.2 with readonly := 1 }) m.elems { t with readonly := 1 } A :=
      ⟨r.withRo 1, rep.congr rfl rfl rfl, by simp, ow⟩
    have := siterLoop_sim law h0 f m A n 0 _ _ st (by simp only; rw [← r.prime]; omega) hs1 hne
    unfold siterate
    simp only
    cases hc : siterLoop ops f n 0 (s.1, { s.2 with readonly := 1 }) st <;>
      cases hb : Spec.visit (Spec.setCallStep (eqv ops)) f ((cellsFrom t.prime 0 A).map pairOf) m st <;>
      rw [hc, hb] at this <;> simp only [Spec.ResRel] at this <;> simp only [Res.bind, Spec.ResRel]
    obtain ⟨e1, e2, e3, t', e4⟩ := this
    refine ⟨e1, e2, e3, { t' with readonly := s.2.readonly }, A, e4.rep.withRo _, e4.tab.congr rfl rfl rfl,
      ?_, e4.owns⟩
    simp only
    rw [r.ro, ro]

end Maa.HashHeap
