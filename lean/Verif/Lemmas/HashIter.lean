import Verif.Model.HashIter
import Verif.Lemmas.HashPos
import Verif.Lemmas.TabStats

namespace Maa.HashHeap

open Tab (Entry Tab)
open Heap (Seg Chain)

variable {K D σ : Type}

/-- pointer level, chain level and map agree; `A` lists the cells -/
structure PSimA (ops : KeyOps K) (h0 : Heap (Entry K Ptr)) (s : HState K Ptr) (m : Spec.MapState K)
    (t : Tab K Ptr) (A : Nat → List (Nat × Entry K Ptr)) : Prop where
  rep : HRep s.1 s.2 t A
  sim : Hash.Sim ops t m
  owns : Owns h0 s.1 t.prime A

/-- the pair stored in a cell -/
def pairOf (c : Nat × Entry K D) : K × D := (c.2.key, c.2.datum)

/-- cells whose pairs are in `rest` are left alone -/
def Kp (rest : List (K × D)) (A A' : Nat → List (Nat × Entry K D)) : Prop :=
  (∀ i pre rem, A i = pre ++ rem → (∀ c ∈ rem, pairOf c ∈ rest) → ∃ pre', A' i = pre' ++ rem) ∧
  (∀ i, (∀ c ∈ A i, pairOf c ∈ rest) → A' i = A i)

theorem Kp.refl (rest : List (K × D)) (A : Nat → List (Nat × Entry K D)) : Kp rest A A :=
  ⟨fun _ pre _ h _ => ⟨pre, h⟩, fun _ _ => rfl⟩

theorem Kp.trans {rest : List (K × D)} {A B C : Nat → List (Nat × Entry K D)} (h1 : Kp rest A B)
    (h2 : Kp rest B C) : Kp rest A C := by
  refine ⟨fun i pre rem h hr => ?_, fun i hi => ?_⟩
  · obtain ⟨p1, e1⟩ := h1.1 i pre rem h hr
    exact h2.1 i p1 rem e1 hr
  · have := h1.2 i hi
    rw [h2.2 i (by rw [this]; exact hi), this]

theorem Keeps.kp {ops : KeyOps K} {key : K} {A A' : Nat → List (Nat × Entry K D)} (h : Keeps ops key A A')
    {rest : List (K × D)} (hr : rest.any (fun p => eqv ops p.1 key) = false) : Kp rest A A' := by
  have hx : ∀ c : Nat × Entry K D, pairOf c ∈ rest → (ops.cmp c.2.key key == 0) = false := by
    intro c hc
    rw [List.any_eq_false] at hr
    have := hr _ hc
    simpa [pairOf, eqv] using this
  exact ⟨fun i pre rem e hc => h.1 i pre rem e (fun c hm => hx c (hc c hm)),
    fun i hc => h.2 i (fun c hm => hx c (hc c hm))⟩

theorem Res.ne_ub_bind {α β : Type} {x : Res α} {f : α → Res β} (h : x.bind f ≠ .ub) : x ≠ .ub := by
  rintro rfl; exact h rfl

theorem callStep_sim {ops : KeyOps K} (law : ops.Lawful) (h0 : Heap (Entry K Ptr)) {s : HState K Ptr}
    {m : Spec.MapState K} {t A} (hs : PSimA ops h0 s m t A) (rest : List (K × Nat)) (o : Spec.HashOp K)
    (hne : Spec.hashCallStep (eqv ops) rest m o ≠ .ub) :
    Spec.ResRel (fun c b => c.2 = b.2 ∧ ∃ t' A', PSimA ops h0 c.1 b.1 t' A' ∧ t'.prime = t.prime ∧
        Kp rest A A')
      (heapStep ops s o) (Spec.hashCallStep (eqv ops) rest m o) := by
  obtain ⟨r, sim, ow⟩ := hs
  have h2 := Hash.step_sim law t m o sim
  cases o with
  | insert k d => exact absurd rfl hne
  | delete k =>
    simp only [Spec.hashCallStep] at hne ⊢
    by_cases hk : rest.any (fun p => eqv ops p.1 k) = true
    · rw [if_pos hk] at hne; exact absurd rfl hne
    rw [if_neg hk]
    simp only [heapStep]
    simp only [Hash.hshStep, Hash.hshDelete] at h2
    have h1 := hdelete_hrep_keeps (ops := ops) r k
    cases hc : hdelete ops s.1 s.2 k <;> cases hb : Tab.delete ops t k <;> rw [hc, hb] at h1 <;>
      simp only [Spec.ResRel] at h1 <;> rw [hb] at h2 <;>
      cases ha : Spec.hashStep (eqv ops) m (.delete k) <;> rw [ha] at h2 <;>
      simp only [Res.bind, Spec.ResRel] at h2 ⊢
    obtain ⟨e1, A', r', ef, kp⟩ := h1
    exact ⟨by rw [← h2.1, e1], _, A', ⟨r', h2.2, ow.step r' ef⟩, (Tab.delete_fields hb).2.2.2.2,
      kp.kp (by simpa using hk)⟩
  | retrieve k =>
    simp only [Spec.hashCallStep] at hne ⊢
    by_cases hk : rest.any (fun p => eqv ops p.1 k) = true
    · rw [if_pos hk] at hne; exact absurd rfl hne
    rw [if_neg hk]
    simp only [heapStep]
    simp only [Hash.hshStep, Hash.hshRetrieve] at h2
    have h1 := hretrieve_hrep_keeps (ops := ops) r k
    cases hc : hretrieve ops s.1 s.2 k <;> cases hb : Tab.retrieve ops t k <;> rw [hc, hb] at h1 <;>
      simp only [Spec.ResRel] at h1 <;> rw [hb] at h2 <;>
      cases ha : Spec.hashStep (eqv ops) m (.retrieve k) <;> rw [ha] at h2 <;>
      first
      | (exact h2.elim)
      | trivial
      | skip
    obtain ⟨e1, A', r', ef, -, kp⟩ := h1
    obtain ⟨e2, e3⟩ := h2
    refine ⟨?_, _, A', ⟨r', e3, ow.step r' ef⟩, (Tab.retrieve_fields hb).2.2.1, kp.kp (by simpa using hk)⟩
    rw [← e2]
    simp only [e1]
    cases (Prod.snd _ : Option Ptr) <;> rfl
  | readonly f =>
    simp only [Spec.hashCallStep, heapStep, Spec.hashStep]
    simp only [Hash.hshStep, Hash.hshReadonly, Tab.setReadonly, Spec.hashStep] at h2
    exact ⟨by rw [← h2.1, r.ro], _, A, ⟨r.withRo f, h2.2, ow⟩, rfl, Kp.refl _ _⟩

theorem calls_sim {ops : KeyOps K} (law : ops.Lawful) (h0 : Heap (Entry K Ptr)) (rest : List (K × Nat))
    (p : Spec.Calls (Spec.HashOp K) Spec.Ret σ) : ∀ {s : HState K Ptr} {m : Spec.MapState K} {t A},
    PSimA ops h0 s m t A → p.run (Spec.hashCallStep (eqv ops) rest) m ≠ .ub →
    Spec.ResRel (fun c b => c.2 = b.2 ∧ ∃ t' A', PSimA ops h0 c.1 b.1 t' A' ∧ t'.prime = t.prime ∧
        Kp rest A A')
      (p.run (heapStep ops) s) (p.run (Spec.hashCallStep (eqv ops) rest) m) := by
  induction p with
  | ret st r => intro s m t A hs _; exact ⟨rfl, t, A, hs, rfl, Kp.refl _ _⟩
  | call o k ih =>
    intro s m t A hs hne
    simp only [Spec.Calls.run] at hne ⊢
    have h1 := callStep_sim law h0 hs rest o (Res.ne_ub_bind hne)
    cases hc : heapStep ops s o <;> cases hb : Spec.hashCallStep (eqv ops) rest m o <;> rw [hc, hb] at h1 <;>
      simp only [Spec.ResRel] at h1 <;> simp only [Res.bind, Spec.ResRel]
    rename_i c b
    obtain ⟨e1, t1, A1, s1, p1, k1⟩ := h1
    rw [hb] at hne
    simp only [Res.bind] at hne
    have h2 := ih b.2 s1 hne
    rw [e1]
    cases hc' : Spec.Calls.run (heapStep ops) (k b.2) c.1 <;>
      cases hb' : Spec.Calls.run (Spec.hashCallStep (eqv ops) rest) (k b.2) b.1 <;> rw [hc', hb'] at h2 <;>
      simp only [Spec.ResRel] at h2 ⊢
    obtain ⟨e2, t2, A2, s2, p2, k2⟩ := h2
    exact ⟨e2, t2, A2, s2, p2.trans p1, k1.trans k2⟩

theorem chain_head {m : Nat → Option (Entry K D × Nat)} {p q : Nat} {l : List (Nat × Entry K D)}
    (h1 : Chain m p l) {m' : Nat → Option (Entry K D × Nat)} (h2 : Chain m' q l) : p = q := by
  cases l with
  | nil => exact Eq.trans h1 (Eq.symm h2)
  | cons c l => exact h1.1.trans h2.1.symm

/-- one chain -/
theorem hiterChain_sim {ops : KeyOps K} (law : ops.Lawful) (h0 : Heap (Entry K Ptr))
    (f : σ → K × Ptr → Spec.Calls (Spec.HashOp K) Spec.Ret σ) (i : Nat) (after : List (K × Ptr))
    (rem : List (Nat × Entry K Ptr)) : ∀ (n : Nat) (s : HState K Ptr) (m : Spec.MapState K) (t : Tab K Ptr)
    (A : Nat → List (Nat × Entry K Ptr)) (pt : Nat) (st : σ) (pre : List (Nat × Entry K Ptr)),
    rem.length < n → PSimA ops h0 s m t A → i < t.prime → A i = pre ++ rem → Chain s.1.mem pt rem →
    (∀ j, i < j → j < t.prime → ∀ c ∈ A j, pairOf c ∈ after) →
    Spec.visit (Spec.hashCallStep (eqv ops)) f (rem.map pairOf ++ after) m st ≠ .ub →
    (∃ q b, hiterChain ops f n s pt st = .ok q ∧ q.2.2 ≠ 0 ∧
      Spec.visit (Spec.hashCallStep (eqv ops)) f (rem.map pairOf ++ after) m st = .ok b ∧ q.2 = b.2 ∧
      ∃ t' A', PSimA ops h0 q.1 b.1 t' A') ∨
    (∃ s' st' m' t' A', hiterChain ops f n s pt st = .ok (s', st', 0) ∧
      Spec.visit (Spec.hashCallStep (eqv ops)) f (rem.map pairOf ++ after) m st =
        Spec.visit (Spec.hashCallStep (eqv ops)) f after m' st' ∧
      PSimA ops h0 s' m' t' A' ∧ t'.prime = t.prime ∧ ∀ j, i < j → j < t.prime → A' j = A j) ∨
    (hiterChain ops f n s pt st = .abort ∧
      Spec.visit (Spec.hashCallStep (eqv ops)) f (rem.map pairOf ++ after) m st = .abort) ∨
    (hiterChain ops f n s pt st = .fatal ∧
      Spec.visit (Spec.hashCallStep (eqv ops)) f (rem.map pairOf ++ after) m st = .fatal) := by
  induction rem with
  | nil =>
    intro n s m t A pt st pre hn hs hi hA hc haft hne
    cases n with
    | zero => omega
    | succ n =>
      have h0' : pt = 0 := hc
      right; left
      exact ⟨s, st, m, t, A, by simp [hiterChain, h0'], by simp, hs, rfl, fun _ _ _ => rfl⟩
  | cons c rem ih =>
    intro n s m t A pt st pre hn hs hi hA hc haft hne
    cases n with
    | zero => omega
    | succ n =>
      obtain ⟨h1, h2, nx, h3, h4⟩ := hc
      simp only [List.map_cons, List.cons_append, Spec.visit] at hne ⊢
      have hp : (c.2.key, c.2.datum) = pairOf c := rfl
      simp only [hiterChain, h1, h2, if_false, Heap.read_ok h3, Res.bind, hp]
      have hcall := calls_sim law h0 (rem.map pairOf ++ after) (f st (pairOf c)) hs (Res.ne_ub_bind hne)
      cases hcc : Spec.Calls.run (heapStep ops) (f st (pairOf c)) s <;>
        cases hbb : Spec.Calls.run (Spec.hashCallStep (eqv ops) (rem.map pairOf ++ after)) (f st (pairOf c)) m <;>
        rw [hcc, hbb] at hcall <;> simp only [Spec.ResRel] at hcall <;> simp only [Res.bind]
      · rename_i q b
        obtain ⟨e1, t1, A1, s1, p1, k1⟩ := hcall
        rw [hbb] at hne
        simp only [Res.bind] at hne
        by_cases hz : q.2.2 ≠ 0
        · left
          rw [if_pos hz, if_pos (by rw [← e1]; exact hz)]
          exact ⟨_, _, rfl, by simp, rfl, by rw [e1], t1, A1, s1⟩
        · have hz' : ¬ b.2.2 ≠ 0 := by rw [← e1]; exact hz
          rw [if_neg hz'] at hne
          rw [if_neg hz, if_neg hz']
          obtain ⟨pre1, hA1⟩ := k1.1 i (pre ++ [c]) rem (by rw [hA]; simp)
            (fun d hd => List.mem_append_left _ (List.mem_map.2 ⟨d, hd, rfl⟩))
          have hkeep : ∀ j, i < j → j < t.prime → A1 j = A j := fun j hj hjp =>
            k1.2 j (fun d hd => List.mem_append_right _ (haft j hj hjp d hd))
          have hch : Chain q.1.1.mem nx rem := by
            have h5 := s1.rep.chain i (by rw [p1]; exact hi)
            rw [hA1] at h5
            obtain ⟨x, -, h6⟩ := Seg.split h5
            rw [chain_head h4 h6]; exact h6
          have := ih n q.1 b.1 t1 A1 nx q.2.1 pre1 (by simp at hn; omega) s1 (by rw [p1]; exact hi) hA1 hch
            (fun j hj hjp d hd => by
              rw [p1] at hjp
              rw [hkeep j hj hjp] at hd
              exact haft j hj hjp d hd)
            (by rw [e1]; exact hne)
          rw [e1] at this ⊢
          rcases this with hl | ⟨s', st', m', t', A', g1, g2, g3, g4, g5⟩ | hr
          · exact Or.inl hl
          · refine Or.inr (Or.inl ⟨s', st', m', t', A', g1, g2, g3, g4.trans p1, fun j hj hjp => ?_⟩)
            rw [g5 j hj (by rw [p1]; exact hjp), hkeep j hj hjp]
          · exact Or.inr (Or.inr hr)
      · exact Or.inr (Or.inr (Or.inl (by simp)))
      · exact Or.inr (Or.inr (Or.inr (by simp)))
      · rw [hbb] at hne; exact absurd rfl hne

theorem hiterate_sim {ops : KeyOps K} (law : ops.Lawful) (h0 : Heap (Entry K Ptr))
    (f : σ → K × Ptr → Spec.Calls (Spec.HashOp K) Spec.Ret σ) : ∀ (n i : Nat) (s : HState K Ptr)
    (m : Spec.MapState K) (t : Tab K Ptr) (A : Nat → List (Nat × Entry K Ptr)) (st : σ),
    t.prime - i < n → PSimA ops h0 s m t A →
    Spec.visit (Spec.hashCallStep (eqv ops)) f ((cellsFrom t.prime i A).map pairOf) m st ≠ .ub →
    Spec.ResRel (fun c b => c.2 = b.2 ∧ PSim ops h0 c.1 b.1) (hiterate ops f n i s st)
      (Spec.visit (Spec.hashCallStep (eqv ops)) f ((cellsFrom t.prime i A).map pairOf) m st) := by
  intro n
  induction n with
  | zero => intro i s m t A st hn; omega
  | succ n ih =>
    intro i s m t A st hn hs hne
    simp only [hiterate]
    rw [hs.rep.prime]
    by_cases hi : i < t.prime
    · rw [if_pos hi]
      rw [cellsFrom_lt A hi, List.map_append] at hne ⊢
      have hc := hs.rep.chain i hi
      have haft : ∀ j, i < j → j < t.prime → ∀ c ∈ A j, pairOf c ∈ (cellsFrom t.prime (i + 1) A).map pairOf := by
        intro j hj hjp c hcm
        refine List.mem_map.2 ⟨c, ?_, rfl⟩
        unfold cellsFrom
        rw [List.mem_flatMap]
        refine ⟨j, ?_, hcm⟩
        rw [List.mem_drop_iff_getElem]
        exact ⟨j - (i + 1), by simp; omega, by simp; omega⟩
      rcases hiterChain_sim law h0 f i _ (A i) s.1.clock s m t A (s.2.buckets i) st []
        (Heap.Chain.length_lt hs.rep.ok hc) hs hi rfl hc haft hne with
        ⟨q, b, e1, e2, e3, e4, t', A', e5⟩ | ⟨s', st', m', t', A', e1, e2, e3, e4, e5⟩ | ⟨e1, e2⟩ | ⟨e1, e2⟩
      · rw [e1, e3]
        simp only [Res.bind]
        rw [if_pos e2]
        exact ⟨e4, t', A', e5.rep, e5.sim, e5.owns⟩
      · rw [e1, e2]
        simp only [Res.bind]
        rw [if_neg (by simp)]
        have hsame : cellsFrom t'.prime (i + 1) A' = cellsFrom t.prime (i + 1) A := by
          unfold cellsFrom
          rw [e4, List.flatMap_def, List.flatMap_def]
          congr 1
          apply List.map_congr_left
          intro j hj
          rw [List.mem_drop_iff_getElem] at hj
          obtain ⟨x, hx, rfl⟩ := hj
          simp at hx
          simp only [List.getElem_range]
          exact e5 _ (by omega) (by omega)
        rw [← hsame]
        rw [e2, ← hsame] at hne
        exact ih (i + 1) s' m' t' A' st' (by rw [e4]; omega) e3 hne
      · rw [e1, e2]; trivial
      · rw [e1, e2]; trivial
    · rw [if_neg hi, cellsFrom_ge A (by omega)]
      exact ⟨rfl, t, A, hs.rep, hs.sim, hs.owns⟩

end Maa.HashHeap
