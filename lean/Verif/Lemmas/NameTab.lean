import Verif.Model.NameTab
import Verif.Lemmas.HashIter
import Verif.Lemmas.CStr

namespace Maa.NameTab

theorem nul_takeWhile (s : List Byte) : (0 : Byte) ∉ s.takeWhile (· ≠ 0) := by
  induction s with
  | nil => simp
  | cons b s ih =>
    by_cases h : b = 0
    · simp [h]
    · rw [List.takeWhile_cons_of_pos (by simp [h])]
      simp only [List.mem_cons, not_or]
      exact ⟨fun e => h e.symm, ih⟩

theorem takeWhile_self {s : List Byte} (h : (0 : Byte) ∉ s) : s.takeWhile (· ≠ 0) = s := by
  induction s with
  | nil => rfl
  | cons b s ih =>
    simp only [List.mem_cons, not_or] at h
    rw [List.takeWhile_cons_of_pos (by simp [Ne.symm h.1]), ih h.2]

theorem strOps_lawful : strOps.Lawful where
  refl a := CStr.strcmp_self _
  symm a b h := by
    rw [strOps, CStr.strcmp_zero (nul_takeWhile _) (nul_takeWhile _)] at *
    exact h.symm
  trans a b c h1 h2 := by
    rw [strOps, CStr.strcmp_zero (nul_takeWhile _) (nul_takeWhile _)] at *
    exact h1.trans h2
  hash a b h := by
    rw [strOps, CStr.strcmp_zero (nul_takeWhile _) (nul_takeWhile _)] at h
    simp only [strOps, h]

theorem eqv_strOps {a b : List Byte} (ha : (0 : Byte) ∉ a) (hb : (0 : Byte) ∉ b) : eqv strOps a b = (a == b) := by
  have : strOps.cmp a b = 0 ↔ a = b := by
    unfold strOps
    simp only
    rw [takeWhile_self ha, takeWhile_self hb, CStr.strcmp_zero ha hb]
  unfold eqv
  rw [Bool.eq_iff_iff, beq_iff_eq, this, beq_iff_eq]

open HashHeap (HTab PSim PSimA HRep Owns cellsFrom pairOf)

/-- The table represents a map from NUL-free names and is writable. -/
structure NRep (t : Table) (m : List (List Byte × Nat)) : Prop where
  sim : ∃ r ms, PSim strOps Heap.init t { map := m, readonly := 0, retrievals := r, misses := ms }
  nul : ∀ p ∈ m, (0 : Byte) ∉ p.1

theorem find_eqv {m : List (List Byte × Nat)} (h : ∀ p ∈ m, (0 : Byte) ∉ p.1) {s : List Byte} (hs : (0 : Byte) ∉ s) :
    Spec.find (eqv strOps) m s = Spec.find (· == ·) m s := by
  induction m with
  | nil => rfl
  | cons p m ih =>
    obtain ⟨k, d⟩ := p
    simp only [Spec.find]
    rw [eqv_strOps (h (k, d) (by simp)) hs, ih fun p hp => h p (by simp [hp])]

theorem insert_eqv {m : List (List Byte × Nat)} (h : ∀ p ∈ m, (0 : Byte) ∉ p.1) {s : List Byte} (hs : (0 : Byte) ∉ s)
    (d : Nat) : Spec.insert (eqv strOps) m s d = Spec.insert (· == ·) m s d := by
  unfold Spec.insert
  rw [find_eqv h hs]

theorem create_rep : ∃ t, create = .ok t ∧ NRep t [] := by
  obtain ⟨ht, h1, h2⟩ := HashHeap.heap_history strOps_lawful Heap.init Heap.Ok.init0 []
  simp only [Spec.run, Spec.ResRel] at h2
  exact ⟨_, by unfold create; rw [h1]; rfl, ⟨0, 0, h2.2⟩, by simp⟩

theorem insert_nul {m : List (List Byte × Nat)} (h : ∀ p ∈ m, (0 : Byte) ∉ p.1) {s : List Byte} (hs : (0 : Byte) ∉ s)
    (d : Nat) : ∀ p ∈ (Spec.insert (· == ·) m s d).1, (0 : Byte) ∉ p.1 := by
  unfold Spec.insert
  cases Spec.find (· == ·) m s with
  | some _ => exact h
  | none =>
    intro p hp
    rcases List.mem_cons.1 hp with rfl | hp
    · exact hs
    · exact h p hp

theorem NRep.insert_key {t : Table} {m : List (List Byte × Nat)} (h : NRep t m) {s : List Byte} (hs : (0 : Byte) ∉ s)
    (d : Nat) : ∃ t', insertKey t s d = .ok (t', (Spec.insert (· == ·) m s d).2) ∧
      NRep t' (Spec.insert (· == ·) m s d).1 := by
  obtain ⟨r, ms, h1⟩ := h.sim
  have h2 := HashHeap.heapStep_sim strOps_lawful Heap.init t _ (.insert s d) h1
  simp only [HashHeap.heapStep, Spec.hashStep, ne_eq, not_true_eq_false, if_false] at h2
  unfold insertKey
  cases hc : HashHeap.hinsert strOps t.1 t.2 s d <;> rw [hc] at h2 <;> simp only [Res.bind, Spec.ResRel] at h2
  rename_i c
  rw [insert_eqv h.nul hs] at h2
  obtain ⟨e1, e2⟩ := h2
  refine ⟨c.1, ?_, ⟨r, ms, e2⟩, insert_nul h.nul hs d⟩
  simp only [Spec.Ret.int.injEq] at e1
  rw [← e1]

theorem NRep.retrieve_key {t : Table} {m : List (List Byte × Nat)} (h : NRep t m) {s : List Byte} (hs : (0 : Byte) ∉ s) :
    ∃ t', retrieveKey t s = .ok (t', (Spec.find (· == ·) m s).getD 0) ∧ NRep t' m := by
  obtain ⟨r, ms, h1⟩ := h.sim
  have h2 := HashHeap.heapStep_sim strOps_lawful Heap.init t _ (.retrieve s) h1
  simp only [HashHeap.heapStep, Spec.hashStep] at h2
  rw [find_eqv h.nul hs] at h2
  unfold retrieveKey
  cases hc : HashHeap.hretrieve strOps t.1 t.2 s with
  | ok c =>
    rw [hc] at h2
    cases hf : Spec.find (· == ·) m s with
    | none =>
      rw [hf] at h2
      simp only [Res.bind, Spec.ResRel] at h2
      obtain ⟨e1, e2⟩ := h2
      refine ⟨c.1, ?_, ⟨_, _, e2⟩, h.nul⟩
      simp only [Spec.Ret.ptr.injEq] at e1
      simp only [Res.bind, Option.getD_none, Res.ok.injEq, Prod.mk.injEq, true_and]
      cases hx : c.2 <;> rw [hx] at e1 <;> simpa using e1
    | some d =>
      rw [hf] at h2
      simp only [Res.bind, Spec.ResRel] at h2
      obtain ⟨e1, e2⟩ := h2
      refine ⟨c.1, ?_, ⟨_, _, e2⟩, h.nul⟩
      simp only [Spec.Ret.ptr.injEq] at e1
      simp only [Res.bind, Option.getD_some, Res.ok.injEq, Prod.mk.injEq, true_and]
      cases hx : c.2 <;> rw [hx] at e1 <;> simpa using e1
  | _ => rw [hc] at h2; cases hf : Spec.find (· == ·) m s <;> rw [hf] at h2 <;> simp [Res.bind, Spec.ResRel] at h2

theorem NRep.insert {t : Table} {m : List (List Byte × Nat)} (h : NRep t m) {s : List Byte} (hs : (0 : Byte) ∉ s)
    (rest : List Byte) (d : Nat) : ∃ t', insert t (some (s ++ 0 :: rest)) d = .ok (t', (Spec.insert (· == ·) m s d).2) ∧
      NRep t' (Spec.insert (· == ·) m s d).1 := by
  have e : argKey (some (s ++ 0 :: rest)) = .ok s := CStr.cstr_append s hs rest
  unfold NameTab.insert
  rw [e]
  exact h.insert_key hs d

theorem NRep.retrieve {t : Table} {m : List (List Byte × Nat)} (h : NRep t m) {s : List Byte} (hs : (0 : Byte) ∉ s)
    (rest : List Byte) : ∃ t', retrieve t (some (s ++ 0 :: rest)) = .ok (t', (Spec.find (· == ·) m s).getD 0) ∧ NRep t' m := by
  have e : argKey (some (s ++ 0 :: rest)) = .ok s := CStr.cstr_append s hs rest
  unfold NameTab.retrieve
  rw [e]
  exact h.retrieve_key hs

theorem NRep.destroy {t : Table} {m : List (List Byte × Nat)} (h : NRep t m) : destroy t = .ok () := by
  obtain ⟨r, ms, tt, A, hr, sim, ow⟩ := h.sim
  obtain ⟨h', h1, -⟩ := HashHeap.destroy_ok hr ow (hr.ro.trans sim.ro)
  unfold NameTab.destroy
  rw [h1]; rfl

/-- destroying frees exactly the cells of the table -/
theorem NRep.destroy_frees {t : Table} {m : List (List Byte × Nat)} (h : NRep t m) :
    ∃ h', HashHeap.hdestroy t.1 t.2 = .ok h' ∧ ∀ a, h'.mem a = none := by
  obtain ⟨r, ms, tt, A, hr, sim, ow⟩ := h.sim
  obtain ⟨h', h1, h2, -⟩ := HashHeap.destroy_ok hr ow (hr.ro.trans sim.ro)
  exact ⟨h', h1, fun a => by rw [h2]; rfl⟩

theorem NRep.distinct {t : Table} {m : List (List Byte × Nat)} (h : NRep t m) :
    m.Pairwise (fun p q => p.1 ≠ q.1) := by
  obtain ⟨r, ms, tt, A, hr, sim, ow⟩ := h.sim
  refine (sim.rep.spec_distinct strOps_lawful).imp_of_mem ?_
  intro p q hp hq e
  rw [eqv_strOps (h.nul p hp) (h.nul q hq)] at e
  simpa using e

theorem cells_perm {h : Heap (Tab.Entry (List Byte) Ptr)} {ht : HTab} {t : Tab.Tab (List Byte) Ptr} {A}
    {m : List (List Byte × Ptr)} (r : HRep h ht t A) (rep : Tab.Rep strOps t m) :
    ((cellsFrom t.prime 0 A).map pairOf).Perm m := by
  have := rep.perm
  unfold Tab.pairsOf at this
  rw [← HashHeap.cells_map r, List.map_map] at this
  exact this

/-- iteration with a callback that may call the table back -/
theorem NRep.iterate {σ : Type} {t : Table} {m : List (List Byte × Nat)} (h : NRep t m)
    (f : σ → List Byte × Ptr → Spec.Calls (Spec.HashOp (List Byte)) Spec.Ret σ) (st : σ) :
    ∃ (order : List (List Byte × Ptr)) (r ms : Nat), order.Perm m ∧
      (Spec.visit (Spec.hashCallStep (eqv strOps)) f order { map := m, readonly := 0, retrievals := r, misses := ms } st ≠ .ub →
        Spec.ResRel (fun c b => c.2 = b.2 ∧ PSim strOps Heap.init c.1 b.1) (iterate t f st)
          (Spec.visit (Spec.hashCallStep (eqv strOps)) f order { map := m, readonly := 0, retrievals := r, misses := ms } st)) := by
  obtain ⟨r, ms, tt, A, hr, sim, ow⟩ := h.sim
  refine ⟨(cellsFrom tt.prime 0 A).map pairOf, r, ms, cells_perm hr sim.rep, fun hne => ?_⟩
  exact HashHeap.hiterate_sim strOps_lawful Heap.init f (t.2.prime + 1) 0 t _ tt A st (by rw [hr.prime]; omega) ⟨hr, sim, ow⟩ hne

theorem visit_quiet {σ : Type} (g : σ → List Byte × Ptr → σ) (s : Spec.MapState (List Byte)) (order : List (List Byte × Ptr)) :
    ∀ st, Spec.visit (Spec.hashCallStep (eqv strOps)) (quiet g) order s st = .ok (s, order.foldl g st, 0) := by
  induction order with
  | nil => intro st; rfl
  | cons p l ih => intro st; simp [Spec.visit, quiet, Spec.Calls.run, Res.bind, ih]

theorem hiterChain_quiet {σ : Type} (g : σ → List Byte × Ptr → σ) : ∀ (n : Nat) (s : Table) (pt : Nat) (st : σ) (q),
    HashHeap.hiterChain strOps (quiet g) n s pt st = .ok q → q.1 = s := by
  intro n
  induction n with
  | zero => intro s pt st q h; simp [HashHeap.hiterChain] at h
  | succ n ih =>
    intro s pt st q h
    simp only [HashHeap.hiterChain] at h
    by_cases h0 : pt = 0
    · rw [if_pos h0] at h; simp only [Res.ok.injEq] at h; rw [← h]
    rw [if_neg h0] at h
    cases hr : s.1.read pt <;> rw [hr] at h <;> simp only [Res.bind, quiet, Spec.Calls.run] at h
    · rw [if_neg (by simp)] at h
      exact ih _ _ _ _ h
    all_goals simp at h

theorem hiterate_quiet {σ : Type} (g : σ → List Byte × Ptr → σ) : ∀ (n i : Nat) (s : Table) (st : σ) (q),
    HashHeap.hiterate strOps (quiet g) n i s st = .ok q → q.1 = s := by
  intro n
  induction n with
  | zero => intro i s st q h; simp [HashHeap.hiterate] at h
  | succ n ih =>
    intro i s st q h
    simp only [HashHeap.hiterate] at h
    by_cases h0 : i < s.2.prime
    · rw [if_pos h0] at h
      cases hc : HashHeap.hiterChain strOps (quiet g) s.1.clock s (s.2.buckets i) st <;> rw [hc] at h <;>
        simp only [Res.bind] at h
      · rename_i c
        have e := hiterChain_quiet g _ _ _ _ _ hc
        by_cases hz : c.2.2 ≠ 0
        · rw [if_pos hz] at h; simp only [Res.ok.injEq] at h; rw [← h]; exact e
        · rw [if_neg hz] at h
          rw [← e]
          exact ih _ _ _ _ h
      all_goals simp at h
    · rw [if_neg h0] at h; simp only [Res.ok.injEq] at h; rw [← h]

/-- the same, whatever the read-only flag and the counters -/
theorem iterate_quiet_sim {σ : Type} {t : Table} {s : Spec.MapState (List Byte)} (h : PSim strOps Heap.init t s)
    (g : σ → List Byte × Ptr → σ) (st : σ) :
    ∃ order : List (List Byte × Ptr), order.Perm s.map ∧ NameTab.iterate t (quiet g) st = .ok (t, order.foldl g st, 0) := by
  obtain ⟨tt, A, hr, sim, ow⟩ := h
  refine ⟨(cellsFrom tt.prime 0 A).map pairOf, cells_perm hr sim.rep, ?_⟩
  have h2 := HashHeap.hiterate_sim strOps_lawful Heap.init (quiet g) (t.2.prime + 1) 0 t s tt A st (by rw [hr.prime]; omega) ⟨hr, sim, ow⟩
    (by rw [visit_quiet]; simp)
  rw [visit_quiet] at h2
  cases hc : NameTab.iterate t (quiet g) st <;> (unfold NameTab.iterate at hc; rw [hc] at h2; simp only [Spec.ResRel] at h2)
  rename_i c
  have e := hiterate_quiet g _ _ _ _ _ hc
  rw [← e, ← h2.1]

/-- iteration with a callback that only looks -/
theorem NRep.iterate_quiet {σ : Type} {t : Table} {m : List (List Byte × Nat)} (h : NRep t m)
    (g : σ → List Byte × Ptr → σ) (st : σ) :
    ∃ order : List (List Byte × Ptr), order.Perm m ∧ NameTab.iterate t (quiet g) st = .ok (t, order.foldl g st, 0) := by
  obtain ⟨order, r, ms, hp, h1⟩ := h.iterate (quiet g) st
  rw [visit_quiet] at h1
  have h2 := h1 (by simp)
  refine ⟨order, hp, ?_⟩
  cases hc : NameTab.iterate t (quiet g) st <;> rw [hc] at h2 <;> simp only [Spec.ResRel] at h2
  rename_i c
  have e := hiterate_quiet g _ _ _ _ _ hc
  rw [← e, ← h2.1]

theorem scanFrom_ok (p : List Byte × Ptr → Bool) {h : Heap (Tab.Entry (List Byte) Ptr)} {ht : HTab}
    {t : Tab.Tab (List Byte) Ptr} {A} (r : HRep h ht t A)
    (slot : ∀ i < t.prime, ∀ e ∈ t.buckets i, e.hash % t.prime = i)
    (rem : List (Nat × Tab.Entry (List Byte) Ptr)) : ∀ (n pos : Nat), rem.length < n →
    HashHeap.At t.prime A pos rem →
    scanFrom p n (h, ht) pos = .ok ((h, { ht with readonly := 0 }), (rem.map pairOf).find? p) := by
  induction rem with
  | nil =>
    intro n pos hn hat
    obtain ⟨e, rest, h1, -⟩ := hat.cell
    simp at h1
  | cons c rest ih =>
    intro n pos hn hat
    cases n with
    | zero => omega
    | succ n =>
      obtain ⟨e, rest', h1, i, hi, hmem⟩ := hat.cell
      simp only [List.cons.injEq] at h1
      obtain ⟨h1, h1'⟩ := h1
      subst h1'
      rw [h1] at hat ⊢
      obtain ⟨hp0, nx, hm⟩ := HashHeap.cell_mem r hi hmem
      simp only [scanFrom, if_neg hp0, HashHeap.getPosition, Heap.read_ok hm, Res.bind, List.map_cons, List.find?_cons, pairOf]
      cases hpk : p (e.key, e.datum) with
      | true => simp
      | false =>
        simp only [Bool.false_eq_true, if_false]
        rcases HashHeap.nextPosition_ok r slot hat with ⟨f1, f2⟩ | ⟨q, f1, f2, f3⟩
        · rw [f2]
          simp only
          cases n with
          | zero => simp at hn
          | succ n => simp [scanFrom, f1]
        · rw [f2]
          simp only
          exact ih n q (by simp at hn; omega) f3

/-- `HSH_ITERATE` with an early exit: finds a matching pair if there is one, leaves the table as it was -/
theorem NRep.scan {t : Table} {m : List (List Byte × Nat)} (h : NRep t m) (p : List Byte × Ptr → Bool) :
    ∃ order : List (List Byte × Ptr), order.Perm m ∧ scan t p = .ok (t, order.find? p) := by
  obtain ⟨r, ms, tt, A, hr, sim, ow⟩ := h.sim
  have hperm := cells_perm hr sim.rep
  have hro : t.2.readonly = 0 := hr.ro.trans sim.ro
  refine ⟨_, hperm, ?_⟩
  have hlen : (cellsFrom tt.prime 0 A).length < t.2.entries + 1 := by
    have h1 := hperm.length_eq
    rw [List.length_map] at h1
    rw [h1, hr.entries, sim.rep.inv.count, ← sim.rep.perm.length_eq]
    simp [Tab.pairsOf]
  unfold NameTab.scan
  rcases HashHeap.initPosition_ok hr with ⟨i1, i2⟩ | ⟨pos, i0, i1, i2⟩
  · rw [i2, i1]
    simp [scanFrom]
  · rw [i1]
    have := scanFrom_ok p (hr.withRo 1) (fun i hi e he => (sim.rep.inv.slot i hi e he).2) _ (t.2.entries + 1) pos hlen i2
    simp only at this ⊢
    rw [this]
    have e : ({ t.2 with readonly := 0 } : HTab) = t.2 := by
      cases hT : t.2; rw [hT] at hro; simp only at hro; rw [hro]
    rw [e]

end Maa.NameTab
