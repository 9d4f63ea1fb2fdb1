import Verif.Lemmas.TabLoose
import Verif.Props.HashIter

/-! # Property C88: hash tables and sets with any hash and comparison functions -/

namespace Maa.HashHeap

open Tab (Entry Tab Kept stored)
open Spec (LooseTab Stored HashOp OneSetOp Ret MapState hashMay setMay mayRun)

variable {K D : Type}

/-- A hash table in memory, each call with the functions as they answer during that call. -/
def looseStep (s : Heap (Entry K Ptr) × HTab) (o : KeyOps K × HashOp K) : Res ((Heap (Entry K Ptr) × HTab) × Ret) := heapStep o.1 s o.2

/-- The same for a set. -/
def looseSetStep (s : Heap (Entry K Unit) × HTab) (o : KeyOps K × OneSetOp K) : Res ((Heap (Entry K Unit) × HTab) × Int) := setHeapStep o.1 s o.2

theorem hash_history_loose (h0 : Heap (Entry K Ptr)) (ok0 : h0.Ok) (hist : List (KeyOps K × HashOp K)) :
    ∃ ht, hcreate 0 = .ok ht ∧ ∃ r, mayRun hashMay {} hist r ∧
      Spec.ResRel (fun c b => c.2 = b.2 ∧ ∃ t A, LSim h0 c.1 b.1 t A) (Spec.run looseStep (h0, ht) hist) r := by
  obtain ⟨ht, t, A, h1, h2⟩ := create_loose h0 ok0
  exact ⟨ht, h1, run_loose (R := fun s m => ∃ t A, LSim h0 s m t A) (fun s m o ⟨_, _, h⟩ => heapStep_loose h o) hist _ _ ⟨t, A, h2⟩⟩

theorem set_history_loose (h0 : Heap (Entry K Unit)) (ok0 : h0.Ok) (hist : List (KeyOps K × OneSetOp K)) :
    ∃ ht, hcreate 0 = .ok ht ∧ ∃ r, mayRun setMay {} hist r ∧
      Spec.ResRel (fun c b => c.2 = b.2 ∧ ∃ t A, LSim h0 c.1 b.1 t A) (Spec.run looseSetStep (h0, ht) hist) r := by
  obtain ⟨ht, t, A, h1, h2⟩ := create_loose h0 ok0
  exact ⟨ht, h1, run_loose (R := fun s m => ∃ t A, LSim h0 s m t A) (fun s m o ⟨_, _, h⟩ => setHeapStep_loose h o) hist _ _ ⟨t, A, h2⟩⟩

/-- C88: whatever the functions answer, a history of calls on a hash table returns what Spec/TabLoose.lean allows: a pair is neither lost nor
doubled nor invented, a search gives no datum whose key did not compare equal, and it cannot miss a pair whose key compares equal and still has
the hash value it was inserted with. -/
theorem C88_hash (h0 : Heap (Entry K Ptr)) (ok0 : h0.Ok) (hist : List (KeyOps K × HashOp K)) :
    ∃ r, mayRun hashMay {} hist r ∧
      ((hcreate 0).bind fun t => Spec.observe (Spec.run looseStep (h0, t) hist)) = Spec.observe r := by
  obtain ⟨ht, h1, r, h2, h3⟩ := hash_history_loose h0 ok0 hist
  exact ⟨r, h2, by rw [h1]; exact Spec.ResRel.observe (R := fun s m => ∃ t A, LSim h0 s m t A) h3⟩

/-- C88 for sets. -/
theorem C88_set (h0 : Heap (Entry K Unit)) (ok0 : h0.Ok) (hist : List (KeyOps K × OneSetOp K)) :
    ∃ r, mayRun setMay {} hist r ∧
      ((hcreate 0).bind fun t => Spec.observe (Spec.run looseSetStep (h0, t) hist)) = Spec.observe r := by
  obtain ⟨ht, h1, r, h2, h3⟩ := set_history_loose h0 ok0 hist
  exact ⟨r, h2, by rw [h1]; exact Spec.ResRel.observe (R := fun s m => ∃ t A, LSim h0 s m t A) h3⟩

theorem mayRun_ends {S O X : Type} {may : S → O → Res (S × X) → Prop} (h : ∀ s o r, may s o r → r = .abort ∨ ∃ a, r = .ok a) (hist : List O) :
    ∀ s r, mayRun may s hist r → r = .abort ∨ ∃ a, r = .ok a := by
  induction hist with
  | nil => intro s r hr; exact Or.inr ⟨_, hr⟩
  | cons o os ih =>
    rintro s r ⟨q, h1, h2⟩
    rcases h s o q h1 with rfl | ⟨a, rfl⟩
    · exact Or.inl h2
    · obtain ⟨p, h3, rfl⟩ := h2
      rcases ih _ _ h3 with rfl | ⟨b, rfl⟩
      · exact Or.inl rfl
      · exact Or.inr ⟨_, rfl⟩

theorem hashMay_ends (m : LooseTab K Nat) (o : KeyOps K × HashOp K) (r : Res (LooseTab K Nat × Ret)) (h : hashMay m o r) :
    (r = .abort ∧ m.readonly ≠ 0) ∨ ∃ a, r = .ok a := by
  obtain ⟨ops, o⟩ := o
  cases o with
  | insert k d =>
    simp only [hashMay] at h
    split at h
    · exact Or.inl ⟨h, by assumption⟩
    · obtain ⟨_, _, -, rfl⟩ := h; exact Or.inr ⟨_, rfl⟩
  | delete k =>
    simp only [hashMay] at h
    split at h
    · exact Or.inl ⟨h, by assumption⟩
    · obtain ⟨_, _, -, rfl⟩ := h; exact Or.inr ⟨_, rfl⟩
  | retrieve k =>
    obtain ⟨x, -, rfl⟩ := h
    cases x <;> exact Or.inr ⟨_, rfl⟩
  | readonly f => exact Or.inr ⟨_, h⟩

theorem setMay_ends (m : LooseTab K Unit) (o : KeyOps K × OneSetOp K) (r : Res (LooseTab K Unit × Int)) (h : setMay m o r) :
    (r = .abort ∧ m.readonly ≠ 0) ∨ ∃ a, r = .ok a := by
  obtain ⟨ops, o⟩ := o
  cases o with
  | insert k =>
    simp only [setMay] at h
    split at h
    · exact Or.inl ⟨h, by assumption⟩
    · obtain ⟨_, _, -, rfl⟩ := h; exact Or.inr ⟨_, rfl⟩
  | delete k =>
    simp only [setMay] at h
    split at h
    · exact Or.inl ⟨h, by assumption⟩
    · obtain ⟨_, _, -, rfl⟩ := h; exact Or.inr ⟨_, rfl⟩
  | member k =>
    obtain ⟨x, -, rfl⟩ := h
    cases x <;> exact Or.inr ⟨_, rfl⟩
  | readonly f => exact Or.inr ⟨_, h⟩

/-- C88: no hash or comparison function brings a table into undefined behaviour; a history returns, or ends the program with the message of the
read-only check. -/
theorem C88_safe (h0 : Heap (Entry K Ptr)) (ok0 : h0.Ok) (hist : List (KeyOps K × HashOp K)) (t0 : HTab) (hc : hcreate 0 = .ok t0) :
    Spec.run looseStep (h0, t0) hist = .abort ∨ ∃ a, Spec.run looseStep (h0, t0) hist = .ok a := by
  obtain ⟨ht, h1, r, h2, h3⟩ := hash_history_loose h0 ok0 hist
  rw [hc] at h1
  cases h1
  rcases mayRun_ends (fun s o r h => (hashMay_ends s o r h).imp And.left id) hist _ _ h2 with rfl | ⟨a, rfl⟩
  all_goals cases he : Spec.run looseStep (h0, t0) hist <;> rw [he] at h3 <;> simp [Spec.ResRel] at h3 ⊢

/-- C88 for sets. -/
theorem C88_set_safe (h0 : Heap (Entry K Unit)) (ok0 : h0.Ok) (hist : List (KeyOps K × OneSetOp K)) (t0 : HTab) (hc : hcreate 0 = .ok t0) :
    Spec.run looseSetStep (h0, t0) hist = .abort ∨ ∃ a, Spec.run looseSetStep (h0, t0) hist = .ok a := by
  obtain ⟨ht, h1, r, h2, h3⟩ := set_history_loose h0 ok0 hist
  rw [hc] at h1
  cases h1
  rcases mayRun_ends (fun s o r h => (setMay_ends s o r h).imp And.left id) hist _ _ h2 with rfl | ⟨a, rfl⟩
  all_goals cases he : Spec.run looseSetStep (h0, t0) hist <;> rw [he] at h3 <;> simp [Spec.ResRel] at h3 ⊢

/-- C88, what the table is like after such a history: for one of the allowed outcomes `m`, the flag and the counters are those of `m`; the
statistics can be asked for and count the pairs of `m`; `hsh_iterate` and `HSH_ITERATE` (looking keys up in the body with any functions `ops`)
visit exactly the pairs of `m`; nothing else in memory has been touched, and destroying the table gives back all of its memory. -/
theorem C88_hash_state (h0 : Heap (Entry K Ptr)) (ok0 : h0.Ok) (hist : List (KeyOps K × HashOp K)) (t0 t : HTab) (h : Heap (Entry K Ptr))
    (outs : List Ret) (hc : hcreate 0 = .ok t0) (hr : Spec.run looseStep (h0, t0) hist = .ok ((h, t), outs)) :
    ∃ m : LooseTab K Nat, mayRun hashMay {} hist (.ok (m, outs)) ∧
      t.readonly = m.readonly ∧ t.retrievals = m.retrievals ∧ t.misses = m.misses ∧
      (∃ s, hgetStats h t = .ok s ∧ s.entries = m.pairs.length) ∧
      (∀ (σ : Type) (ops : KeyOps K) (f : σ → K × Ptr → σ × Int) (st : σ) (n : Nat), t.prime < n →
        ∃ st' log x, hiterate ops (fun q p => .ret (Spec.recorder f q p).1 (Spec.recorder f q p).2) n 0 (h, t) (st, []) = .ok ((h, t), (st', log), x) ∧
          Spec.IterationOf m.contents log x) ∧
      (∀ (ops : KeyOps K) (body : Nat → List K) (n : Nat), m.pairs.length < n →
        ∃ t' log, positionLoop ops body n (h, (initPosition t).1) (initPosition t).2 [] = .ok ((h, t'), log) ∧
          (log.map Prod.fst).Perm m.contents ∧ (∀ visit ∈ log, visit.2 = 1) ∧ (m.pairs ≠ [] → t'.readonly = 0)) ∧
      (∀ a, (h0.mem a).isSome → h.mem a = h0.mem a) ∧
      (t.readonly = 0 → ∃ h', hdestroy h t = .ok h' ∧ h'.mem = h0.mem) := by
  obtain ⟨ht, h1, r, h2, h3⟩ := hash_history_loose h0 ok0 hist
  rw [hc] at h1
  cases h1
  rw [hr] at h3
  cases r <;> simp only [Spec.ResRel] at h3
  rename_i b
  obtain ⟨m, outs'⟩ := b
  obtain ⟨e, T, A, S⟩ := h3
  have e' : outs = outs' := e
  subst e'
  refine ⟨m, h2, S.rep.ro.trans S.ro, S.rep.retrievals.trans S.retr, S.rep.misses.trans S.miss, ?_, ?_, ?_, S.owns.old, fun ro => ?_⟩
  · obtain ⟨s, s1, s2⟩ := S.kept.stats
    exact ⟨s, by rw [← s1]; exact hgetStats_ok S.rep, s2⟩
  · intro σ ops f st n hn
    have hp : t.prime = T.prime := S.rep.prime
    refine ⟨_, _, _, hiterate_still ops (Spec.recorder f) (s := (h, t)) S.rep n 0 (st, []) (by omega), ?_⟩
    exact Tab.loop_iteration f st _ _ S.cells
  · intro ops body n hn
    obtain ⟨t', log, -, -, p1, p2, p3, p4, -⟩ := positions_loose ops body S n hn
    exact ⟨t', log, p1, p2, p3, p4⟩
  · obtain ⟨h', d1, d2, -⟩ := destroy_ok S.rep S.owns ro
    exact ⟨h', d1, d2⟩

/-- C88 for sets: `set_iterate` and `SET_ITERATE`, statistics, memory. -/
theorem C88_set_state (h0 : Heap (Entry K Unit)) (ok0 : h0.Ok) (hist : List (KeyOps K × OneSetOp K)) (t0 t : HTab) (h : Heap (Entry K Unit))
    (outs : List Int) (hc : hcreate 0 = .ok t0) (hr : Spec.run looseSetStep (h0, t0) hist = .ok ((h, t), outs)) :
    ∃ m : LooseTab K Unit, mayRun setMay {} hist (.ok (m, outs)) ∧
      t.readonly = m.readonly ∧ t.retrievals = m.retrievals ∧ t.misses = m.misses ∧
      (∃ s, hgetStats h t = .ok s ∧ s.entries = m.pairs.length) ∧
      (∀ (σ : Type) (ops : KeyOps K) (f : σ → K × Unit → σ × Int) (st : σ) (n : Nat), t.prime < n →
        ∃ st' log x, siterate ops (fun q p => .ret (Spec.recorder f q p).1 (Spec.recorder f q p).2) n (h, t) (st, []) = .ok ((h, t), (st', log), x) ∧
          Spec.IterationOf m.contents log x) ∧
      (∀ (ops : KeyOps K) (body : Nat → List K) (n : Nat), m.pairs.length < n →
        ∃ t' log, positionLoop ops body n (h, (initPosition t).1) (initPosition t).2 [] = .ok ((h, t'), log) ∧
          (log.map Prod.fst).Perm m.contents ∧ (∀ visit ∈ log, visit.2 = 1) ∧ (m.pairs ≠ [] → t'.readonly = 0)) ∧
      (∀ a, (h0.mem a).isSome → h.mem a = h0.mem a) ∧
      (t.readonly = 0 → ∃ h', hdestroy h t = .ok h' ∧ h'.mem = h0.mem) := by
  obtain ⟨ht, h1, r, h2, h3⟩ := set_history_loose h0 ok0 hist
  rw [hc] at h1
  cases h1
  rw [hr] at h3
  cases r <;> simp only [Spec.ResRel] at h3
  rename_i b
  obtain ⟨m, outs'⟩ := b
  obtain ⟨e, T, A, S⟩ := h3
  have e' : outs = outs' := e
  subst e'
  refine ⟨m, h2, S.rep.ro.trans S.ro, S.rep.retrievals.trans S.retr, S.rep.misses.trans S.miss, ?_, ?_, ?_, S.owns.old, fun ro => ?_⟩
  · obtain ⟨s, s1, s2⟩ := S.kept.stats
    exact ⟨s, by rw [← s1]; exact hgetStats_ok S.rep, s2⟩
  · intro σ ops f st n hn
    have hp : t.prime = T.prime := S.rep.prime
    have r' : HRep h { t with readonly := 1 } { T with readonly := 1 } A := S.rep.withRo 1
    have := siterLoop_still ops (Spec.recorder f) (s := (h, { t with readonly := 1 })) r' n 0 (st, []) (by
      show T.prime - 0 < n
      omega)
    refine ⟨(Tab.loop (Spec.recorder f) (st, []) ((cellsFrom T.prime 0 A).map fun c => (c.2.key, c.2.datum))).1.1, _, _, ?_,
      Tab.loop_iteration f st _ _ S.cells⟩
    simp only [siterate, this, Res.bind]
  · intro ops body n hn
    obtain ⟨t', log, -, -, p1, p2, p3, p4, -⟩ := positions_loose ops body S n hn
    exact ⟨t', log, p1, p2, p3, p4⟩
  · obtain ⟨h', d1, d2, -⟩ := destroy_ok S.rep S.owns ro
    exact ⟨h', d1, d2⟩

/-! ## Changing a key that is in the table -/

/-- The key a call names. -/
def keyOf : HashOp K → Option K
  | .insert k _ => some k
  | .delete k => some k
  | .retrieve k => some k
  | .readonly _ => none

/-- The pairs of `L` are those of the map, and besides them the pairs `bad`. -/
structure Beside (ops : KeyOps K) (bad : List (Stored K Nat)) (L : LooseTab K Nat) (m : MapState K) : Prop where
  good : ∃ good, L.pairs.Perm (bad ++ good) ∧ (∀ e ∈ good, e.hash = ops.hash e.key) ∧ (good.map fun e => (e.key, e.datum)).Perm m.map
  distinct : Spec.Distinct (eqv ops) m.map
  ro : L.readonly = m.readonly
  retr : L.retrievals = m.retrievals
  miss : L.misses = m.misses

theorem Beside.sure_of {ops : KeyOps K} {bad : List (Stored K Nat)} {L : LooseTab K Nat} {m : MapState K} (h : Beside ops bad L m)
    (law : ops.Lawful) {k : K} (hs : ¬ Spec.Sure ops L.pairs k) : Spec.find (eqv ops) m.map k = none := by
  obtain ⟨good, g1, g2, g3⟩ := h.good
  rw [Tab.find_none]
  intro p hp
  obtain ⟨e, he, rfl⟩ := List.mem_map.1 (g3.mem_iff.2 hp)
  by_contra hc
  have hc' : ops.cmp e.key k = 0 := by simpa [eqv] using hc
  exact hs ⟨e, g1.mem_iff.2 (by simp [he]), by rw [g2 e he, law.hash _ _ hc'], hc'⟩

theorem Beside.found {ops : KeyOps K} {bad : List (Stored K Nat)} {L : LooseTab K Nat} {m : MapState K} (h : Beside ops bad L m)
    (law : ops.Lawful) {k : K} (hb : ∀ e ∈ bad, eqv ops e.key k = false) {e : Stored K Nat} (he : e ∈ L.pairs) (hm : Spec.Matches ops k e) :
    Spec.find (eqv ops) m.map k = some e.datum := by
  obtain ⟨good, g1, g2, g3⟩ := h.good
  have hm' : eqv ops e.key k = true := by simp only [eqv, beq_iff_eq]; exact hm
  rcases List.mem_append.1 (g1.mem_iff.1 he) with h1 | h1
  · rw [hb e h1] at hm'; cases hm'
  · exact Tab.find_unique law m.map h.distinct k e.key e.datum (g3.mem_iff.1 (List.mem_map.2 ⟨e, h1, rfl⟩)) hm'

theorem filter_unique {ops : KeyOps K} (law : ops.Lawful) {k k' : K} {d : Nat} {l1 l2 : List (K × Nat)}
    (hd : Spec.Distinct (eqv ops) (l1 ++ (k', d) :: l2)) (hk : eqv ops k' k = true) :
    (l1 ++ (k', d) :: l2).filter (fun p => !eqv ops p.1 k) = l1 ++ l2 := by
  unfold Spec.Distinct at hd
  rw [List.pairwise_append, List.pairwise_cons] at hd
  obtain ⟨-, ⟨h2, -⟩, h3⟩ := hd
  rw [List.filter_append, List.filter_cons_of_neg (by simp [hk])]
  congr 1
  · rw [List.filter_eq_self]
    intro p hp
    have h4 := h3 p hp (k', d) (by simp)
    by_contra hc
    have hc' : eqv ops p.1 k = true := by simpa using hc
    have := Tab.eqv_trans law hc' (by rw [Tab.eqv_symm law]; exact hk : eqv ops k k' = true)
    simp only at h4
    rw [h4] at this; cases this
  · rw [List.filter_eq_self]
    intro p hp
    have h4 := h2 p hp
    by_contra hc
    have hc' : eqv ops p.1 k = true := by simpa using hc
    have := Tab.eqv_trans law hk (by rw [Tab.eqv_symm law]; exact hc' : eqv ops k p.1 = true)
    simp only at h4
    rw [h4] at this; cases this

theorem perm_filter_erase {ops : KeyOps K} (law : ops.Lawful) {k : K} {good : List (Stored K Nat)} {g1 g2 : List (Stored K Nat)} {e : Stored K Nat}
    {m : List (K × Nat)} (hg : good = g1 ++ e :: g2) (hp : (good.map fun e => (e.key, e.datum)).Perm m) (hd : Spec.Distinct (eqv ops) m)
    (hk : eqv ops e.key k = true) : ((g1 ++ g2).map fun e => (e.key, e.datum)).Perm (m.filter fun p => !eqv ops p.1 k) := by
  subst hg
  have hd' := (Tab.spec_distinct_perm law hp).2 hd
  refine List.Perm.trans ?_ (hp.filter _)
  rw [List.map_append, List.map_cons] at hd'
  rw [List.map_append, List.map_append, List.map_cons, filter_unique law hd' hk]

theorem beside_step {ops : KeyOps K} (law : ops.Lawful) {bad : List (Stored K Nat)} {L : LooseTab K Nat} {m : MapState K} (h : Beside ops bad L m)
    {o : HashOp K} (hb : ∀ k, keyOf o = some k → ∀ e ∈ bad, eqv ops e.key k = false) {r : Res (LooseTab K Nat × Ret)} (hr : hashMay L (ops, o) r) :
    Spec.ResRel (fun c b => c.2 = b.2 ∧ Beside ops bad c.1 b.1) r (Spec.hashStep (eqv ops) m o) := by
  obtain ⟨good, g1, g2, g3⟩ := h.good
  cases o with
  | insert k d =>
    simp only [hashMay] at hr
    simp only [Spec.hashStep]
    rw [h.ro] at hr
    by_cases ro : m.readonly ≠ 0
    · rw [if_pos ro] at hr ⊢; subst hr; trivial
    · rw [if_neg ro] at hr ⊢
      obtain ⟨L', x, hi, rfl⟩ := hr
      rcases hi with ⟨rfl, rfl, hs⟩ | ⟨rfl, rfl, e, he, hm⟩
      · have hf := h.sure_of law hs
        simp only [Spec.insert, hf]
        refine ⟨rfl, ⟨⟨k, ops.hash k, d⟩ :: good, ?_, ?_, ?_⟩, ?_, rfl, h.retr, h.miss⟩
        · exact (List.Perm.cons _ g1).trans List.perm_middle.symm
        · intro e he
          rcases List.mem_cons.1 he with rfl | he
          · rfl
          · exact g2 e he
        · exact List.Perm.cons _ g3
        · refine List.pairwise_cons.2 ⟨fun p hp => ?_, h.distinct⟩
          rw [Tab.eqv_symm law]
          exact (Tab.find_none _ _ _).1 hf p hp
      · have hf := h.found law (hb k rfl) he hm
        simp only [Spec.insert, hf]
        exact ⟨rfl, h.good, h.distinct, rfl, h.retr, h.miss⟩
  | delete k =>
    simp only [hashMay] at hr
    simp only [Spec.hashStep]
    rw [h.ro] at hr
    by_cases ro : m.readonly ≠ 0
    · rw [if_pos ro] at hr ⊢; subst hr; trivial
    · rw [if_neg ro] at hr ⊢
      obtain ⟨L', x, hi, rfl⟩ := hr
      rcases hi with ⟨rfl, l1, e, l2, e1, rfl, hm⟩ | ⟨rfl, rfl, hs⟩
      · have hm' : eqv ops e.key k = true := by simp only [eqv, beq_iff_eq]; exact hm
        have hf := h.found law (hb k rfl) (e := e) (by rw [e1]; simp) hm
        have heg : e ∈ good := by
          rcases List.mem_append.1 (g1.mem_iff.1 (by rw [e1]; simp : e ∈ L.pairs)) with h1 | h1
          · have := hb k rfl e h1
            rw [hm'] at this; cases this
          · exact h1
        obtain ⟨a, b, hab⟩ := List.append_of_mem heg
        simp only [Spec.delete, hf]
        refine ⟨rfl, ⟨a ++ b, ?_, ?_, perm_filter_erase law hab g3 h.distinct hm'⟩, h.distinct.filter _, rfl, h.retr, h.miss⟩
        · rw [e1, hab] at g1
          have h5 : (e :: (l1 ++ l2)).Perm (e :: (bad ++ (a ++ b))) := by
            refine List.perm_middle.symm.trans (g1.trans ?_)
            rw [← List.append_assoc, ← List.append_assoc]
            exact List.perm_middle
          exact h5.cons_inv
        · intro x hx
          refine g2 x ?_
          rw [hab]
          rcases List.mem_append.1 hx with hx | hx <;> simp [hx]
      · have hf := h.sure_of law hs
        simp only [Spec.delete, hf]
        exact ⟨rfl, h.good, h.distinct, rfl, h.retr, h.miss⟩
  | retrieve k =>
    simp only [hashMay] at hr
    obtain ⟨x, hx, rfl⟩ := hr
    simp only [Spec.hashStep]
    rcases hx with ⟨e, he, hm, rfl⟩ | ⟨rfl, hs⟩
    · rw [h.found law (hb k rfl) he hm]
      exact ⟨rfl, h.good, h.distinct, h.ro, by simp [h.retr], h.miss⟩
    · rw [h.sure_of law hs]
      exact ⟨rfl, h.good, h.distinct, h.ro, by simp [h.retr], by simp [h.miss]⟩
  | readonly f =>
    simp only [hashMay] at hr
    subst hr
    exact ⟨by simp [h.ro], h.good, h.distinct, rfl, h.retr, h.miss⟩

/-- C88, changing a key in place: a program changes the contents of a key that is in the table (so that before, the functions answer as `ops1`, and
afterwards as `ops2`; both are proper functions and they differ only in what they say about that key `k0`).  From then on, calls with keys that are not
equal to what the changed key has become return what they return on a map with the same pairs except the one of the changed key. -/
theorem C88_changed_key [DecidableEq K] (ops1 ops2 : KeyOps K) (law1 : ops1.Lawful) (law2 : ops2.Lawful) (k0 : K)
    (hash : ∀ a, a ≠ k0 → ops2.hash a = ops1.hash a) (cmp : ∀ a b, a ≠ k0 → b ≠ k0 → ops2.cmp a b = ops1.cmp a b)
    (h0 : Heap (Entry K Ptr)) (ok0 : h0.Ok) (hist hist2 : List (HashOp K)) (t0 : HTab) (s : Heap (Entry K Ptr) × HTab) (m : MapState K) (outs : List Ret)
    (hc : hcreate 0 = .ok t0) (hr : Spec.run (heapStep ops1) (h0, t0) hist = .ok (s, outs))
    (hm : Spec.run (Spec.hashStep (eqv ops1)) {} hist = .ok (m, outs))
    (away : ∀ o ∈ hist2, ∀ k, keyOf o = some k → eqv ops2 k0 k = false) :
    Spec.observe (Spec.run (heapStep ops2) s hist2) =
      Spec.observe (Spec.run (Spec.hashStep (eqv ops2)) { m with map := m.map.filter fun p => decide (p.1 ≠ k0) } hist2) := by
  obtain ⟨ht, h1, h2⟩ := heap_history law1 h0 ok0 hist
  rw [hc] at h1
  cases h1
  rw [hr, hm] at h2
  obtain ⟨-, T, A, R, sim, ow⟩ := h2
  have kept : Kept T ((Tab.all T).map stored) :=
    ⟨sim.rep.inv.pos, fun i hi e he => (sim.rep.inv.slot i hi e he).2, sim.rep.inv.count, List.Perm.refl _⟩
  let L : LooseTab K Nat := { pairs := (Tab.all T).map stored, readonly := T.readonly, retrievals := T.retrievals, misses := T.misses }
  have ls : LSim h0 s L T A := ⟨R, kept, rfl, rfl, rfl, ow⟩
  let bad := L.pairs.filter fun e => decide (e.key = k0)
  let good := L.pairs.filter fun e => !decide (e.key = k0)
  have hmap : (good.map fun e => (e.key, e.datum)).Perm (m.map.filter fun p => decide (p.1 ≠ k0)) := by
    have h3 := sim.rep.perm.filter (fun p => decide (p.1 ≠ k0))
    refine List.Perm.trans ?_ h3
    show List.Perm (((((Tab.all T).map stored).filter fun e => !decide (e.key = k0))).map fun e => (e.key, e.datum)) _
    rw [Tab.pairsOf, List.filter_map, List.filter_map, List.map_map]
    have : (fun e : Tab.Entry K Ptr => !decide ((stored e).key = k0)) = fun e => decide (e.key ≠ k0) := by
      funext e; simp [stored]; rfl
    simp only [Function.comp_def]
    rw [this]
    exact List.Perm.refl _
  have hgood : ∀ e ∈ good, e.hash = ops2.hash e.key := by
    intro e he
    obtain ⟨h3, h4⟩ := List.mem_filter.1 he
    obtain ⟨x, hx, rfl⟩ := List.mem_map.1 h3
    obtain ⟨i, hi, hxi⟩ := (Tab.mem_all T x).1 hx
    have h5 : (stored x).key ≠ k0 := by simpa using h4
    rw [hash _ h5]
    exact (sim.rep.inv.slot i hi x hxi).1
  have hdist : Spec.Distinct (eqv ops2) (m.map.filter fun p => decide (p.1 ≠ k0)) := by
    have h3 : Spec.Distinct (eqv ops1) (m.map.filter fun p => decide (p.1 ≠ k0)) := (sim.rep.spec_distinct law1).filter _
    refine List.Pairwise.imp_of_mem ?_ h3
    intro a b ha hb hab
    have ha' : a.1 ≠ k0 := by simpa using (List.mem_filter.1 ha).2
    have hb' : b.1 ≠ k0 := by simpa using (List.mem_filter.1 hb).2
    unfold eqv at hab ⊢
    rw [cmp _ _ ha' hb']
    exact hab
  have start : Beside ops2 bad L { m with map := m.map.filter fun p => decide (p.1 ≠ k0) } :=
    ⟨⟨good, (List.filter_append_perm _ _).symm, hgood, hmap⟩, hdist, sim.ro, sim.retr, sim.miss⟩
  have hbad : ∀ e ∈ bad, e.key = k0 := fun e he => by simpa using (List.mem_filter.1 he).2
  refine Spec.ResRel.observe (R := fun s m => ∃ L t A, LSim h0 s L t A ∧ Beside ops2 bad L m)
    (Spec.run_sim_of (fun o => ∀ k, keyOf o = some k → eqv ops2 k0 k = false)
      (fun s m => ∃ L t A, LSim h0 s L t A ∧ Beside ops2 bad L m) (heapStep ops2) (Spec.hashStep (eqv ops2)) ?_ s _ hist2 away
    ⟨L, T, A, ls, start⟩)
  rintro s m o ho ⟨L, t, A, h3, h4⟩
  obtain ⟨r, r1, r2⟩ := heapStep_loose h3 (ops2, o)
  have h5 := beside_step law2 h4 (fun k hk e he => by rw [hbad e he]; exact ho k hk) r1
  have r2' : Spec.ResRel (fun c b => c.2 = b.2 ∧ ∃ t' A', LSim h0 c.1 b.1 t' A') (heapStep ops2 s o) r := r2
  cases hx : heapStep ops2 s o <;> cases r <;> rw [hx] at r2' <;> simp only [Spec.ResRel] at r2' <;>
    cases hy : Spec.hashStep (eqv ops2) m o <;> rw [hy] at h5 <;> simp only [Spec.ResRel] at h5 ⊢
  obtain ⟨e1, t', A', l⟩ := r2'
  exact ⟨e1.trans h5.1, _, t', A', l, h5.2⟩

/-- Keys whose contents are numbers: key `k` contains `c k`. -/
def byContents (c : Nat → Nat) : KeyOps Nat := { hash := c, cmp := fun a b => (c a : Int) - c b }

theorem byContents_lawful (c : Nat → Nat) : (byContents c).Lawful where
  refl a := by simp [byContents]
  symm a b h := by simp only [byContents] at h ⊢; omega
  trans a b d h1 h2 := by simp only [byContents] at h1 h2 ⊢; omega
  hash a b h := by simp only [byContents] at h ⊢; omega

/-- Non-vacuity for `C88_changed_key`: key 1 is changed to contain 7; keys 2 and 3 are found as before. -/
example : (∀ a, a ≠ 1 → (byContents fun k => if k = 1 then 7 else k).hash a = (byContents id).hash a) ∧
    (∀ a b, a ≠ 1 → b ≠ 1 → (byContents fun k => if k = 1 then 7 else k).cmp a b = (byContents id).cmp a b) ∧
    Spec.observe (Spec.run (Spec.hashStep (eqv (byContents id))) {} [.insert 1 10, .insert 2 20, .insert 3 30]) = .ok [.int 0, .int 0, .int 0] ∧
    eqv (byContents fun k => if k = 1 then 7 else k) 1 2 = false ∧ eqv (byContents fun k => if k = 1 then 7 else k) 1 3 = false := by
  refine ⟨?_, ?_, by decide +kernel, by decide, by decide⟩
  · intro a ha; simp [byContents, ha]
  · intro a b ha hb; simp [byContents, ha, hb]

/-- C88: the changed key itself may be lost: the table has a key that compares equal to the key 7 looked up, and NULL is returned (in the C code as
in the specification, because the hash value of the time of insertion counts). -/
theorem C88_changed_key_lost :
    eqv (byContents fun k => if k = 1 then 8 else k) 1 8 = true ∧
    ((hcreate 0).bind fun t0 => Spec.observe (Spec.run looseStep (Heap.init, t0)
      [(byContents id, .insert 1 10), (byContents id, .insert 2 20), (byContents fun k => if k = 1 then 8 else k, .retrieve 8),
       (byContents id, .retrieve 1)])) = .ok [.int 0, .int 0, .ptr 0, .ptr 10] :=
  ⟨by decide, by decide +kernel⟩

/-- A comparison function that is not one: 2 compares equal to 1 (but 1 not to 2), 1 compares equal to 3, and no key to itself. -/
def oddOps : KeyOps Nat := { hash := fun _ => 0, cmp := fun a b => if (a, b) = (2, 1) ∨ (a, b) = (1, 3) then 0 else 1 }

/-- C88: deleting the pair being visited, which `hsh_iterate` allows (C64), is safe only with proper functions: with this one the deletion hits the
pair that is to be visited next, and the walk goes on with freed memory. -/
theorem C88_walk_refuted :
    ((hcreate 0).bind fun t0 => (Spec.run (heapStep oddOps) (Heap.init, t0) [.insert 1 10, .insert 2 20, .retrieve 3]).bind fun q =>
      hiterate oddOps (deleter fun _ => true) 100 0 q.1 []) = .ub :=
  Res.eq_ub_of (by decide +kernel)

/-- Non-vacuity for C88: with this function, a pair can be in the table twice, and a search for a key gives the datum of another one. -/
example : ((hcreate 0).bind fun t0 => Spec.observe (Spec.run looseStep (Heap.init, t0)
    [(oddOps, .insert 1 10), (oddOps, .insert 1 11), (oddOps, .retrieve 1), (oddOps, .retrieve 3), (oddOps, .delete 3), (oddOps, .delete 3), (oddOps, .delete 3)])) =
    .ok [.int 0, .int 0, .ptr 0, .ptr 11, .int 0, .int 0, .int 1] := by decide +kernel

end Maa.HashHeap
