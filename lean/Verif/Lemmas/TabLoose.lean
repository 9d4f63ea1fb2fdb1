import Verif.Spec.TabLoose
import Verif.Lemmas.HashPos
import Verif.Lemmas.HashStats
import Verif.Lemmas.TabStats
import Verif.Model.HashIter

namespace Maa.Tab

variable {K D : Type}

/-- an entry as the specification knows it -/
def stored (e : Entry K D) : Spec.Stored K D := ⟨e.key, e.hash, e.datum⟩

/-- every entry is in the chain its stored hash value says -/
def InSlot (t : Tab K D) : Prop := ∀ i, i < t.prime → ∀ e ∈ t.buckets i, e.hash % t.prime = i

/-- the table holds the pairs `L`, whatever the functions are -/
structure Kept (t : Tab K D) (L : List (Spec.Stored K D)) : Prop where
  pos : 0 < t.prime
  slot : InSlot t
  count : t.entries = (all t).length
  perm : ((all t).map stored).Perm L

theorem Kept.congr {t t' : Tab K D} {L : List (Spec.Stored K D)} (h : Kept t L) (hp : t'.prime = t.prime) (he : t'.entries = t.entries)
    (hb : t'.buckets = t.buckets) : Kept t' L := by
  have ha : all t' = all t := by simp [all, hp, hb]
  refine ⟨by rw [hp]; exact h.pos, ?_, by rw [he, ha]; exact h.count, by rw [ha]; exact h.perm⟩
  intro i hi e hm
  rw [hp] at hi ⊢; rw [hb] at hm
  exact h.slot i hi e hm

theorem create_kept (t : Tab K D) (hp : 0 < t.prime) (h : ∀ i, t.buckets i = []) (he : t.entries = 0) : Kept t [] := by
  refine ⟨hp, ?_, by rw [all_empty t h]; exact he, by simp [all_empty t h]⟩
  intro i _ e he; rw [h] at he; simp at he

theorem push_inSlot (t : Tab K D) (e : Entry K D) (h : InSlot t) : InSlot (push t e) := by
  intro i hi x hx
  simp only [push, setBucket] at hx hi ⊢
  split at hx
  · rename_i hih
    rcases List.mem_cons.1 hx with rfl | hx
    · exact hih.symm
    · rw [← hih] at hx
      exact h i hi x hx
  · exact h i hi x hx

theorem foldl_push_inSlot (l : List (Entry K D)) (t : Tab K D) (h : InSlot t) : InSlot (l.foldl push t) := by
  induction l generalizing t with
  | nil => exact h
  | cons a l ih => exact ih _ (push_inSlot t a h)

theorem grow_kept {t : Tab K D} {L : List (Spec.Stored K D)} (h : Kept t L) : ∃ t', grow t = .ok t' ∧ Kept t' L ∧ t'.readonly = t.readonly ∧
    t'.retrievals = t.retrievals ∧ t'.misses = t.misses := by
  unfold grow
  split
  · obtain ⟨n, hn, hp, -, -, hb, -⟩ := create_ok (K := K) (D := D) (t.prime * 3)
    have hall : (all ((all t).foldl push n)).Perm (all t) := by
      have := foldl_push_all (all t) n hp
      rwa [all_empty n hb, List.append_nil] at this
    refine ⟨{ t with prime := ((all t).foldl push n).prime, buckets := ((all t).foldl push n).buckets, resizings := t.resizings + 1 },
      by simp [resize, hn], ⟨?_, ?_, ?_, ?_⟩, rfl, rfl, rfl⟩
    · show 0 < ((all t).foldl push n).prime
      rw [foldl_push_prime]; exact hp
    · exact foldl_push_inSlot (all t) n (fun i _ e he => by rw [hb] at he; simp at he)
    · exact h.count.trans hall.length_eq.symm
    · exact (hall.map stored).trans h.perm
  · exact ⟨t, rfl, h, rfl, rfl, rfl⟩

theorem Kept.mem {t : Tab K D} {L : List (Spec.Stored K D)} (h : Kept t L) {i : Nat} (hi : i < t.prime) {e : Entry K D}
    (he : e ∈ t.buckets i) : stored e ∈ L :=
  h.perm.mem_iff.1 (List.mem_map.2 ⟨e, (mem_all t e).2 ⟨i, hi, he⟩, rfl⟩)

/-- if no entry of the chain of `k` compares equal, a search may miss -/
theorem Kept.unsure {ops : KeyOps K} {t : Tab K D} {L : List (Spec.Stored K D)} (h : Kept t L) {k : K}
    (hn : ∀ e ∈ t.buckets (ops.hash k % t.prime), ¬ ops.cmp e.key k = 0) : ¬ Spec.Sure ops L k := by
  rintro ⟨s, h1, h2, h3⟩
  obtain ⟨e, h4, rfl⟩ := List.mem_map.1 (h.perm.mem_iff.2 h1)
  obtain ⟨i, h5, h6⟩ := (mem_all t e).1 h4
  have h7 := h.slot i h5 e h6
  have h2' : e.hash = ops.hash k := h2
  rw [h2'] at h7
  exact hn e (by rw [h7]; exact h6) h3

theorem insert_kept (ops : KeyOps K) {t : Tab K D} {L : List (Spec.Stored K D)} (h : Kept t L) (ro : t.readonly = 0) (k : K) (d : D) :
    ∃ t' x L', insert ops t k d = .ok (t', x) ∧ Spec.mayInsert ops L k d L' x ∧ Kept t' L' ∧ t'.readonly = t.readonly ∧
      t'.retrievals = t.retrievals ∧ t'.misses = t.misses := by
  obtain ⟨t1, e1, r1, a1, a2, a3⟩ := grow_kept h
  unfold insert
  simp only
  rw [if_neg (by simp [ro])]
  simp only [e1, Res.bind]
  rw [if_neg (by have := r1.pos; omega)]
  by_cases hany : (t1.buckets (ops.hash k % t1.prime)).any (fun pt => ops.cmp pt.key k == 0) = true
  · rw [if_pos hany]
    obtain ⟨e, h1, h2⟩ := List.any_eq_true.1 hany
    refine ⟨t1, 1, L, rfl, Or.inr ⟨rfl, rfl, stored e, r1.mem (Nat.mod_lt _ r1.pos) h1, ?_⟩, r1, a1, a2, a3⟩
    exact (beq_iff_eq.1 h2 : ops.cmp e.key k = 0)
  · rw [if_neg hany]
    have hn : ∀ e ∈ t1.buckets (ops.hash k % t1.prime), ¬ ops.cmp e.key k = 0 := fun e he hc =>
      hany (List.any_eq_true.2 ⟨e, he, by simp [hc]⟩)
    have hp := all_push t1 ⟨k, ops.hash k, d⟩ r1.pos
    refine ⟨_, 0, ⟨k, ops.hash k, d⟩ :: L, rfl, Or.inl ⟨rfl, rfl, r1.unsure hn⟩,
      ⟨r1.pos, push_inSlot t1 _ r1.slot, ?_, ?_⟩, a1, a2, a3⟩
    · rw [hp.length_eq]; simp [push, r1.count]
    · exact (hp.map stored).trans (List.Perm.cons _ r1.perm)

theorem setBucket_inSlot {t : Tab K D} (hs : InSlot t) (h : Nat) (c : List (Entry K D)) (hc : ∀ e ∈ c, e ∈ t.buckets h) :
    InSlot { t with buckets := setBucket t.buckets h c } := by
  intro i hi e he
  simp only [setBucket] at he hi ⊢
  split at he
  · rename_i hih
    subst hih
    exact hs i hi e (hc e he)
  · exact hs i hi e he

theorem eraseP_split' (p : Entry K D → Bool) (l : List (Entry K D)) (h : l.any p = true) :
    ∃ l1 e l2, l = l1 ++ e :: l2 ∧ p e = true ∧ l.eraseP p = l1 ++ l2 := by
  induction l with
  | nil => simp at h
  | cons a l ih =>
    by_cases ha : p a = true
    · exact ⟨[], a, l, rfl, ha, by rw [List.eraseP_cons_of_pos ha]; rfl⟩
    · obtain ⟨l1, e, l2, h1, h2, h3⟩ := ih (by simpa [ha] using h)
      exact ⟨a :: l1, e, l2, by rw [h1]; rfl, h2, by rw [List.eraseP_cons_of_neg ha, h3]; rfl⟩

theorem perm_cons_split {α : Type} {a : α} {l L : List α} (h : (a :: l).Perm L) : ∃ l1 l2, L = l1 ++ a :: l2 ∧ l.Perm (l1 ++ l2) := by
  have hm : a ∈ L := h.mem_iff.1 (by simp)
  obtain ⟨l1, l2, e⟩ := List.append_of_mem hm
  refine ⟨l1, l2, e, ?_⟩
  rw [e] at h
  exact List.Perm.cons_inv (h.trans List.perm_middle)

theorem delete_kept (ops : KeyOps K) {t : Tab K D} {L : List (Spec.Stored K D)} (h : Kept t L) (ro : t.readonly = 0) (k : K) :
    ∃ t' x L', delete ops t k = .ok (t', x) ∧ Spec.mayDelete ops L k L' x ∧ Kept t' L' ∧ t'.readonly = t.readonly ∧
      t'.retrievals = t.retrievals ∧ t'.misses = t.misses := by
  have hh : ops.hash k % t.prime < t.prime := Nat.mod_lt _ h.pos
  unfold delete
  rw [if_neg (by have := h.pos; omega)]
  simp only
  rw [if_neg (by simp [ro])]
  by_cases hany : (t.buckets (ops.hash k % t.prime)).any (fun pt => ops.cmp pt.key k == 0) = true
  · rw [if_pos hany]
    obtain ⟨l1, e, l2, h1, h2, h3⟩ := eraseP_split' _ _ hany
    obtain ⟨pre, post, s1, s2⟩ := all_split t (ops.hash k % t.prime) hh
    have hall : (all t).Perm (e :: all { t with
        entries := t.entries - 1
        buckets := setBucket t.buckets (ops.hash k % t.prime) ((t.buckets (ops.hash k % t.prime)).eraseP fun pt => ops.cmp pt.key k == 0) }) := by
      have h5 : all { t with
          entries := t.entries - 1
          buckets := setBucket t.buckets (ops.hash k % t.prime) ((t.buckets (ops.hash k % t.prime)).eraseP fun pt => ops.cmp pt.key k == 0) }
          = pre ++ (l1 ++ l2 ++ post) := by rw [h3]; exact s2 (l1 ++ l2)
      rw [h5, s1, h1]
      have : pre ++ (l1 ++ e :: l2 ++ post) = (pre ++ l1) ++ e :: (l2 ++ post) := by simp
      rw [this]
      refine List.perm_middle.trans ?_
      simp
    obtain ⟨m1, m2, q1, q2⟩ := perm_cons_split (((hall.map stored).symm).trans h.perm)
    refine ⟨_, 0, m1 ++ m2, rfl, Or.inl ⟨rfl, m1, stored e, m2, q1, rfl, (beq_iff_eq.1 h2 : ops.cmp e.key k = 0)⟩, ⟨h.pos, ?_, ?_, q2⟩, rfl, rfl, rfl⟩
    · exact setBucket_inSlot h.slot (ops.hash k % t.prime) _ (fun e he => List.mem_of_mem_eraseP he)
    · have := h.count
      rw [hall.length_eq, List.length_cons] at this
      show t.entries - 1 = _
      omega
  · rw [if_neg hany]
    have hn : ∀ e ∈ t.buckets (ops.hash k % t.prime), ¬ ops.cmp e.key k = 0 := fun e he hc =>
      hany (List.any_eq_true.2 ⟨e, he, by simp [hc]⟩)
    exact ⟨t, 1, L, rfl, Or.inr ⟨rfl, rfl, h.unsure hn⟩, h, rfl, rfl, rfl⟩

theorem Kept.setBucket_perm {t : Tab K D} {L : List (Spec.Stored K D)} (h : Kept t L) (i : Nat) (hi : i < t.prime) (c : List (Entry K D))
    (hc : c.Perm (t.buckets i)) : Kept { t with buckets := setBucket t.buckets i c } L := by
  obtain ⟨pre, post, e1, e2⟩ := all_split t i hi
  have hp : (all { t with buckets := setBucket t.buckets i c }).Perm (all t) := by
    rw [e2, e1]
    exact List.Perm.append_left _ (List.Perm.append_right _ hc)
  exact ⟨h.pos, setBucket_inSlot h.slot i c (fun e he => hc.mem_iff.1 he), h.count.trans hp.length_eq.symm, (hp.map _).trans h.perm⟩

theorem retrieve_kept (ops : KeyOps K) {t : Tab K D} {L : List (Spec.Stored K D)} (h : Kept t L) (k : K) :
    ∃ t' x, retrieve ops t k = .ok (t', x) ∧ Spec.mayFind ops L k x ∧ Kept t' L ∧ t'.readonly = t.readonly ∧
      t'.retrievals = t.retrievals + 1 ∧ t'.misses = (if x.isSome then t.misses else t.misses + 1) ∧ t'.prime = t.prime := by
  have hh : ops.hash k % t.prime < t.prime := Nat.mod_lt _ h.pos
  unfold retrieve
  rw [if_neg (by have := h.pos; omega)]
  simp only
  generalize hb : t.buckets (ops.hash k % t.prime) = b
  cases b with
  | nil =>
    exact ⟨_, none, rfl, Or.inr ⟨rfl, h.unsure (by rw [hb]; simp)⟩, h.congr rfl rfl rfl, rfl, rfl, rfl, rfl⟩
  | cons pt rest =>
    have hmem : ∀ e ∈ pt :: rest, stored e ∈ L := fun e he => h.mem hh (by rw [hb]; exact he)
    by_cases hp : (ops.cmp pt.key k == 0) = true
    · simp only [hp, if_true]
      exact ⟨_, some pt.datum, rfl, Or.inl ⟨stored pt, hmem pt (by simp), (beq_iff_eq.1 hp : ops.cmp pt.key k = 0), rfl⟩, h.congr rfl rfl rfl,
        rfl, rfl, rfl, rfl⟩
    · simp only [hp, if_false, Bool.false_eq_true]
      cases hq : rest.find? (fun pt => ops.cmp pt.key k == 0) with
      | none =>
        refine ⟨_, none, rfl, Or.inr ⟨rfl, h.unsure ?_⟩, h.congr rfl rfl rfl, rfl, rfl, rfl, rfl⟩
        rw [hb]
        rw [List.find?_eq_none] at hq
        intro e he hc
        rcases List.mem_cons.1 he with rfl | he
        · exact hp (by simp [hc])
        · exact hq e he (by simp [hc])
      | some q =>
        have hm : Spec.mayFind ops L k (some q.datum) := Or.inl ⟨stored q, hmem q (by simp [List.mem_of_find?_eq_some hq]),
          (by have := List.find?_some hq; exact beq_iff_eq.1 this : ops.cmp q.key k = 0), rfl⟩
        simp only
        split
        · refine ⟨_, _, rfl, hm, ?_, rfl, rfl, rfl, rfl⟩
          have hperm : (q :: pt :: rest.eraseP (fun pt => ops.cmp pt.key k == 0)).Perm (t.buckets (ops.hash k % t.prime)) := by
            rw [hb]
            exact (List.Perm.swap _ _ _).trans (List.Perm.cons _ (find?_cons_eraseP_perm _ _ _ hq))
          exact (h.setBucket_perm _ hh _ hperm).congr rfl rfl rfl
        · exact ⟨_, _, rfl, hm, h.congr rfl rfl rfl, rfl, rfl, rfl, rfl⟩

theorem Kept.stats {t : Tab K D} {L : List (Spec.Stored K D)} (h : Kept t L) : ∃ s, getStats t = .ok s ∧ s.entries = L.length := by
  have hl : (all t).length = L.length := by rw [← h.perm.length_eq, List.length_map]
  unfold getStats
  have := (stats_fold t (List.range t.prime)
    { size := t.prime, resizings := t.resizings, entries := 0, buckets_used := 0, singletons := 0,
      maximum_length := 0, retrievals := t.retrievals, hits := t.hits, misses := t.misses }).2.2.2.2.2.1
  simp only [Nat.zero_add] at this
  have h2 : ((List.range t.prime).flatMap t.buckets).length = t.entries := h.count.symm
  rw [h2] at this
  simp only [this, ne_eq, not_true_eq_false, if_false]
  exact ⟨_, rfl, by rw [this, h.count, hl]⟩

end Maa.Tab

namespace Maa.HashHeap

open Tab (Entry Tab Kept stored)
open Heap (Seg Chain)

variable {K D : Type}

/-- pointer-level table against the pairs it holds -/
structure LSim (h0 : Heap (Entry K D)) (s : Heap (Entry K D) × HTab) (m : Spec.LooseTab K D) (t : Tab K D)
    (A : Nat → List (Nat × Entry K D)) : Prop where
  rep : HRep s.1 s.2 t A
  kept : Kept t m.pairs
  ro : t.readonly = m.readonly
  retr : t.retrievals = m.retrievals
  miss : t.misses = m.misses
  owns : Owns h0 s.1 t.prime A

theorem hinsert_loose (ops : KeyOps K) {h0 : Heap (Entry K D)} {s : Heap (Entry K D) × HTab} {m : Spec.LooseTab K D} {t A}
    (h : LSim h0 s m t A) (ro : m.readonly = 0) (k : K) (d : D) :
    ∃ q L t' A', hinsert ops s.1 s.2 k d = .ok q ∧ Spec.mayInsert ops m.pairs k d L q.2 ∧ LSim h0 q.1 { m with pairs := L } t' A' := by
  obtain ⟨t', x, L', h1, h2, h3, h4, h5, h6⟩ := Tab.insert_kept ops h.kept (h.ro.trans ro) k d
  have hr := hinsert_hrep (ops := ops) h.rep k d
  rw [h1] at hr
  cases hc : hinsert ops s.1 s.2 k d <;> rw [hc] at hr <;> simp only [Spec.ResRel] at hr
  obtain ⟨e, A', r', ef⟩ := hr
  rename_i q
  exact ⟨q, L', t', A', rfl, by rw [e]; exact h2, r', h3, h4.trans h.ro, h5.trans h.retr, h6.trans h.miss, h.owns.step r' ef⟩

theorem hdelete_loose (ops : KeyOps K) {h0 : Heap (Entry K D)} {s : Heap (Entry K D) × HTab} {m : Spec.LooseTab K D} {t A}
    (h : LSim h0 s m t A) (ro : m.readonly = 0) (k : K) :
    ∃ q L t' A', hdelete ops s.1 s.2 k = .ok q ∧ Spec.mayDelete ops m.pairs k L q.2 ∧ LSim h0 q.1 { m with pairs := L } t' A' := by
  obtain ⟨t', x, L', h1, h2, h3, h4, h5, h6⟩ := Tab.delete_kept ops h.kept (h.ro.trans ro) k
  have hr := hdelete_hrep (ops := ops) h.rep k
  rw [h1] at hr
  cases hc : hdelete ops s.1 s.2 k <;> rw [hc] at hr <;> simp only [Spec.ResRel] at hr
  obtain ⟨e, A', r', ef⟩ := hr
  rename_i q
  exact ⟨q, L', t', A', rfl, by rw [e]; exact h2, r', h3, h4.trans h.ro, h5.trans h.retr, h6.trans h.miss, h.owns.step r' ef⟩

theorem hretrieve_loose (ops : KeyOps K) {h0 : Heap (Entry K D)} {s : Heap (Entry K D) × HTab} {m : Spec.LooseTab K D} {t A}
    (h : LSim h0 s m t A) (k : K) :
    ∃ q t' A', hretrieve ops s.1 s.2 k = .ok q ∧ Spec.mayFind ops m.pairs k q.2 ∧
      LSim h0 q.1 { m with retrievals := m.retrievals + 1, misses := if q.2.isSome then m.misses else m.misses + 1 } t' A' ∧
      (t.readonly ≠ 0 → A' = A ∧ q.1.1 = s.1 ∧ t'.prime = t.prime) := by
  obtain ⟨t', x, h1, h2, h3, h4, h5, h6, h7⟩ := Tab.retrieve_kept ops h.kept k
  have hr := hretrieve_hrep (ops := ops) h.rep k
  rw [h1] at hr
  cases hc : hretrieve ops s.1 s.2 k <;> rw [hc] at hr <;> simp only [Spec.ResRel] at hr
  obtain ⟨e, A', r', ef, ro⟩ := hr
  rename_i q
  refine ⟨q, t', A', rfl, by rw [e]; exact h2, ⟨r', h3, h4.trans h.ro, h5.trans (by rw [h.retr]), ?_, h.owns.step r' ef⟩, fun hz => ?_⟩
  · rw [h6, e, h.miss]
  · exact ⟨(ro hz).1, (ro hz).2.1, h7⟩

theorem heapStep_loose {h0 : Heap (Entry K Ptr)} {s : Heap (Entry K Ptr) × HTab} {m : Spec.LooseTab K Nat} {t A}
    (h : LSim h0 s m t A) (o : KeyOps K × Spec.HashOp K) :
    ∃ r, Spec.hashMay m o r ∧ Spec.ResRel (fun c b => c.2 = b.2 ∧ ∃ t' A', LSim h0 c.1 b.1 t' A') (heapStep o.1 s o.2) r := by
  obtain ⟨ops, o⟩ := o
  have hp : s.2.prime ≠ 0 := by have := h.kept.pos; rw [h.rep.prime]; omega
  have hro : s.2.readonly = m.readonly := h.rep.ro.trans h.ro
  cases o with
  | insert k d =>
    simp only [Spec.hashMay, heapStep]
    by_cases ro : m.readonly = 0
    · obtain ⟨q, L, t', A', e1, e2, e3⟩ := hinsert_loose ops h ro k d
      refine ⟨.ok ({ m with pairs := L }, .int q.2), ?_, ?_⟩
      · rw [if_neg (by simp [ro])]; exact ⟨L, q.2, e2, rfl⟩
      · rw [e1]; exact ⟨rfl, t', A', e3⟩
    · refine ⟨.abort, by rw [if_pos ro], ?_⟩
      unfold hinsert
      simp only
      rw [if_pos (by rw [hro]; exact ro)]
      trivial
  | delete k =>
    simp only [Spec.hashMay, heapStep]
    by_cases ro : m.readonly = 0
    · obtain ⟨q, L, t', A', e1, e2, e3⟩ := hdelete_loose ops h ro k
      refine ⟨.ok ({ m with pairs := L }, .int q.2), ?_, ?_⟩
      · rw [if_neg (by simp [ro])]; exact ⟨L, q.2, e2, rfl⟩
      · rw [e1]; exact ⟨rfl, t', A', e3⟩
    · refine ⟨.abort, by rw [if_pos ro], ?_⟩
      unfold hdelete
      rw [if_neg hp]
      simp only
      rw [if_pos (by rw [hro]; exact ro)]
      trivial
  | retrieve k =>
    simp only [Spec.hashMay, heapStep]
    obtain ⟨q, t', A', e1, e2, e3, -⟩ := hretrieve_loose ops h k
    rw [e1]
    obtain ⟨q1, q2⟩ := q
    cases q2 with
    | none => exact ⟨_, ⟨none, e2, rfl⟩, rfl, t', A', e3⟩
    | some d => exact ⟨_, ⟨some d, e2, rfl⟩, rfl, t', A', e3⟩
  | readonly f =>
    exact ⟨_, rfl, by simp [hro], { t with readonly := f }, A, h.rep.withRo f, h.kept.congr rfl rfl rfl, rfl, h.retr, h.miss, h.owns⟩

theorem setHeapStep_loose {h0 : Heap (Entry K Unit)} {s : Heap (Entry K Unit) × HTab} {m : Spec.LooseTab K Unit} {t A}
    (h : LSim h0 s m t A) (o : KeyOps K × Spec.OneSetOp K) :
    ∃ r, Spec.setMay m o r ∧ Spec.ResRel (fun c b => c.2 = b.2 ∧ ∃ t' A', LSim h0 c.1 b.1 t' A') (setHeapStep o.1 s o.2) r := by
  obtain ⟨ops, o⟩ := o
  have hp : s.2.prime ≠ 0 := by have := h.kept.pos; rw [h.rep.prime]; omega
  have hro : s.2.readonly = m.readonly := h.rep.ro.trans h.ro
  cases o with
  | insert k =>
    simp only [Spec.setMay, setHeapStep]
    by_cases ro : m.readonly = 0
    · obtain ⟨q, L, t', A', e1, e2, e3⟩ := hinsert_loose ops h ro k ()
      refine ⟨.ok ({ m with pairs := L }, q.2), ?_, ?_⟩
      · rw [if_neg (by simp [ro])]; exact ⟨L, q.2, e2, rfl⟩
      · rw [e1]; exact ⟨rfl, t', A', e3⟩
    · refine ⟨.abort, by rw [if_pos ro], ?_⟩
      unfold hinsert
      simp only
      rw [if_pos (by rw [hro]; exact ro)]
      trivial
  | delete k =>
    simp only [Spec.setMay, setHeapStep]
    by_cases ro : m.readonly = 0
    · obtain ⟨q, L, t', A', e1, e2, e3⟩ := hdelete_loose ops h ro k
      refine ⟨.ok ({ m with pairs := L }, q.2), ?_, ?_⟩
      · rw [if_neg (by simp [ro])]; exact ⟨L, q.2, e2, rfl⟩
      · rw [e1]; exact ⟨rfl, t', A', e3⟩
    · refine ⟨.abort, by rw [if_pos ro], ?_⟩
      unfold hdelete
      rw [if_neg hp]
      simp only
      rw [if_pos (by rw [hro]; exact ro)]
      trivial
  | member k =>
    simp only [Spec.setMay, setHeapStep]
    obtain ⟨q, t', A', e1, e2, e3, -⟩ := hretrieve_loose ops h k
    rw [e1]
    obtain ⟨q1, q2⟩ := q
    cases q2 with
    | none => exact ⟨_, ⟨none, e2, rfl⟩, rfl, t', A', e3⟩
    | some d => exact ⟨_, ⟨some d, e2, rfl⟩, rfl, t', A', e3⟩
  | readonly f =>
    exact ⟨_, rfl, by simp [hro], { t with readonly := f }, A, h.rep.withRo f, h.kept.congr rfl rfl rfl, rfl, h.retr, h.miss, h.owns⟩

/-- histories: a step that has one of the outcomes allowed, over and over -/
theorem run_loose {S S' O X : Type} {R : S → S' → Prop} {step : S → O → Res (S × X)} {may : S' → O → Res (S' × X) → Prop}
    (hs : ∀ s m o, R s m → ∃ r, may m o r ∧ Spec.ResRel (fun c b => c.2 = b.2 ∧ R c.1 b.1) (step s o) r) (hist : List O) :
    ∀ s m, R s m → ∃ r, Spec.mayRun may m hist r ∧ Spec.ResRel (fun c b => c.2 = b.2 ∧ R c.1 b.1) (Spec.run step s hist) r := by
  induction hist with
  | nil => intro s m h; exact ⟨_, rfl, rfl, h⟩
  | cons o os ih =>
    intro s m h
    obtain ⟨q, h1, h2⟩ := hs s m o h
    simp only [Spec.mayRun, Spec.run]
    cases hc : step s o <;> cases q <;> rw [hc] at h2 <;> simp only [Spec.ResRel] at h2
    · rename_i c b
      obtain ⟨p, h3, h4⟩ := ih c.1 b.1 h2.2
      refine ⟨_, ⟨_, h1, p, h3, rfl⟩, ?_⟩
      simp only [Res.bind]
      cases hd : Spec.run step c.1 os <;> cases p <;> rw [hd] at h4 <;> simp only [Spec.ResRel] at h4 <;> simp only [Res.bind, Spec.ResRel]
      exact ⟨by rw [h2.1, h4.1], h4.2⟩
    · exact ⟨.abort, ⟨.abort, h1, rfl⟩, by simp [Res.bind, Spec.ResRel]⟩
    · exact ⟨.fatal, ⟨.fatal, h1, rfl⟩, by simp [Res.bind, Spec.ResRel]⟩
    · exact ⟨.ub, ⟨.ub, h1, rfl⟩, by simp [Res.bind, Spec.ResRel]⟩

theorem create_loose (h0 : Heap (Entry K D)) (ok0 : h0.Ok) : ∃ ht t A, hcreate 0 = .ok ht ∧ LSim h0 (h0, ht) {} t A := by
  obtain ⟨ht, t, h1, h2, h3, h4⟩ := hcreate_hrep (D := D) h0 ok0 0
  obtain ⟨t', c1, c2, -, c3, c4, c5, c6, c7, c8, -⟩ := Tab.create_ok (K := K) (D := D) 0
  have : t' = t := by rw [h2] at c1; simpa using c1.symm
  subst this
  exact ⟨ht, t', _, h1, h4, Tab.create_kept t' c2 c4 c3, c5, c6, c8, Owns.refl h0 _⟩

/-! walks -/

theorem lookups_loose (ops : KeyOps K) {h0 : Heap (Entry K D)} (ks : List K) : ∀ {h : Heap (Entry K D)} {ht : HTab} {m : Spec.LooseTab K D}
    {t : Tab K D} {A}, LSim h0 (h, ht) m t A → t.readonly ≠ 0 →
    ∃ ht' m' t', lookups ops ks (h, ht) = .ok (h, ht') ∧ LSim h0 (h, ht') m' t' A ∧ m'.pairs = m.pairs ∧ t'.readonly = t.readonly ∧ t'.prime = t.prime := by
  induction ks with
  | nil => intro h ht m t A r ro; exact ⟨ht, m, t, rfl, r, rfl, rfl, rfl⟩
  | cons k ks ih =>
    intro h ht m t A r ro
    obtain ⟨q, t1, A1, e1, -, e2, e3⟩ := hretrieve_loose ops r k
    obtain ⟨f1, f2, f3⟩ := e3 ro
    subst f1
    obtain ⟨⟨h', ht1⟩, x⟩ := q
    have f2' : h' = h := f2
    subst f2'
    have ro1 : t1.readonly = t.readonly := e2.ro.trans r.ro.symm
    obtain ⟨ht', m', t', i1, i2, i3, i4, i5⟩ := ih e2 (by rw [ro1]; exact ro)
    refine ⟨ht', m', t', ?_, i2, i3, i4.trans ro1, i5.trans f3⟩
    have e1' : hretrieve ops h' ht k = .ok ((h', ht1), x) := e1
    simp only [lookups, e1', Res.bind]
    exact i1

theorem LSim.withRo {h0 h : Heap (Entry K D)} {ht : HTab} {m : Spec.LooseTab K D} {t : Tab K D} {A} (r : LSim h0 (h, ht) m t A) (f : Int) :
    LSim h0 (h, { ht with readonly := f }) { m with readonly := f } { t with readonly := f } A :=
  ⟨r.rep.withRo f, r.kept.congr rfl rfl rfl, rfl, r.retr, r.miss, r.owns⟩

theorem positionLoop_loose (ops : KeyOps K) (body : Nat → List K) {h0 h : Heap (Entry K D)} {A} (rem : List (Nat × Entry K D)) :
    ∀ (n : Nat) (ht : HTab) (m : Spec.LooseTab K D) (t : Tab K D) (p : Nat) (acc : List ((K × D) × Int)), rem.length < n →
    LSim h0 (h, ht) m t A → t.readonly = 1 → At t.prime A p rem →
    ∃ ht' m' t', positionLoop ops body n (h, ht) p acc = .ok ((h, ht'), acc ++ rem.map fun c => ((c.2.key, c.2.datum), 1)) ∧
      LSim h0 (h, ht') m' t' A ∧ m'.pairs = m.pairs ∧ t'.readonly = 0 := by
  induction rem with
  | nil =>
    intro n ht m t p acc hn r ro hat
    obtain ⟨e, rest, h1, -⟩ := hat.cell
    simp at h1
  | cons c rest ih =>
    intro n ht m t p acc hn r ro hat
    cases n with
    | zero => omega
    | succ n =>
      obtain ⟨e, rest', h1, i, hi, hmem⟩ := hat.cell
      simp only [List.cons.injEq] at h1
      obtain ⟨h1, h1'⟩ := h1
      subst h1'
      rw [h1] at hat ⊢
      obtain ⟨hp0, nx, hm⟩ := cell_mem r.rep hi hmem
      have hro : t.readonly ≠ 0 := by rw [ro]; decide
      obtain ⟨ht1, m1, t1, l1, l2, l3, l4, l5⟩ := lookups_loose ops (body p) r hro
      rw [← l5] at hat
      have hread : ht.readonly = 1 := r.rep.ro.trans ro
      have hm' : h.mem p = some (e, nx) := hm
      simp only [positionLoop, if_neg hp0, getPosition, Heap.read_ok hm', Res.bind, l1]
      rcases nextPosition_ok l2.rep l2.kept.slot hat with ⟨f1, f2⟩ | ⟨q, f1, f2, f3⟩
      · have f2' : nextPosition h ht1 p = .ok ({ ht1 with readonly := 0 }, 0) := f2
        rw [f2']
        simp only
        cases n with
        | zero => simp at hn
        | succ n =>
          refine ⟨{ ht1 with readonly := 0 }, _, _, ?_, l2.withRo 0, l3, rfl⟩
          simp [positionLoop, f1, hread]
      · have f2' : nextPosition h ht1 p = .ok (ht1, q) := f2
        rw [f2']
        simp only
        obtain ⟨ht', m', t', j1, j2, j3, j4⟩ := ih n ht1 m1 t1 q (acc ++ [((e.key, e.datum), ht.readonly)])
          (by simp at hn; omega) l2 (l4.trans ro) f3
        refine ⟨ht', m', t', ?_, j2, j3.trans l3, j4⟩
        rw [j1]
        simp [hread]

theorem LSim.cells {h0 : Heap (Entry K D)} {s : Heap (Entry K D) × HTab} {m : Spec.LooseTab K D} {t : Tab K D} {A} (r : LSim h0 s m t A) :
    ((cellsFrom t.prime 0 A).map fun c => (c.2.key, c.2.datum)).Perm m.contents := by
  have := r.kept.perm.map (fun e : Spec.Stored K D => (e.key, e.datum))
  rw [← cells_map r.rep, List.map_map, List.map_map] at this
  exact this

theorem positions_loose (ops : KeyOps K) (body : Nat → List K) {h0 h : Heap (Entry K D)} {ht : HTab} {m : Spec.LooseTab K D} {t : Tab K D} {A}
    (r : LSim h0 (h, ht) m t A) (n : Nat) (hn : m.pairs.length < n) :
    ∃ ht' log m' t', positionLoop ops body n (h, (initPosition ht).1) (initPosition ht).2 [] = .ok ((h, ht'), log) ∧
      (log.map Prod.fst).Perm m.contents ∧ (∀ x ∈ log, x.2 = 1) ∧
      (m.pairs ≠ [] → ht'.readonly = 0) ∧ (m.pairs = [] → ht' = ht) ∧ LSim h0 (h, ht') m' t' A ∧ m'.pairs = m.pairs := by
  have hperm := r.cells
  have hlen : (cellsFrom t.prime 0 A).length = m.pairs.length := by
    have := hperm.length_eq
    simpa [Spec.LooseTab.contents] using this
  rcases initPosition_ok r.rep with ⟨i1, i2⟩ | ⟨p, i0, i1, i2⟩
  · have hm : m.pairs = [] := by
      rw [i1] at hlen
      exact List.length_eq_zero_iff.1 hlen.symm
    have i2' : initPosition ht = (ht, 0) := i2
    rw [i2']
    cases n with
    | zero => omega
    | succ n =>
      exact ⟨ht, [], m, t, by simp [positionLoop], by simp [Spec.LooseTab.contents, hm], by simp, fun h => absurd hm h, fun _ => rfl, r, rfl⟩
  · have i1' : initPosition ht = ({ ht with readonly := 1 }, p) := i1
    rw [i1']
    have hm : m.pairs ≠ [] := by
      intro hm
      obtain ⟨e, rest, h1, -⟩ := i2.cell
      rw [h1, hm] at hlen
      simp at hlen
    obtain ⟨ht', m', t', j1, j2, j3, j4⟩ := positionLoop_loose ops body (cellsFrom t.prime 0 A) n
      { ht with readonly := 1 } { m with readonly := 1 } { t with readonly := 1 } p [] (by omega) (r.withRo 1) rfl i2
    refine ⟨ht', _, m', t', j1, ?_, ?_, fun _ => j2.rep.ro.trans j4, fun h => absurd h hm, j2, j3⟩
    · rw [List.nil_append, List.map_map]; exact hperm
    · intro x hx
      rw [List.nil_append] at hx
      obtain ⟨c, -, rfl⟩ := List.mem_map.1 hx
      rfl

/-- `hsh_iterate` with a function that does not call the library -/
theorem hiterChain_still (ops : KeyOps K) {σ : Type} (g : σ → K × Ptr → σ × Int) (s : HState K Ptr) (l : List (Nat × Entry K Ptr)) :
    ∀ (n pt : Nat) (st : σ), l.length < n → Chain s.1.mem pt l →
    hiterChain ops (fun st p => .ret (g st p).1 (g st p).2) n s pt st = .ok (s, Tab.loop g st (l.map fun c => (c.2.key, c.2.datum))) := by
  induction l with
  | nil =>
    intro n pt st hn hc
    cases n with
    | zero => omega
    | succ n =>
      have h0 : pt = 0 := hc
      simp [hiterChain, h0, Tab.loop]
  | cons c l ih =>
    intro n pt st hn hc
    cases n with
    | zero => omega
    | succ n =>
      obtain ⟨h1, h2, nx, h3, h4⟩ := hc
      simp only [hiterChain, h1, h2, if_false, Heap.read_ok h3, Res.bind, Spec.Calls.run, List.map_cons, Tab.loop]
      by_cases hz : (g st (c.2.key, c.2.datum)).2 ≠ 0
      · rw [if_pos hz, if_pos hz]
      · rw [if_neg hz, if_neg hz]
        exact ih n nx _ (by simp at hn; omega) h4

theorem loop_append {σ ι : Type} (g : σ → ι → σ × Int) (a b : List ι) : ∀ st, Tab.loop g st (a ++ b) =
    if (Tab.loop g st a).2 ≠ 0 then Tab.loop g st a else Tab.loop g (Tab.loop g st a).1 b := by
  induction a with
  | nil => intro st; simp [Tab.loop]
  | cons x a ih =>
    intro st
    simp only [List.cons_append, Tab.loop]
    by_cases hz : (g st x).2 ≠ 0
    · simp [hz]
    · simp only [if_neg hz]; exact ih _

theorem hiterate_still (ops : KeyOps K) {σ : Type} (g : σ → K × Ptr → σ × Int) {s : HState K Ptr} {t : Tab K Ptr} {A}
    (r : HRep s.1 s.2 t A) : ∀ (n i : Nat) (st : σ), t.prime - i < n →
    hiterate ops (fun st p => .ret (g st p).1 (g st p).2) n i s st =
      .ok (s, Tab.loop g st ((cellsFrom t.prime i A).map fun c => (c.2.key, c.2.datum))) := by
  intro n
  induction n with
  | zero => intro i st hn; omega
  | succ n ih =>
    intro i st hn
    simp only [hiterate, r.prime]
    by_cases hi : i < t.prime
    · rw [if_pos hi, hiterChain_still ops g s (A i) _ _ _ (Heap.Chain.length_lt r.ok (r.chain i hi)) (r.chain i hi)]
      simp only [Res.bind]
      rw [cellsFrom_lt A hi, List.map_append, loop_append]
      by_cases hz : (Tab.loop g st ((A i).map fun c => (c.2.key, c.2.datum))).2 ≠ 0
      · rw [if_pos hz, if_pos hz]
      · rw [if_neg hz, if_neg hz]
        exact ih (i + 1) _ (by omega)
    · rw [if_neg hi, cellsFrom_ge A (by omega)]
      rfl

/-- the same for `set_iterate` -/
theorem siterChain_still (ops : KeyOps K) {σ : Type} (g : σ → K × Unit → σ × Int) (s : HState K Unit) (l : List (Nat × Entry K Unit)) :
    ∀ (n pt : Nat) (st : σ), l.length < n → Chain s.1.mem pt l →
    siterChain ops (fun st p => .ret (g st p).1 (g st p).2) n s pt st = .ok (s, Tab.loop g st (l.map fun c => (c.2.key, c.2.datum))) := by
  induction l with
  | nil =>
    intro n pt st hn hc
    cases n with
    | zero => omega
    | succ n =>
      have h0 : pt = 0 := hc
      simp [siterChain, h0, Tab.loop]
  | cons c l ih =>
    intro n pt st hn hc
    cases n with
    | zero => omega
    | succ n =>
      obtain ⟨h1, h2, nx, h3, h4⟩ := hc
      simp only [siterChain, h1, h2, if_false, Heap.read_ok h3, Res.bind, Spec.Calls.run, List.map_cons, Tab.loop]
      by_cases hz : (g st (c.2.key, c.2.datum)).2 ≠ 0
      · rw [if_pos hz, if_pos hz]
      · rw [if_neg hz, if_neg hz]
        exact ih n nx _ (by simp at hn; omega) h4

theorem siterLoop_still (ops : KeyOps K) {σ : Type} (g : σ → K × Unit → σ × Int) {s : HState K Unit} {t : Tab K Unit} {A}
    (r : HRep s.1 s.2 t A) : ∀ (n i : Nat) (st : σ), t.prime - i < n →
    siterLoop ops (fun st p => .ret (g st p).1 (g st p).2) n i s st =
      .ok (s, Tab.loop g st ((cellsFrom t.prime i A).map fun c => (c.2.key, c.2.datum))) := by
  intro n
  induction n with
  | zero => intro i st hn; omega
  | succ n ih =>
    intro i st hn
    simp only [siterLoop, r.prime]
    by_cases hi : i < t.prime
    · rw [if_pos hi, siterChain_still ops g s (A i) _ _ _ (Heap.Chain.length_lt r.ok (r.chain i hi)) (r.chain i hi)]
      simp only [Res.bind]
      rw [cellsFrom_lt A hi, List.map_append, loop_append]
      by_cases hz : (Tab.loop g st ((A i).map fun c => (c.2.key, c.2.datum))).2 ≠ 0
      · rw [if_pos hz, if_pos hz]
      · rw [if_neg hz, if_neg hz]
        exact ih (i + 1) _ (by omega)
    · rw [if_neg hi, cellsFrom_ge A (by omega)]
      rfl

end Maa.HashHeap
