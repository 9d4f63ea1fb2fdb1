import Verif.Model.StrPool
import Verif.Lemmas.StrMem
import Verif.Lemmas.HashPos

namespace Maa.StrPool

open CStr (cstr)
open StrMem (Mem SInfo)
open HashHeap (HTab HRep PSim Owns Foot At hinsert hretrieve hcreate hdestroy initPosition nextPosition getPosition)
open Tab (Entry)
open Spec (StrView)

theorem takeWhile_noNul (s : List Byte) : (0 : Byte) ∉ s.takeWhile (· ≠ 0) := by
  induction s with
  | nil => simp
  | cons b s ih =>
    rw [List.takeWhile_cons]
    split
    · rename_i hb
      have hb : b ≠ 0 := by simpa using hb
      simp only [List.mem_cons, not_or]
      exact ⟨Ne.symm hb, ih⟩
    · simp

theorem takeWhile_id {s : List Byte} (h : (0 : Byte) ∉ s) : s.takeWhile (· ≠ 0) = s := by
  induction s with
  | nil => rfl
  | cons b s ih =>
    simp only [List.mem_cons, not_or] at h
    rw [List.takeWhile_cons, if_pos (by simpa using Ne.symm h.1), ih h.2]

theorem cstr_takeWhile {b s : List Byte} (h : cstr b = .ok s) : b.takeWhile (· ≠ 0) = s ∧ b.contains 0 = true := by
  obtain ⟨h1, r, rfl⟩ := CStr.cstr_ok h
  constructor
  · rw [List.takeWhile_append_of_pos]
    · simp
    · intro x hx
      have : x ≠ 0 := by rintro rfl; exact h1 hx
      simpa using this
  · simp

theorem content_noNul (m : Mem) (k : SKey) : (0 : Byte) ∉ content m k := by
  cases k with
  | stored p =>
    simp only [content]
    split
    · exact takeWhile_noNul _
    · simp
  | arg s => exact takeWhile_noNul s

theorem ops_eq (m : Mem) (a b : SKey) : (ops m).cmp a b = 0 ↔ content m a = content m b :=
  CStr.strcmp_zero (content_noNul m a) (content_noNul m b)

theorem eqv_iff (m : Mem) (a b : SKey) : eqv (ops m) a b = true ↔ content m a = content m b := by
  unfold eqv
  rw [beq_iff_eq]
  exact ops_eq m a b

theorem eqv_eq (m : Mem) (a b : SKey) : eqv (ops m) a b = decide (content m a = content m b) := by
  rw [Bool.eq_iff_iff, eqv_iff]; simp

theorem ops_lawful (m : Mem) : (ops m).Lawful where
  refl a := (ops_eq m a a).2 rfl
  symm a b h := (ops_eq m b a).2 ((ops_eq m a b).1 h).symm
  trans a b c h h' := (ops_eq m a c).2 (((ops_eq m a b).1 h).trans ((ops_eq m b c).1 h'))
  hash a b h := by simp only [ops]; rw [(ops_eq m a b).1 h]

/-- the callbacks may read another memory, as long as they see the same strings -/
theorem PSim.change {m m' : Mem} {hh0 : Heap (Entry SKey Ptr)} {s : Heap (Entry SKey Ptr) × HTab}
    {ms : Spec.MapState SKey} (h : PSim (ops m) hh0 s ms)
    (hk : ∀ x ∈ ms.map, content m' x.1 = content m x.1) : PSim (ops m') hh0 s ms := by
  obtain ⟨t, A, r, sim, ow⟩ := h
  have hmem : ∀ e ∈ Tab.all t, content m' e.key = content m e.key := by
    intro e he
    exact hk (e.key, e.datum) (sim.rep.perm.subset (by
      simp only [Tab.pairsOf, List.mem_map]; exact ⟨e, he, rfl⟩))
  refine ⟨t, A, r, ⟨⟨⟨sim.rep.inv.pos, ?_, ?_, sim.rep.inv.count⟩, sim.rep.perm⟩, sim.ro, sim.retr, sim.miss, sim.hits⟩, ow⟩
  · intro i hi e he
    obtain ⟨h1, h2⟩ := sim.rep.inv.slot i hi e he
    refine ⟨?_, h2⟩
    rw [h1]
    simp only [ops]
    rw [hmem e ((Tab.mem_all t e).2 ⟨i, hi, he⟩)]
  · refine List.Pairwise.imp_of_mem ?_ sim.rep.inv.distinct
    intro a b ha hb hab
    rw [eqv_eq] at hab ⊢
    rw [hmem a ha, hmem b hb]; exact hab

theorem PSim.setRo {m : Mem} {hh0 h : Heap (Entry SKey Ptr)} {ht : HTab} {ms : Spec.MapState SKey}
    (hs : PSim (ops m) hh0 (h, ht) ms) (f : Int) :
    PSim (ops m) hh0 (h, { ht with readonly := f }) { ms with readonly := f } := by
  have := HashHeap.heapStep_sim (ops_lawful m) hh0 (h, ht) ms (.readonly f) hs
  simp only [HashHeap.heapStep, Spec.hashStep, Spec.ResRel] at this
  exact this.2

theorem PSim.ro {m : Mem} {hh0 h : Heap (Entry SKey Ptr)} {ht : HTab} {ms : Spec.MapState SKey}
    (hs : PSim (ops m) hh0 (h, ht) ms) : ht.readonly = ms.readonly := by
  obtain ⟨t, A, r, sim, ow⟩ := hs
  rw [r.ro, sim.ro]

/-- the pointer interned for a string -/
def lookup (M : List (List Byte × Nat)) (s : List Byte) : Option Nat := (M.find? fun x => x.1 == s).map Prod.snd

/-- the map of the hash table -/
def tabMap (M : List (List Byte × Nat)) : List (SKey × Nat) := M.map fun x => (.stored x.2, x.2)

/-- Everything known about a pool: `v` is its string memory, `M` the interned strings. -/
structure PInv (h0 : Mem) (hh0 : Heap (Entry SKey Ptr)) (p : Pool) (v : StrView) (M : List (List Byte × Nat))
    (ro : Int) : Prop where
  str : StrMem.Inv h0 (p.mem, p.str) v
  sim : ∃ ms, PSim (ops p.mem) hh0 (p.cells, p.tab) ms ∧ ms.map = tabMap M ∧ ms.readonly = ro
  known : ∀ x ∈ M, ∃ b, (x.2, b) ∈ v.strings ∧ cstr b = .ok x.1

section
variable {h0 : Mem} {hh0 : Heap (Entry SKey Ptr)} {p : Pool} {v : StrView} {M : List (List Byte × Nat)} {ro : Int}

theorem PInv.content (i : PInv h0 hh0 p v M ro) {x : List Byte × Nat} (hx : x ∈ M) :
    content p.mem (.stored x.2) = x.1 ∧ readable p.mem (.stored x.2) = true := by
  obtain ⟨b, h1, h2⟩ := i.known x hx
  have h3 := (i.str.strs _ h1).1
  have h4 := cstr_takeWhile h2
  simp only at h3
  refine ⟨?_, ?_⟩
  · simp only [StrPool.content, h3]; exact h4.1
  · simp only [readable, h3]; exact h4.2

theorem PInv.nonnull (i : PInv h0 hh0 p v M ro) (_ok0 : h0.Ok) {x : List Byte × Nat} (hx : x ∈ M) : x.2 ≠ 0 := by
  obtain ⟨b, h1, -⟩ := i.known x hx
  have h2 := i.str.live _ (i.str.strs _ h1).2
  intro h3
  simp only at h2
  rw [h3, i.str.ok.null] at h2
  simp at h2

theorem PInv.distinct (i : PInv h0 hh0 p v M ro) : M.Pairwise (fun a b => a.1 ≠ b.1) := by
  obtain ⟨ms, ⟨t, A, r, sim, ow⟩, hm, hr⟩ := i.sim
  have := sim.rep.spec_distinct (ops_lawful _)
  rw [hm] at this
  unfold Spec.Distinct tabMap at this
  rw [List.pairwise_map] at this
  refine List.Pairwise.imp_of_mem ?_ this
  intro a b ha hb hab
  rw [eqv_eq, (i.content ha).1, (i.content hb).1] at hab
  simpa using hab

theorem chainReadable_ok (m : Mem) (h : Heap (Entry SKey Ptr)) (l : List (Nat × Entry SKey Ptr)) : ∀ (n pt : Nat),
    l.length < n → Heap.Chain h.mem pt l → (∀ c ∈ l, readable m c.2.key = true) → chainReadable m h n pt = true := by
  induction l with
  | nil =>
    intro n pt hn hc _
    cases n with
    | zero => omega
    | succ n =>
      have : pt = 0 := hc
      simp [chainReadable, this]
  | cons c l ih =>
    intro n pt hn hc hr
    cases n with
    | zero => omega
    | succ n =>
      obtain ⟨h1, h2, nx, h3, h4⟩ := hc
      subst h1
      simp only [chainReadable, h2, if_false, h3, hr c (by simp), Bool.true_and]
      exact ih n nx (by simp at hn; omega) h4 fun d hd => hr d (by simp [hd])

theorem PInv.keysReadable (i : PInv h0 hh0 p v M ro) : keysReadable p = true := by
  unfold StrPool.keysReadable
  rw [List.all_eq_true]
  intro j hj
  obtain ⟨ms, ⟨t, A, r, sim, -⟩, hm, -⟩ := i.sim
  have hj : j < t.prime := by rw [← r.prime]; exact List.mem_range.1 hj
  refine chainReadable_ok _ _ (A j) _ _ (Heap.Chain.length_lt r.ok (r.chain j hj)) (r.chain j hj) ?_
  intro c hc
  have hb : c.2 ∈ t.buckets j := by
    rw [← r.ents j hj]
    exact List.mem_map_of_mem hc
  have hmem : (c.2.key, c.2.datum) ∈ ms.map := by
    refine sim.rep.perm.subset ?_
    simp only [Tab.pairsOf, List.mem_map]
    exact ⟨c.2, (Tab.mem_all t _).2 ⟨j, hj, hb⟩, rfl⟩
  rw [hm] at hmem
  simp only [tabMap, List.mem_map] at hmem
  obtain ⟨x, hx, he⟩ := hmem
  simp only [Prod.mk.injEq] at he
  rw [← he.1]
  exact (i.content hx).2

theorem find_tabMap (i : PInv h0 hh0 p v M ro) (k : SKey) :
    Spec.find (eqv (ops p.mem)) (tabMap M) k = lookup M (StrPool.content p.mem k) := by
  have hall : ∀ x ∈ M, StrPool.content p.mem (.stored x.2) = x.1 := fun x hx => (i.content hx).1
  revert hall
  generalize M = M'
  intro hall
  induction M' with
  | nil => rfl
  | cons x M' ih =>
    simp only [tabMap, List.map_cons, Spec.find, lookup, List.find?_cons]
    rw [eqv_eq, hall x (by simp)]
    by_cases h : x.1 = StrPool.content p.mem k
    · simp [h]
    · have h' : (x.1 == StrPool.content p.mem k) = false := by simpa using h
      simp only [h, decide_false, h']
      exact ih (fun y hy => hall y (by simp [hy]))

theorem lookup_some {M : List (List Byte × Nat)} {s : List Byte} {d : Nat} (h : lookup M s = some d) :
    (s, d) ∈ M := by
  simp only [lookup, Option.map_eq_some_iff] at h
  obtain ⟨x, h1, h2⟩ := h
  have h3 := List.find?_some h1
  have h4 := List.mem_of_find?_eq_some h1
  simp only [beq_iff_eq] at h3
  rw [← h2, ← h3]; exact h4

theorem lookup_of {M : List (List Byte × Nat)} (hd : M.Pairwise (fun a b => a.1 ≠ b.1)) {s : List Byte} {d : Nat}
    (h : (s, d) ∈ M) : lookup M s = some d := by
  induction M with
  | nil => simp at h
  | cons x M ih =>
    rw [List.pairwise_cons] at hd
    simp only [lookup, List.find?_cons]
    rcases List.mem_cons.1 h with rfl | h
    · simp
    · have : (x.1 == s) = false := by simpa using hd.1 _ h
      simp only [this]
      exact ih hd.2 h

/-- what `hsh_retrieve` of a caller's string does -/
theorem PInv.retrieve (i : PInv h0 hh0 p v M ro) {t : List Byte} (ht : (0 : Byte) ∉ t) :
    ∃ p', StrPool.retrieve p (.arg t) = .ok (p', (lookup M t).getD 0) ∧ PInv h0 hh0 p' v M ro ∧ p'.mem = p.mem ∧
      p'.str = p.str := by
  obtain ⟨ms, hs, hm, hr⟩ := i.sim
  have h1 := HashHeap.heapStep_sim (ops_lawful p.mem) hh0 _ ms (.retrieve (.arg t)) hs
  have hf := find_tabMap i (.arg t)
  have hc : StrPool.content p.mem (.arg t) = t := takeWhile_id ht
  rw [hc] at hf
  simp only [Spec.hashStep, hm, hf, HashHeap.heapStep] at h1
  unfold StrPool.retrieve
  rw [if_neg (by simp [i.keysReadable])]
  cases hq : hretrieve (ops p.mem) p.cells p.tab (.arg t) with
  | ok q =>
    rw [hq] at h1
    simp only [Res.bind] at h1 ⊢
    cases hl : lookup M t with
    | none =>
      rw [hl] at h1
      simp only [Spec.ResRel] at h1
      refine ⟨{ p with cells := q.1.1, tab := q.1.2 }, ?_, ⟨i.str, ⟨_, h1.2, rfl, hr⟩, i.known⟩, rfl, rfl⟩
      have := h1.1
      simp only [Spec.Ret.ptr.injEq] at this
      cases hq2 : q.2 <;> rw [hq2] at this <;> simp at this ⊢
      exact this
    | some d =>
      rw [hl] at h1
      simp only [Spec.ResRel] at h1
      refine ⟨{ p with cells := q.1.1, tab := q.1.2 }, ?_, ⟨i.str, ⟨_, h1.2, rfl, hr⟩, i.known⟩, rfl, rfl⟩
      have := h1.1
      simp only [Spec.Ret.ptr.injEq] at this
      cases hq2 : q.2 <;> rw [hq2] at this <;> simp at this ⊢ <;> exact this
  | abort => rw [hq] at h1; cases hl : lookup M t <;> rw [hl] at h1 <;> simp [Spec.ResRel, Res.bind] at h1
  | fatal => rw [hq] at h1; cases hl : lookup M t <;> rw [hl] at h1 <;> simp [Spec.ResRel, Res.bind] at h1
  | ub => rw [hq] at h1; cases hl : lookup M t <;> rw [hl] at h1 <;> simp [Spec.ResRel, Res.bind] at h1

/-- what `hsh_insert` of a string of the pool does -/
theorem PInv.insert (i : PInv h0 hh0 p v M ro) {d : Nat} {b c : List Byte}
    (hd : (d, b) ∈ v.strings) (hb : cstr b = .ok c) :
    (ro ≠ 0 → StrPool.insert p d = .abort) ∧
    (ro = 0 → ∃ p', StrPool.insert p d = .ok p' ∧ PInv h0 hh0 p' v (if (lookup M c).isSome then M else (c, d) :: M) 0 ∧
      p'.mem = p.mem ∧ p'.str = p.str) := by
  obtain ⟨ms, hs, hm, hr⟩ := i.sim
  have h1 := HashHeap.heapStep_sim (ops_lawful p.mem) hh0 _ ms (.insert (.stored d) d) hs
  have hmem := (i.str.strs _ hd).1
  simp only at hmem
  have h4 := cstr_takeWhile hb
  have hc : StrPool.content p.mem (.stored d) = c := by simp only [StrPool.content, hmem]; exact h4.1
  have hrd : readable p.mem (.stored d) = true := by simp only [readable, hmem]; exact h4.2
  have hf := find_tabMap i (.stored d)
  rw [hc] at hf
  unfold StrPool.insert
  rw [if_neg (by simp [i.keysReadable, hrd])]
  simp only [Spec.hashStep, hr, HashHeap.heapStep] at h1
  constructor
  · intro hro
    rw [if_pos hro] at h1
    cases hq : hinsert (ops p.mem) p.cells p.tab (.stored d) d <;> rw [hq] at h1 <;>
      simp [Spec.ResRel, Res.bind] at h1 ⊢
  · intro hro
    rw [if_neg (by simp [hro])] at h1
    cases hq : hinsert (ops p.mem) p.cells p.tab (.stored d) d <;> rw [hq] at h1 <;>
      simp only [Spec.ResRel, Res.bind] at h1 ⊢
    rename_i q
    refine ⟨{ p with cells := q.1.1, tab := q.1.2 }, rfl, ⟨i.str, ⟨_, h1.2, ?_, hro⟩, ?_⟩, rfl, rfl⟩
    · simp only [Spec.insert, hm, hf]
      cases lookup M c <;> simp [tabMap]
    · intro x hx
      split at hx
      · exact i.known x hx
      · rcases List.mem_cons.1 hx with rfl | hx
        · exact ⟨b, hd, hb⟩
        · exact i.known x hx

/-- a call on the string memory leaves the interned strings alone -/
theorem PInv.strStep (i : PInv h0 hh0 p v M ro) {mem' : Mem} {str' : SInfo} {v' : StrView}
    (hi : StrMem.Inv h0 (mem', str') v') (hsub : ∀ x ∈ v.strings, x ∈ v'.strings) :
    PInv h0 hh0 { p with mem := mem', str := str' } v' M ro := by
  obtain ⟨ms, hs, hm, hr⟩ := i.sim
  have hkn : ∀ x ∈ M, ∃ b, (x.2, b) ∈ v'.strings ∧ cstr b = .ok x.1 := fun x hx => by
    obtain ⟨b, h1, h2⟩ := i.known x hx
    exact ⟨b, hsub _ h1, h2⟩
  refine ⟨hi, ⟨ms, PSim.change hs ?_, hm, hr⟩, hkn⟩
  intro x hx
  rw [hm] at hx
  simp only [tabMap, List.mem_map] at hx
  obtain ⟨y, hy, rfl⟩ := hx
  obtain ⟨b, h1, h2⟩ := i.known y hy
  have e1 := (i.str.strs _ h1).1
  have e2 := (hi.strs _ (hsub _ h1)).1
  simp only at e1 e2
  simp only [StrPool.content, e1, e2]

theorem copied_sub (v : StrView) (x : Nat × List Byte) (l : List Byte) (n : Nat) :
    ∀ y ∈ v.strings, y ∈ (StrView.mk (x :: v.strings) l n).strings := fun y hy => by simp [hy]

/-- `str_pool_exists` -/
theorem PInv.exists_ok (i : PInv h0 hh0 p v M ro) (ok0 : h0.Ok) {s t : List Byte}
    (hs : cstr s = .ok t) :
    ∃ p', exists_ p s = .ok (p', if (lookup M t).isSome then 1 else 0) ∧ PInv h0 hh0 p' v M ro ∧ p'.mem = p.mem := by
  obtain ⟨p', h1, h2, h3, -⟩ := i.retrieve (CStr.cstr_ok hs).1
  refine ⟨p', ?_, h2, h3⟩
  unfold exists_
  rw [hs]
  simp only [Res.bind, h1]
  cases hl : lookup M t with
  | none => simp
  | some d => have := i.nonnull ok0 (lookup_some hl); simp at this; simp [this]

/-- `str_pool_find` of an interned string -/
theorem PInv.find_old (i : PInv h0 hh0 p v M ro) (ok0 : h0.Ok) {s t : List Byte}
    (hs : cstr s = .ok t) {d : Nat} (hl : lookup M t = some d) :
    ∃ p', find p s = .ok (p', d) ∧ PInv h0 hh0 p' v M ro ∧ p'.mem = p.mem := by
  obtain ⟨p', h1, h2, h3, -⟩ := i.retrieve (CStr.cstr_ok hs).1
  refine ⟨p', ?_, h2, h3⟩
  have := i.nonnull ok0 (lookup_some hl)
  simp only at this
  unfold find
  rw [hs]
  simp only [Res.bind, h1, hl, Option.getD_some]
  rw [if_pos this]

/-- `str_pool_find` of a new string -/
theorem PInv.find_new (i : PInv h0 hh0 p v M ro) {s t : List Byte}
    (hs : cstr s = .ok t) (hl : lookup M t = none) :
    (ro ≠ 0 → find p s = .abort) ∧
    (ro = 0 → ∃ p' d, find p s = .ok (p', d) ∧
      PInv h0 hh0 p' (StrView.mk ((d, t ++ [0]) :: v.strings) [] (v.abandoned + v.pending.length)) ((t, d) :: M) 0 ∧
      d ≠ 0 ∧ d ∉ v.strings.map Prod.fst) := by
  obtain ⟨p1, h1, h2, h3, h4⟩ := i.retrieve (CStr.cstr_ok hs).1
  obtain ⟨s', d, v', e1, e2, e3, e4⟩ := StrMem.step_inv h2.str (.strcpy s)
    (by intro r; simp [StrView.see, StrMem.upToNul_of hs])
  simp only [StrView.see, StrMem.upToNul_of hs, Option.map_some, Option.some.injEq] at e2
  simp only [StrMem.step] at e1
  have i2 := h2.strStep (mem' := s'.1) (str' := s'.2) e3 (by rw [← e2]; exact copied_sub _ _ _ _)
  have hcs : cstr (t ++ [0]) = .ok t := CStr.cstr_ofStr t (CStr.cstr_ok hs).1
  obtain ⟨f1, f2⟩ := i2.insert (d := d) (b := t ++ [0]) (by rw [← e2]; simp) hcs
  have hd := e4 (by simp)
  unfold find
  rw [hs]
  simp only [Res.bind, h1, hl, Option.getD_none, e1]
  rw [if_neg (by simp)]
  constructor
  · intro hro
    rw [f1 hro]
  · intro hro
    obtain ⟨p', g1, g2, -⟩ := f2 hro
    rw [g1]
    rw [hl] at g2
    refine ⟨p', d, rfl, ?_, hd.1, hd.2⟩
    rw [e2]
    simpa using g2

theorem cstr_finish (l : List Byte) : ∃ c, cstr (l ++ [0] ++ [0]) = .ok c ∧ c = (l ++ [0]).takeWhile (· ≠ 0) := by
  induction l with
  | nil => exact ⟨[], by simp [CStr.cstr], by simp⟩
  | cons b l ih =>
    by_cases hb : b = 0
    · exact ⟨[], by simp [CStr.cstr, hb], by simp [hb]⟩
    · obtain ⟨c, h1, h2⟩ := ih
      refine ⟨b :: c, ?_, ?_⟩
      · simp only [List.cons_append, CStr.cstr]
        rw [if_neg hb, h1]; rfl
      · rw [h2, List.cons_append, List.takeWhile_cons, if_pos (by simpa using hb)]

/-- `str_pool_finish` -/
theorem PInv.finish_ok (i : PInv h0 hh0 p v M ro) :
    ∃ c, c = (v.pending ++ [0]).takeWhile (· ≠ 0) ∧
    (ro ≠ 0 → finish p = .abort) ∧
    (ro = 0 → ∃ p' d, finish p = .ok (p', d) ∧
      PInv h0 hh0 p' (StrView.mk ((d, v.pending ++ [0] ++ [0]) :: v.strings) [] v.abandoned)
        (if (lookup M c).isSome then M else (c, d) :: M) 0 ∧
      d ≠ 0 ∧ d ∉ v.strings.map Prod.fst) := by
  obtain ⟨c, hc1, hc2⟩ := cstr_finish v.pending
  refine ⟨c, hc2, ?_⟩
  obtain ⟨s1, top, rest, a1, a2, a3, a4, a5, a6, -⟩ := i.str.grown [0, 0] 1 (by simp)
  simp only [List.take_succ_cons, List.take_zero] at a2
  obtain ⟨s2, d, v', e1, e2, e3, e4⟩ := StrMem.step_inv a2 .finish (by intro r; simp [StrView.see])
  simp only [StrView.see, Option.some.injEq] at e2
  simp only [StrMem.step] at e1
  have i1 := i.strStep (mem' := s1.1) (str' := s1.2) a2 (fun _ h => h)
  have i2 := i1.strStep (mem' := s2.1) (str' := s2.2) e3 (by rw [← e2]; intro y hy; simp [hy])
  obtain ⟨f1, f2⟩ := i2.insert (d := d) (by rw [← e2]; simp; exact Or.inl rfl) (by simpa using hc1)
  have hd := e4 (by simp)
  unfold finish grow
  simp only [a1, Res.bind, e1]
  constructor
  · intro hro
    have := f1 hro
    simp only at this
    rw [this]
  · intro hro
    obtain ⟨p', g1, g2, -⟩ := f2 hro
    simp only at g1
    rw [g1]
    refine ⟨p', d, rfl, ?_, hd.1, hd.2⟩
    rw [e2]
    exact g2

/-- the loop over positions, calling the iterator -/
theorem iterLoop_ok (f : List Nat → Nat → Int) (stop : HTab → HTab) {h : Heap (Entry SKey Ptr)} {ht : HTab}
    {t : Tab.Tab SKey Ptr} {A} (r : HRep h ht t A)
    (slot : ∀ i < t.prime, ∀ e ∈ t.buckets i, e.hash % t.prime = i)
    (keys : ∀ e ∈ Tab.all t, e.key = .stored e.datum)
    (rem : List (Nat × Entry SKey Ptr)) : ∀ (n pos : Nat) (seen : List (Nat × Int)), rem.length < n →
    At t.prime A pos rem →
    ∃ log rest res ht', iterLoop f stop n h ht pos seen = .ok (ht', seen ++ log, res) ∧
      rem.map (fun c => c.2.datum) = log.map Prod.fst ++ rest ∧
      ((res = 0 ∧ rest = [] ∧ (∀ c ∈ log, c.2 = 0) ∧ ht' = { ht with readonly := 0 }) ∨
       (res = 1 ∧ (∃ before last, log = before ++ [last] ∧ last.2 ≠ 0 ∧ ∀ c ∈ before, c.2 = 0) ∧ ht' = stop ht)) := by
  induction rem with
  | nil =>
    intro n pos seen _ hat
    obtain ⟨e, rest, h1, -⟩ := hat.cell
    simp at h1
  | cons c rem ih =>
    intro n pos seen hn hat
    obtain ⟨e, rest, h1, j, hj, hmem⟩ := hat.cell
    simp only [List.cons.injEq] at h1
    obtain ⟨rfl, rfl⟩ := h1
    obtain ⟨n, rfl⟩ : ∃ k, n = k + 1 := ⟨n - 1, by simp at hn; omega⟩
    obtain ⟨hp0, nx, hm⟩ := HashHeap.cell_mem r hj hmem
    have hkey : e.key = .stored e.datum := by
      refine keys e ((Tab.mem_all t e).2 ⟨j, hj, ?_⟩)
      rw [← r.ents j hj]
      exact List.mem_map_of_mem hmem
    simp only [iterLoop]
    rw [if_neg hp0]
    simp only [getPosition, Heap.read_ok hm, Res.bind, hkey]
    by_cases hf : f (seen.map Prod.fst) e.datum = 0
    · rw [if_neg (by simp [hf])]
      rcases HashHeap.nextPosition_ok r slot hat with ⟨g1, g2⟩ | ⟨q, g1, g2, g3⟩
      · rw [g2]
        simp only
        obtain ⟨n, rfl⟩ : ∃ k, n = k + 1 := ⟨n - 1, by simp at hn; omega⟩
        refine ⟨[(e.datum, f (seen.map Prod.fst) e.datum)], [], 0, _, by simp [iterLoop], by simp [g1],
          Or.inl ⟨rfl, rfl, by simp [hf], rfl⟩⟩
      · rw [g2]
        simp only
        obtain ⟨log, rest', res, ht', k1, k2, k3⟩ := ih n q (seen ++ [(e.datum, f (seen.map Prod.fst) e.datum)])
          (by simp at hn; omega) g3
        refine ⟨(e.datum, f (seen.map Prod.fst) e.datum) :: log, rest', res, ht', by rw [k1]; simp, by simp [k2], ?_⟩
        rcases k3 with ⟨m1, m2, m3, m4⟩ | ⟨m1, ⟨b, l, m2, m3, m4⟩, m5⟩
        · exact Or.inl ⟨m1, m2, by intro c hc; rcases List.mem_cons.1 hc with rfl | hc; exacts [hf, m3 c hc], m4⟩
        · refine Or.inr ⟨m1, ⟨(e.datum, f (seen.map Prod.fst) e.datum) :: b, l, by simp [m2], m3, ?_⟩, m5⟩
          intro c hc
          rcases List.mem_cons.1 hc with rfl | hc
          exacts [hf, m4 c hc]
    · rw [if_pos hf]
      exact ⟨[(e.datum, f (seen.map Prod.fst) e.datum)], rem.map (fun c => c.2.datum), 1, _, rfl, by simp,
        Or.inr ⟨rfl, ⟨[], _, rfl, hf, by simp⟩, rfl⟩⟩

/-- iterating over a pool -/
theorem PInv.iter (i : PInv h0 hh0 p v M ro) (f : List Nat → Nat → Int) (stop : HTab → HTab) (stopRo : Int)
    (hstop : ∀ t, stop t = { t with readonly := stopRo } ∨ (stop t = t ∧ stopRo = 1)) :
    ∃ t' log res ro', iterLoop f stop p.cells.clock p.cells (initPosition p.tab).1 (initPosition p.tab).2 [] =
        .ok (t', log, res) ∧ PInv h0 hh0 { p with tab := t' } v M ro' ∧
      Spec.IterationOf (M.map Prod.snd) log res ∧ (res ≠ 0 → ro' = stopRo) ∧ (res = 0 → M ≠ [] → ro' = 0) ∧
      (res = 0 → M = [] → ro' = ro) := by
  obtain ⟨ms, hs, hm, hr⟩ := i.sim
  have hs' := hs
  obtain ⟨t, A, r, sim, ow⟩ := hs
  have hkeys : ∀ e ∈ Tab.all t, e.key = .stored e.datum := by
    intro e he
    have : (e.key, e.datum) ∈ ms.map := sim.rep.perm.subset (by
      simp only [Tab.pairsOf, List.mem_map]; exact ⟨e, he, rfl⟩)
    rw [hm] at this
    simp only [tabMap, List.mem_map, Prod.mk.injEq] at this
    obtain ⟨x, -, h1, h2⟩ := this
    rw [← h1, h2]
  have hcells : ((HashHeap.cellsFrom t.prime 0 A).map fun c => c.2.datum).Perm (M.map Prod.snd) := by
    have h1 := sim.rep.perm.map Prod.snd
    rw [hm] at h1
    have h2 : (HashHeap.cellsFrom t.prime 0 A).map (fun c => c.2.datum) = (Tab.pairsOf t).map Prod.snd := by
      rw [Tab.pairsOf, ← HashHeap.cells_map r, List.map_map, List.map_map]; rfl
    have h3 : (tabMap M).map Prod.snd = M.map Prod.snd := by simp [tabMap]
    rw [h2, ← h3]; exact h1
  rcases HashHeap.initPosition_ok r with ⟨g1, g2⟩ | ⟨pos, g1, g2, g3⟩
  · have hM : M = [] := by
      rw [g1] at hcells
      simpa using hcells.symm.eq_nil
    obtain ⟨n, hn⟩ : ∃ k, p.cells.clock = k + 1 := ⟨p.cells.clock - 1, by have := r.ok.pos; simp only at this; omega⟩
    rw [g2, hn]
    refine ⟨p.tab, [], 0, ro, by simp [iterLoop], ⟨i.str, ⟨ms, hs', hm, hr⟩, i.known⟩, ?_, by simp, by simp [hM], by simp⟩
    exact ⟨⟨[], by simp [hM], by simp⟩, by simp, by simp⟩
  · rw [g2]
    have r1 := r.withRo 1
    have hlen : (HashHeap.cellsFrom t.prime 0 A).length < p.cells.clock := by
      -- the cells are distinct live addresses
      have hnd : ((HashHeap.cellsFrom t.prime 0 A).map Prod.fst).Nodup := by
        unfold HashHeap.cellsFrom
        rw [List.drop_zero, List.map_flatMap]
        rw [List.nodup_flatMap]
        refine ⟨fun j hj => Heap.Chain.nodup (r.chain j (List.mem_range.1 hj)), ?_⟩
        refine List.Pairwise.imp_of_mem ?_ List.nodup_range
        intro a b ha hb hab x hx hx'
        exact r.disj a (List.mem_range.1 ha) b (List.mem_range.1 hb) hab x hx hx'
      have := r.ok.length_lt hnd fun a ha => by
        obtain ⟨c, hc, rfl⟩ := List.mem_map.1 ha
        unfold HashHeap.cellsFrom at hc
        rw [List.drop_zero, List.mem_flatMap] at hc
        obtain ⟨j, hj, hc⟩ := hc
        obtain ⟨-, nx, h2⟩ := HashHeap.cell_mem r (List.mem_range.1 hj) (p := c.1) (e := c.2) hc
        rw [h2]; rfl
      simpa using this
    obtain ⟨log, rest, res, ht', k1, k2, k3⟩ := iterLoop_ok f stop (h := p.cells) r1
      (fun j hj e he => (sim.rep.inv.slot j hj e he).2) hkeys (HashHeap.cellsFrom t.prime 0 A) p.cells.clock pos []
      hlen g3
    have hs1 : PSim (ops p.mem) hh0 (p.cells, { p.tab with readonly := 1 }) { ms with readonly := 1 } := PSim.setRo hs' 1
    have hne : M ≠ [] := by
      rintro rfl
      obtain ⟨e, rest, h1, -⟩ := g3.cell
      rw [h1] at hcells
      simpa using hcells.eq_nil
    rcases k3 with ⟨m1, m2, m3, m4⟩ | ⟨m1, m2, m3⟩
    · refine ⟨ht', log, res, 0, by simpa using k1, ⟨i.str, ⟨{ ms with readonly := 0 }, ?_, hm, rfl⟩, i.known⟩,
        ⟨⟨rest, by rw [← k2]; exact hcells, fun _ => m2⟩, fun _ => m3, fun h => absurd m1 h⟩, fun h => absurd m1 h,
        fun _ _ => rfl, fun _ h => absurd h hne⟩
      rw [m4]
      exact PSim.setRo hs1 0
    · refine ⟨ht', log, res, stopRo, by simpa using k1, ⟨i.str, ⟨{ ms with readonly := stopRo }, ?_, hm, rfl⟩, i.known⟩,
        ⟨⟨rest, by rw [← k2]; exact hcells, fun h => by simp [m1] at h⟩, fun h => by simp [m1] at h, fun _ => m2⟩,
        fun _ => rfl, fun h => by simp [m1] at h, fun h => by simp [m1] at h⟩
      rw [m3]
      rcases hstop { p.tab with readonly := 1 } with h | ⟨h, h'⟩
      · rw [h]; exact PSim.setRo hs1 stopRo
      · rw [h, h']; exact hs1


theorem cstr_of_mem {s : List Byte} (h : (0 : Byte) ∈ s) : ∃ t, cstr s = .ok t := by
  have : Spec.upToNul s ≠ none := by simp [Spec.upToNul, h]
  cases hu : Spec.upToNul s with
  | none => exact absurd hu this
  | some t => exact ⟨t, StrMem.upToNul_some hu⟩

/-- What one call with permitted arguments does. -/
theorem step_ok (ok0 : h0.Ok) (i : PInv h0 hh0 p v M ro) (o : Spec.PoolOp)
    (ho : o.Permitted) :
    (∃ p' r v' M' ro', step p o = .ok (p', r) ∧ PInv h0 hh0 p' v' M' ro' ∧ (∀ x ∈ M, x ∈ M') ∧
      (∀ x ∈ v.strings, x ∈ v'.strings) ∧
      (∀ a, o = .find a → ∃ t d, cstr a = .ok t ∧ r = .ptr d ∧ (t, d) ∈ M') ∧
      (∀ a, o = .exists_ a → ∃ t, cstr a = .ok t ∧ r = .int (if (lookup M t).isSome then 1 else 0)) ∧
      (o.isFinish = false → ∀ x ∈ M', x ∈ M ∨ ∃ a, o = .find a ∧ cstr a = .ok x.1) ∧
      (o.isIterate = false → ro = 0 → ro' = 0) ∧ (o.isGrow = false → v.pending = [] → v'.pending = []) ∧
      (o.isFinish = true → v'.pending = [])) ∨ (ro ≠ 0 ∧ step p o = .abort) := by
  cases o with
  | exists_ s =>
    obtain ⟨t, hs⟩ := cstr_of_mem ho
    obtain ⟨p', h1, h2, -⟩ := i.exists_ok ok0 hs
    refine Or.inl ⟨p', .int (if (lookup M t).isSome then 1 else 0), v, M, ro, by simp only [step, h1, Res.bind], h2, fun _ h => h, fun _ h => h, by simp, ?_,
      fun _ x hx => Or.inl hx, fun _ h => h, fun _ h => h, by simp [Spec.PoolOp.isFinish]⟩
    intro a ha
    simp only [Spec.PoolOp.exists_.injEq] at ha
    subst ha
    exact ⟨t, hs, rfl⟩
  | find s =>
    obtain ⟨t, hs⟩ := cstr_of_mem ho
    cases hl : lookup M t with
    | some d =>
      obtain ⟨p', h1, h2, -⟩ := i.find_old ok0 hs hl
      refine Or.inl ⟨p', .ptr d, v, M, ro, by simp only [step, h1, Res.bind], h2, fun _ h => h, fun _ h => h, ?_, by simp,
        fun _ x hx => Or.inl hx, fun _ h => h, fun _ h => h, by simp [Spec.PoolOp.isFinish]⟩
      intro a ha
      simp only [Spec.PoolOp.find.injEq] at ha
      subst ha
      exact ⟨t, d, hs, rfl, lookup_some hl⟩
    | none =>
      obtain ⟨h1, h2⟩ := i.find_new hs hl
      by_cases hro : ro = 0
      · obtain ⟨p', d, h3, h4, -⟩ := h2 hro
        refine Or.inl ⟨p', .ptr d, _, _, 0, by simp only [step, h3, Res.bind], h4, fun _ h => by simp [h],
          fun _ h => by simp [h], ?_, by simp, ?_, fun _ _ => rfl, fun _ _ => rfl, by simp [Spec.PoolOp.isFinish]⟩
        · intro a ha
          simp only [Spec.PoolOp.find.injEq] at ha
          subst ha
          exact ⟨t, d, hs, rfl, by simp⟩
        · intro _ x hx
          rcases List.mem_cons.1 hx with rfl | hx
          · exact Or.inr ⟨s, rfl, hs⟩
          · exact Or.inl hx
      · exact Or.inr ⟨hro, by simp only [step, h1 hro, Res.bind]⟩
  | copy s =>
    obtain ⟨t, hs⟩ := cstr_of_mem ho
    obtain ⟨s', d, v', e1, e2, e3, e4⟩ := StrMem.step_inv i.str (.strcpy s)
      (by intro r; simp [StrView.see, StrMem.upToNul_of hs])
    simp only [StrView.see, StrMem.upToNul_of hs, Option.map_some, Option.some.injEq] at e2
    simp only [StrMem.step] at e1
    have hsub : ∀ x ∈ v.strings, x ∈ v'.strings := by rw [← e2]; exact copied_sub _ _ _ _
    have i2 := i.strStep (mem' := s'.1) (str' := s'.2) e3 hsub
    exact Or.inl ⟨{ p with mem := s'.1, str := s'.2 }, .ptr d, v', M, ro, by simp only [step, copy, e1, Res.bind], i2, fun _ h => h, hsub, by simp, by simp,
      fun _ x hx => Or.inl hx, fun _ h => h, fun _ _ => by rw [← e2], by simp [Spec.PoolOp.isFinish]⟩
  | copyn s n =>
    have hn : n + 1 ≤ s.length := ho
    obtain ⟨s', d, v', e1, e2, e3, e4⟩ := StrMem.step_inv i.str (.strncpy s n)
      (by intro r; simp only [StrView.see]; rw [if_pos hn]; simp)
    simp only [StrView.see, if_pos hn, Option.some.injEq] at e2
    simp only [StrMem.step] at e1
    have hsub : ∀ x ∈ v.strings, x ∈ v'.strings := by rw [← e2]; exact copied_sub _ _ _ _
    have i2 := i.strStep (mem' := s'.1) (str' := s'.2) e3 hsub
    exact Or.inl ⟨{ p with mem := s'.1, str := s'.2 }, .ptr d, v', M, ro, by simp only [step, copyn, e1, Res.bind], i2, fun _ h => h, hsub, by simp, by simp,
      fun _ x hx => Or.inl hx, fun _ h => h, fun _ _ => by rw [← e2], by simp [Spec.PoolOp.isFinish]⟩
  | grow s n =>
    have hn : n ≤ s.length := ho
    obtain ⟨s1, top, rest, a1, a2, -⟩ := i.str.grown s n hn
    have i2 := i.strStep (mem' := s1.1) (str' := s1.2) a2 (fun _ h => h)
    simp only at a1
    exact Or.inl ⟨{ p with mem := s1.1, str := s1.2 }, .int 0, _, M, ro, by simp only [step, grow, a1, Res.bind], i2, fun _ h => h, fun _ h => h, by simp, by simp,
      fun _ x hx => Or.inl hx, fun _ h => h, by simp [Spec.PoolOp.isGrow], by simp [Spec.PoolOp.isFinish]⟩
  | finish =>
    obtain ⟨c, -, h1, h2⟩ := i.finish_ok
    by_cases hro : ro = 0
    · obtain ⟨p', d, h3, h4, -⟩ := h2 hro
      refine Or.inl ⟨p', .ptr d, _, _, 0, by simp only [step, h3, Res.bind], h4, ?_, fun _ h => by simp [h], by simp,
        by simp, by simp [Spec.PoolOp.isFinish], fun _ _ => rfl, fun _ _ => rfl, fun _ => rfl⟩
      intro x hx
      split
      · exact hx
      · simp [hx]
    · exact Or.inr ⟨hro, by simp only [step, h1 hro, Res.bind]⟩
  | iterate f =>
    obtain ⟨t', log, res, ro', h1, h2, h3, -⟩ := i.iter f id 1 (fun t => Or.inr ⟨rfl, rfl⟩)
    exact Or.inl ⟨{ p with tab := t' }, .int res, v, M, ro', by simp only [step, iterate, h1, Res.bind], h2, fun _ h => h, fun _ h => h, by simp,
      by simp, fun _ x hx => Or.inl hx, by simp [Spec.PoolOp.isIterate], fun _ h => h, by simp [Spec.PoolOp.isFinish]⟩
  | iterateArg f =>
    obtain ⟨t', log, res, ro', h1, h2, h3, h4, h5, h6⟩ := i.iter f (fun t => { t with readonly := 0 }) 0
      (fun t => Or.inl rfl)
    refine Or.inl ⟨{ p with tab := t' }, .int res, v, M, ro', by simp only [step, iterateArg, h1, Res.bind], h2, fun _ h => h, fun _ h => h,
      by simp, by simp, fun _ x hx => Or.inl hx, fun _ hro => ?_, fun _ h => h, by simp [Spec.PoolOp.isFinish]⟩
    by_cases hr : res = 0
    · by_cases hM : M = []
      · rw [h6 hr hM, hro]
      · exact h5 hr hM
    · exact h4 hr

theorem foldl_mono (os : List Spec.PoolOp) : ∀ (a b : Bool), (a = true → b = true) →
    os.foldl (fun c o => if o.isGrow then false else if o.isFinish then true else c) a = true →
    os.foldl (fun c o => if o.isGrow then false else if o.isFinish then true else c) b = true := by
  induction os with
  | nil => intro a b h1 h2; exact h1 h2
  | cons o os ih =>
    intro a b h1 h2
    rw [List.foldl_cons] at h2 ⊢
    refine ih _ _ ?_ h2
    cases o.isGrow <;> cases o.isFinish <;> simp_all

/-- What a history of calls with permitted arguments does. -/
theorem run_ok (ok0 : h0.Ok) (hist : List Spec.PoolOp) :
    ∀ {p : Pool} {v : StrView} {M : List (List Byte × Nat)} {ro : Int} {p' : Pool} {outs : List Spec.Ret},
    PInv h0 hh0 p v M ro → (∀ o ∈ hist, o.Permitted) → Spec.run step p hist = .ok (p', outs) →
    ∃ v' M' ro', PInv h0 hh0 p' v' M' ro' ∧ (∀ x ∈ M, x ∈ M') ∧ (∀ x ∈ v.strings, x ∈ v'.strings) ∧
      (∀ (j : Nat) (a : List Byte) (r : Spec.Ret), hist[j]? = some (Spec.PoolOp.find a) → outs[j]? = some r →
        ∃ t d, cstr a = .ok t ∧ r = Spec.Ret.ptr d ∧ (t, d) ∈ M') ∧
      ((∀ o ∈ hist, o.isFinish = false) → ∀ x ∈ M', x ∈ M ∨ ∃ a, Spec.PoolOp.find a ∈ hist ∧ cstr a = .ok x.1) ∧
      ((∀ o ∈ hist, o.isIterate = false) → ro = 0 → ro' = 0) ∧ outs.length = hist.length ∧
      (hist.foldl (fun c o => if o.isGrow then false else if o.isFinish then true else c) (v.pending.isEmpty) = true →
        v'.pending = []) := by
  induction hist with
  | nil =>
    intro p v M ro p' outs i _ hr
    simp only [Spec.run, Res.ok.injEq, Prod.mk.injEq] at hr
    obtain ⟨rfl, rfl⟩ := hr
    exact ⟨v, M, ro, i, fun _ h => h, fun _ h => h, by simp, fun _ x hx => Or.inl hx, fun _ h => h, rfl, by simp⟩
  | cons o os ih =>
    intro p v M ro p' outs i ho hr
    simp only [Spec.run] at hr
    rcases step_ok ok0 i o (ho o (by simp)) with ⟨p1, r1, v1, M1, ro1, h1, h2, h3, h4, h5, -, h6, h7, h8, h9⟩ | ⟨-, h1⟩
    · rw [h1] at hr
      simp only [Res.bind] at hr
      cases hr2 : Spec.run step p1 os <;> rw [hr2] at hr <;> simp at hr
      rename_i q
      obtain ⟨rfl, rfl⟩ := hr
      obtain ⟨v2, M2, ro2, k1, k2, k3, k4, k5, k6, k7, k8⟩ := ih h2 (fun o h => ho o (by simp [h])) hr2
      refine ⟨v2, M2, ro2, k1, fun x hx => k2 x (h3 x hx), fun x hx => k3 x (h4 x hx), ?_, ?_, ?_, by simp [k7], ?_⟩
      · intro j a r hj hr
        cases j with
        | zero =>
          simp only [List.getElem?_cons_zero, Option.some.injEq] at hj hr
          obtain ⟨t, d, e1, e2, e3⟩ := h5 a hj
          exact ⟨t, d, e1, by rw [← hr, e2], k2 _ e3⟩
        | succ j =>
          simp only [List.getElem?_cons_succ] at hj hr
          exact k4 j a r hj hr
      · intro hf x hx
        rcases k5 (fun o h => hf o (by simp [h])) x hx with h | ⟨a, h, h'⟩
        · rcases h6 (hf o (by simp)) x h with h | ⟨a, h, h'⟩
          · exact Or.inl h
          · exact Or.inr ⟨a, by simp [h], h'⟩
        · exact Or.inr ⟨a, by simp [h], h'⟩
      · intro hf h0
        exact k6 (fun o h => hf o (by simp [h])) (h7 (hf o (by simp)) h0)
      · intro hf
        rw [List.foldl_cons] at hf
        cases hp : v1.pending.isEmpty with
        | true =>
          rw [hp] at k8
          exact k8 (foldl_mono os _ _ (fun _ => rfl) hf)
        | false =>
          rw [hp] at k8
          refine k8 ?_
          have : (if o.isGrow then false else if o.isFinish then true else v.pending.isEmpty) = false := by
            cases hg : o.isGrow <;> cases hfi : o.isFinish <;> simp
            · intro hv
              rw [h8 hg hv] at hp; simp at hp
            · rw [h9 hfi] at hp; simp at hp
          rw [this] at hf
          exact hf
    · rw [h1] at hr
      simp [Res.bind] at hr

/-- Without `str_pool_iterate` no history of permitted calls fails. -/
theorem run_progress (ok0 : h0.Ok) (hist : List Spec.PoolOp) :
    ∀ {p : Pool} {v : StrView} {M : List (List Byte × Nat)}, PInv h0 hh0 p v M 0 → (∀ o ∈ hist, o.Permitted) →
    (∀ o ∈ hist, o.isIterate = false) → ∃ p' outs, Spec.run step p hist = .ok (p', outs) := by
  induction hist with
  | nil => intro p v M i _ _; exact ⟨p, [], rfl⟩
  | cons o os ih =>
    intro p v M i ho hi
    rcases step_ok ok0 i o (ho o (by simp)) with ⟨p1, r1, v1, M1, ro1, h1, h2, h3, h4, h5, -, h6, h7, h8, h9⟩ | ⟨h, -⟩
    · rw [h7 (hi o (by simp)) rfl] at h2
      obtain ⟨p', outs, h10⟩ := ih h2 (fun o h => ho o (by simp [h])) (fun o h => hi o (by simp [h]))
      exact ⟨p', r1 :: outs, by simp [Spec.run, h1, Res.bind, h10]⟩
    · exact absurd rfl h

theorem create_ok (h0 : Mem) (ok0 : h0.Ok) (hh0 : Heap (Entry SKey Ptr)) (okh : hh0.Ok) :
    ∃ p, create h0 hh0 = .ok p ∧ PInv h0 hh0 p {} [] 0 := by
  obtain ⟨ht, h1, h2⟩ := HashHeap.heap_history (ops_lawful h0) hh0 okh []
  simp only [Spec.run, Spec.ResRel] at h2
  exact ⟨Pool.mk h0 StrMem.create hh0 ht, by simp only [create, h1, Res.bind],
    ⟨StrMem.create_inv h0 ok0, ⟨{}, h2.2, rfl, rfl⟩, by simp⟩⟩

/-- destroying a pool that is not locked gives the memories back as they were -/
theorem PInv.destroy_ok (i : PInv h0 hh0 p v M 0) (ok0 : h0.Ok) (okh : hh0.Ok) :
    ∃ m c, destroy p = .ok (m, c) ∧ m.mem = h0.mem ∧ c.mem = hh0.mem ∧ m.Ok ∧ c.Ok := by
  obtain ⟨m, h1, h2, h3⟩ := Objects.destroyLoop_ok p.str.allocated i.str.anodup i.str.live
  obtain ⟨ms, ⟨t, A, r, sim, ow⟩, hm, hr⟩ := i.sim
  obtain ⟨c, h4, h5, h6⟩ := HashHeap.destroy_ok r ow (by rw [r.ro, sim.ro, hr])
  simp only at h4 h1
  refine ⟨m, c, by simp only [destroy, StrMem.destroy, h1, h4, Res.bind], ?_, h5, ?_, h6⟩
  rotate_left
  · refine i.str.ok.of h2.2 (by rw [h2.1]) fun a ha => ?_
    rw [h3 a] at ha
    split at ha
    · simp at ha
    · exact ha
  funext a
  rw [h3 a]
  split
  · rename_i ha
    exact (i.str.above a ha).symm
  · rename_i ha
    cases h0a : h0.mem a with
    | some c => rw [← h0a]; exact i.str.old a (by rw [h0a]; rfl)
    | none =>
      cases hmm : p.mem.mem a with
      | none => rfl
      | some c => exact absurd (i.str.new a h0a (by rw [hmm]; rfl)) ha

/-- `str_pool_find` of any string in an unlocked pool -/
theorem PInv.find_any (i : PInv h0 hh0 p v M 0) (ok0 : h0.Ok) {s t : List Byte}
    (hs : cstr s = .ok t) :
    ∃ p' d v' M', find p s = .ok (p', d) ∧ PInv h0 hh0 p' v' M' 0 ∧ (t, d) ∈ M' ∧ (∀ x ∈ M, x ∈ M') ∧
      (∀ x ∈ M', x ∈ M ∨ x = (t, d)) ∧ d ≠ 0 := by
  cases hl : lookup M t with
  | some d =>
    obtain ⟨p', h1, h2, -⟩ := i.find_old ok0 hs hl
    exact ⟨p', d, v, M, h1, h2, lookup_some hl, fun _ h => h, fun _ h => Or.inl h, i.nonnull ok0 (lookup_some hl)⟩
  | none =>
    obtain ⟨p', d, h1, h2, h3, -⟩ := (i.find_new hs hl).2 rfl
    exact ⟨p', d, _, _, h1, h2, by simp, fun _ h => by simp [h], fun x h => (List.mem_cons.1 h).symm, h3⟩

theorem PInv.entries (i : PInv h0 hh0 p v M ro) : p.tab.entries = M.length := by
  obtain ⟨ms, ⟨t, A, r, sim, ow⟩, hm, hr⟩ := i.sim
  have h1 := r.entries
  simp only at h1
  rw [h1, sim.rep.inv.count]
  have h2 := sim.rep.perm.length_eq
  simpa [Tab.pairsOf, hm, tabMap] using h2

/-- a string interned is in memory -/
theorem PInv.stringAt (i : PInv h0 hh0 p v M ro) {x : List Byte × Nat} (hx : x ∈ M) :
    Spec.StringAt p.mem.mem x.2 x.1 := by
  obtain ⟨b, h1, h2⟩ := i.known x hx
  obtain ⟨h3, rest, h4⟩ := CStr.cstr_ok h2
  exact ⟨rest, by rw [← h4]; exact (i.str.strs _ h1).1, h3⟩

/-- one string, one pointer -/
theorem PInv.unique (i : PInv h0 hh0 p v M ro) {t t' : List Byte} {d d' : Nat} (h : (t, d) ∈ M) (h' : (t', d') ∈ M) :
    d = d' ↔ t = t' := by
  constructor
  · rintro rfl
    exact (i.content h).1.symm.trans (i.content h').1
  · rintro rfl
    have h1 := lookup_of i.distinct h
    rw [lookup_of i.distinct h'] at h1
    exact (Option.some.inj h1).symm

end

/-! ## the global pool -/

/-- The number written by decimal digits. -/
def ofDigits (l : List Byte) : Nat := l.foldl (fun a b => a * 10 + (b.toNat - 48)) 0

theorem ofDigits_decimal (n : Nat) : ofDigits (Spec.decimal n) = n := by
  induction n using Nat.strongRecOn with
  | _ n ih =>
    rw [Spec.decimal_eq]
    split
    · simp only [ofDigits, List.foldl_cons, List.foldl_nil, UInt8.toNat_ofNat']
      omega
    · have h := ih (n / 10) (by omega)
      unfold ofDigits at h ⊢
      rw [List.foldl_append, h]
      simp only [List.foldl_cons, List.foldl_nil, UInt8.toNat_ofNat']
      omega

theorem decimal_inj {m n : Nat} (h : Spec.decimal m = Spec.decimal n) : m = n := by
  rw [← ofDigits_decimal m, h, ofDigits_decimal]

theorem decimal_noNul (n : Nat) : (0 : Byte) ∉ Spec.decimal n := by
  induction n using Nat.strongRecOn with
  | _ n ih =>
    rw [Spec.decimal_eq]
    have hd : ∀ m, m < 10 → (0 : Byte) ≠ UInt8.ofNat (48 + m) := by
      intro m hm h
      have := congrArg UInt8.toNat h
      simp only [UInt8.toNat_ofNat', UInt8.toNat_ofNat] at this
      omega
    split
    · simpa using hd n (by omega)
    · simp only [List.mem_append, List.mem_singleton, not_or]
      exact ⟨ih _ (by omega), hd _ (by omega)⟩

/-- The pool the global functions work on. -/
def Global.asPool (g : Global) (i : SInfo) (t : HTab) : Pool := { mem := g.mem, str := i, cells := g.cells, tab := t }

/-- Everything known about the global pool when the strings `M` are interned. -/
def GInv (g : Global) (M : List (List Byte × Nat)) : Prop :=
  match g.pool with
  | none => (g.mem.Ok ∧ ∀ a, g.mem.mem a = none) ∧ g.cells.Ok ∧ (∀ a, g.cells.mem a = none) ∧ M = []
  | some (i, t) => ∃ h0 hh0 v, (h0.Ok ∧ ∀ a, h0.mem a = none) ∧ hh0.Ok ∧ (∀ a, hh0.mem a = none) ∧ PInv h0 hh0 (g.asPool i t) v M 0

theorem GInv.init {p1 p2 : Policy} (h1 : Heap.Allocator p1) (h2 : Heap.Allocator p2) : GInv (Global.init p1 p2) [] :=
  ⟨⟨Heap.Ok.init h1, fun _ => rfl⟩, Heap.Ok.init h2, fun _ => rfl, rfl⟩

/-- put a pool back into the global state -/
def Global.put (g : Global) (p : Pool) : Global :=
  { g with mem := p.mem, cells := p.cells, pool := some (p.str, p.tab) }

theorem withGlobal_ok {α : Type} {g : Global} {i : SInfo} {t : HTab} (hp : g.pool = some (i, t)) {f : Pool → Res (Pool × α)}
    {p' : Pool} {a : α} (h : f (g.asPool i t) = .ok (p', a)) : withGlobal g f = .ok (g.put p', a) := by
  have h' : f { mem := g.mem, str := i, cells := g.cells, tab := t } = .ok (p', a) := h
  unfold withGlobal
  rw [hp]
  simp only [h', Res.bind, Global.put]

theorem GInv.checkGlobal {g : Global} {M : List (List Byte × Nat)} (h : GInv g M) :
    ∃ g', checkGlobal g = .ok g' ∧ GInv g' M ∧ g'.pool.isSome ∧ g'.counter = g.counter ∧ g'.mem = g.mem := by
  unfold StrPool.checkGlobal
  cases hp : g.pool with
  | some q => exact ⟨g, by simp, h, by rw [hp]; rfl, rfl, rfl⟩
  | none =>
    unfold GInv at h
    rw [hp] at h
    obtain ⟨h1, h2, h3, h4⟩ := h
    obtain ⟨ht, e1, e2⟩ := HashHeap.heap_history (ops_lawful g.mem) g.cells h2 []
    simp only [Spec.run, Spec.ResRel] at e2
    refine ⟨{ g with pool := some (StrMem.create, ht) }, by simp only [create, e1, Res.bind], ?_, rfl, rfl, rfl⟩
    subst h4
    exact ⟨g.mem, g.cells, {}, h1, h2, h3, ⟨StrMem.create_inv _ h1.1, ⟨{}, e2.2, rfl, rfl⟩, by simp⟩⟩

theorem GInv.find {g : Global} {M : List (List Byte × Nat)} (h : GInv g M) (hs : g.pool.isSome) {s t : List Byte}
    (hc : cstr s = .ok t) :
    ∃ g' d M', withGlobal g (fun p => StrPool.find p s) = .ok (g', d) ∧ GInv g' M' ∧ g'.pool.isSome ∧ (t, d) ∈ M' ∧
      (∀ x ∈ M, x ∈ M') ∧ (∀ x ∈ M', x ∈ M ∨ x = (t, d)) ∧ Spec.StringAt g'.mem.mem d t ∧ d ≠ 0 ∧
      g'.counter = g.counter := by
  obtain ⟨⟨i, tb⟩, hp⟩ := Option.isSome_iff_exists.1 hs
  unfold GInv at h
  rw [hp] at h
  obtain ⟨h0, hh0, v, h1, h2, h3, h4⟩ := h
  obtain ⟨p', d, v', M', e1, e2, e3, e4, e5, e6⟩ := h4.find_any h1.1 hc
  exact ⟨_, d, M', withGlobal_ok hp e1, ⟨h0, hh0, v', h1, h2, h3, e2⟩, rfl, e3, e4, e5, e2.stringAt e3, e6, rfl⟩

theorem GInv.exists_ {g : Global} {M : List (List Byte × Nat)} (h : GInv g M) (hs : g.pool.isSome) {s t : List Byte}
    (hc : cstr s = .ok t) :
    ∃ g', strExists g s = .ok (g', if (lookup M t).isSome then 1 else 0) ∧ GInv g' M ∧ g'.pool.isSome ∧
      g'.counter = g.counter := by
  obtain ⟨⟨i, tb⟩, hp⟩ := Option.isSome_iff_exists.1 hs
  unfold GInv at h
  rw [hp] at h
  obtain ⟨h0, hh0, v, h1, h2, h3, h4⟩ := h
  obtain ⟨p', e1, e2, -⟩ := h4.exists_ok h1.1 hc
  exact ⟨_, withGlobal_ok hp e1, ⟨h0, hh0, v, h1, h2, h3, e2⟩, rfl, rfl⟩

theorem GInv.counter {g : Global} {M : List (List Byte × Nat)} (h : GInv g M) (k : Nat) :
    GInv { g with counter := k } M := h

theorem GInv.entries {g : Global} {M : List (List Byte × Nat)} (h : GInv g M) {q : SInfo × HTab} (hp : g.pool = some q) :
    q.2.entries = M.length := by
  unfold GInv at h
  rw [hp] at h
  obtain ⟨h0, hh0, v, h1, h2, h3, h4⟩ := h
  exact h4.entries

theorem GInv.distinct {g : Global} {M : List (List Byte × Nat)} (h : GInv g M) : M.Pairwise (fun a b => a.1 ≠ b.1) := by
  unfold GInv at h
  split at h
  · simp [h.2.2.2]
  · obtain ⟨h0, hh0, v, h1, h2, h3, h4⟩ := h
    exact h4.distinct

theorem uniqueLoop_ok {M : List (List Byte × Nat)} {pre : List Byte} (hpre : (0 : Byte) ∉ pre) (n : Nat) :
    ∀ {g : Global}, GInv g M → g.pool.isSome →
    (∃ g' k, uniqueLoop pre n g = .ok (g', pre ++ Spec.decimal k) ∧ GInv g' M ∧ g'.pool.isSome ∧
      lookup M (pre ++ Spec.decimal k) = none ∧ g.counter ≤ k ∧ g'.counter = k + 1 ∧
      ∀ j, g.counter ≤ j → j < k → (lookup M (pre ++ Spec.decimal j)).isSome) ∨
    (∀ i < n, (lookup M (pre ++ Spec.decimal (g.counter + i))).isSome) := by
  induction n with
  | zero => intro g _ _; exact Or.inr (by omega)
  | succ n ih =>
    intro g hg hs
    have hno : (0 : Byte) ∉ pre ++ Spec.decimal g.counter := by
      simp only [List.mem_append, not_or]; exact ⟨hpre, decimal_noNul _⟩
    obtain ⟨g1, h1, h2, h3, h4⟩ := (hg.counter (g.counter + 1)).exists_ hs (CStr.cstr_ofStr _ hno)
    unfold uniqueLoop
    simp only
    unfold CStr.ofStr at h1
    rw [h1]
    simp only [Res.bind]
    cases hl : lookup M (pre ++ Spec.decimal g.counter) with
    | none =>
      simp only [Option.isSome_none, Bool.false_eq_true, if_false, ne_eq, not_true_eq_false]
      exact Or.inl ⟨g1, g.counter, rfl, h2, h3, hl, Nat.le_refl _, h4, fun j h1 h2 => absurd h2 (Nat.not_lt.2 h1)⟩
    | some d =>
      simp only [Option.isSome_some, if_true, ne_eq]
      rw [if_pos (by decide)]
      rcases ih h2 h3 with ⟨g', k, e1, e2, e3, e4, e5, e6, e7⟩ | hall
      · refine Or.inl ⟨g', k, e1, e2, e3, e4, by rw [h4] at e5; simp only at e5; omega, e6, fun j hj1 hj2 => ?_⟩
        by_cases hj : j = g.counter
        · rw [hj, hl]; rfl
        · exact e7 j (by rw [h4]; simp only; omega) hj2
      · refine Or.inr ?_
        intro i hi
        cases i with
        | zero => simp [hl]
        | succ i =>
          have := hall i (by omega)
          rw [h4] at this
          simp only at this
          rw [Nat.add_assoc, Nat.add_comm 1 i] at this
          exact this

/-- not all candidates can be taken -/
theorem candidates {M : List (List Byte × Nat)} (pre : List Byte) (c : Nat) :
    ¬ ∀ i < M.length + 1, (lookup M (pre ++ Spec.decimal (c + i))).isSome := by
  intro hall
  have hnd : ((List.range (M.length + 1)).map fun i => pre ++ Spec.decimal (c + i)).Nodup := by
    refine List.Nodup.map_on ?_ List.nodup_range
    intro x _ y _ h
    have := decimal_inj (List.append_cancel_left h)
    omega
  have hsub : ((List.range (M.length + 1)).map fun i => pre ++ Spec.decimal (c + i)) ⊆ M.map Prod.fst := by
    intro s hs
    obtain ⟨i, hi, rfl⟩ := List.mem_map.1 hs
    obtain ⟨d, hd⟩ := Option.isSome_iff_exists.1 (hall i (List.mem_range.1 hi))
    exact List.mem_map.2 ⟨_, lookup_some hd, rfl⟩
  have := (hnd.subperm hsub).length_le
  simp at this

theorem GInv.unique {g : Global} {M : List (List Byte × Nat)} (h : GInv g M) (hs : g.pool.isSome) {s pre : List Byte}
    (hc : cstr s = .ok pre) :
    ∃ g' d M' k, strUnique g s = .ok (g', d) ∧ GInv g' M' ∧ g'.pool.isSome ∧
      (pre ++ Spec.decimal k, d) ∈ M' ∧ (∀ x ∈ M, x ∈ M') ∧ lookup M (pre ++ Spec.decimal k) = none ∧
      Spec.StringAt g'.mem.mem d (pre ++ Spec.decimal k) ∧ d ≠ 0 ∧ g.counter ≤ k ∧ g'.counter = k + 1 ∧
      (∀ x ∈ M', x ∈ M ∨ x.1 = pre ++ Spec.decimal k) ∧ ∀ j, g.counter ≤ j → j < k → (lookup M (pre ++ Spec.decimal j)).isSome := by
  have hpre := (CStr.cstr_ok hc).1
  obtain ⟨q, hp⟩ := Option.isSome_iff_exists.1 hs
  unfold strUnique
  rw [hc]
  simp only [Res.bind, hp]
  rw [h.entries hp]
  rcases uniqueLoop_ok hpre (M.length + 1) h hs with ⟨g1, k, e1, e2, e3, e4, e5, e6, e7⟩ | hall
  · rw [e1]
    simp only
    have hno : (0 : Byte) ∉ pre ++ Spec.decimal k := by
      simp only [List.mem_append, not_or]; exact ⟨hpre, decimal_noNul _⟩
    obtain ⟨g2, f1, f2, f3, f4, -⟩ := e2.checkGlobal
    obtain ⟨g3, d, M', k1, k2, k3, k4, k5, k6, k7, k8, k9⟩ := f2.find f3 (CStr.cstr_ofStr _ hno)
    unfold CStr.ofStr at k1
    refine ⟨g3, d, M', k, ?_, k2, k3, k4, k5, e4, k7, k8, e5, by omega, fun x hx => (k6 x hx).imp id (fun h => by rw [h]), e7⟩
    simp only [strFind, f1, Res.bind]
    exact k1
  · exact absurd hall (candidates pre g.counter)

/-- a call to the string memory of the pool -/
theorem GInv.strStep {g : Global} {M : List (List Byte × Nat)} (h : GInv g M) (hs : g.pool.isSome) {o : Spec.PoolOp}
    (ho : o.Permitted) (hi : o.isIterate = false) :
    ∃ g' r M', withGlobal g (fun p => step p o) = .ok (g', r) ∧ GInv g' M' ∧ (∀ x ∈ M, x ∈ M') ∧ g'.pool.isSome ∧
      g'.counter = g.counter ∧ ∃ t, ∀ x ∈ M', x ∈ M ∨ x.1 = t := by
  obtain ⟨⟨i, tb⟩, hp⟩ := Option.isSome_iff_exists.1 hs
  unfold GInv at h
  rw [hp] at h
  obtain ⟨h0, hh0, v, h1, h2, h3, h4⟩ := h
  cases hf : o.isFinish with
  | false =>
    rcases step_ok h1.1 h4 o ho with ⟨p', r, v', M', ro', e1, e2, e3, e4, -, -, e6, e5, -⟩ | ⟨h, -⟩
    · rw [e5 hi rfl] at e2
      refine ⟨_, r, M', withGlobal_ok hp e1, ⟨h0, hh0, v', h1, h2, h3, e2⟩, e3, rfl, rfl, ?_⟩
      by_cases hx : ∃ a, o = .find a
      · obtain ⟨a, rfl⟩ := hx
        obtain ⟨t, ht⟩ := cstr_of_mem ho
        refine ⟨t, fun x hx => (e6 hf x hx).imp id ?_⟩
        rintro ⟨b, hb, hc⟩
        simp only [Spec.PoolOp.find.injEq] at hb
        rw [← hb, ht] at hc
        exact (Res.ok.inj hc).symm
      · exact ⟨[], fun x hm => (e6 hf x hm).imp id fun ⟨a, ha, _⟩ => absurd ⟨a, ha⟩ hx⟩
    · exact absurd rfl h
  | true =>
    cases o <;> simp [Spec.PoolOp.isFinish] at hf
    obtain ⟨c, -, -, hfin⟩ := h4.finish_ok
    obtain ⟨p', d, e1, e2, -⟩ := hfin rfl
    refine ⟨_, .ptr d, _, withGlobal_ok hp (by simp only [step, e1, Res.bind]), ⟨h0, hh0, _, h1, h2, h3, e2⟩, ?_, rfl, rfl, c, ?_⟩
    · intro x hx
      split
      · exact hx
      · exact List.mem_cons_of_mem _ hx
    · intro x hx
      split at hx
      · exact Or.inl hx
      · rcases List.mem_cons.1 hx with rfl | h
        · exact Or.inr rfl
        · exact Or.inl h

theorem GInv.destroy {g : Global} {M : List (List Byte × Nat)} (h : GInv g M) :
    ∃ g', strDestroy g = .ok g' ∧ GInv g' [] ∧ g'.pool = none ∧ g'.counter = g.counter := by
  unfold strDestroy
  cases hp : g.pool with
  | none =>
    refine ⟨g, rfl, ?_, hp, rfl⟩
    unfold GInv at h ⊢
    rw [hp] at h ⊢
    exact ⟨h.1, h.2.1, h.2.2.1, rfl⟩
  | some q =>
    obtain ⟨i, tb⟩ := q
    unfold GInv at h
    rw [hp] at h
    obtain ⟨h0, hh0, v, h1, h2, h3, h4⟩ := h
    obtain ⟨m, c, e1, e2, e3, e4, e5⟩ := h4.destroy_ok h1.1 h2
    simp only [Global.asPool] at e1
    refine ⟨Global.mk m c none g.counter, by simp only [e1, Res.bind], ?_, rfl, rfl⟩
    exact ⟨⟨e4, fun a => by rw [e2]; exact h1.2 a⟩, e5, fun a => by rw [e3]; exact h3 a, rfl⟩

/-- Calls that need the pool to exist already. -/
def needsPool : Spec.GlobalOp → Bool
  | .exists_ _ => true
  | .copyn _ _ => true
  | .unique _ => true
  | _ => false

theorem strncpyTmp_ok {s : List Byte} {n : Nat} (h : 0 ∈ s ∨ n ≤ s.length) :
    strncpyTmp s n = .ok ((s.take n).takeWhile (· ≠ 0)) := by
  unfold strncpyTmp
  rw [if_neg]
  rintro ⟨h1, h2⟩
  rcases h with h | h
  · exact h2 h
  · omega

theorem withGlobal_bind {α β : Type} (g : Global) (f : Pool → Res (Pool × α)) (k : α → β) :
    (withGlobal g f).bind (fun r => .ok (r.1, k r.2)) = withGlobal g (fun p => (f p).bind fun r => .ok (r.1, k r.2)) := by
  unfold withGlobal
  split
  · rfl
  · simp only
    cases f _ <;> rfl

/-- How much a call adds to the interned strings `M` and to the counter. -/
structure Grows (g g' : Global) (M M' : List (List Byte × Nat)) (o : Spec.GlobalOp) : Prop where
  le : g.counter ≤ g'.counter
  one : ∃ t, ∀ x ∈ M', x ∈ M ∨ x.1 = t
  skipped : ∃ pre, ∀ j, g.counter ≤ j → j + 1 < g'.counter → (lookup M (pre ++ Spec.decimal j)).isSome
  same : (∀ s, o ≠ .unique s) → g'.counter = g.counter

theorem Grows.mk' {g g' : Global} {M M' : List (List Byte × Nat)} {o : Spec.GlobalOp} (h : g'.counter = g.counter)
    (one : ∃ t, ∀ x ∈ M', x ∈ M ∨ x.1 = t) : Grows g g' M M' o :=
  ⟨by omega, one, ⟨[], fun j h1 h2 => by omega⟩, fun _ => h⟩

/-- What a call with permitted arguments on the global pool does. -/
theorem gstep_full {g : Global} {M : List (List Byte × Nat)} (h : GInv g M) (o : Spec.GlobalOp) (ho : o.Permitted) :
    (∃ g' r M', gstep g o = .ok (g', r) ∧ GInv g' M' ∧ Grows g g' M M' o ∧
      (o ≠ .destroy → (∀ x ∈ M, x ∈ M') ∧ g'.pool.isSome)) ∨ (g.pool = none ∧ needsPool o = true ∧ gstep g o = .ub) := by
  have conv : ∀ (o' : Spec.PoolOp) (g1 : Global), GInv g1 M → g1.pool.isSome → o'.Permitted → o'.isIterate = false →
      ∃ g' r M', withGlobal g1 (fun p => step p o') = .ok (g', r) ∧ GInv g' M' ∧
        (g'.counter = g1.counter ∧ ∃ t, ∀ x ∈ M', x ∈ M ∨ x.1 = t) ∧ (∀ x ∈ M, x ∈ M') ∧ g'.pool.isSome := by
    intro o' g1 a1 a2 a3 a4
    obtain ⟨g', r, M', b1, b2, b4, b5, b3, b6⟩ := a1.strStep a2 a3 a4
    exact ⟨g', r, M', b1, b2, ⟨b3, b6⟩, b4, b5⟩
  obtain ⟨g1, c1, c2, c3, c4, -⟩ := h.checkGlobal
  cases o with
  | exists_ s =>
    cases hp : g.pool with
    | none => exact Or.inr ⟨rfl, rfl, by simp only [gstep, strExists, withGlobal, hp, Res.bind]⟩
    | some q =>
      obtain ⟨t, hs⟩ := cstr_of_mem ho
      obtain ⟨g', e1, e2, e4, e3⟩ := h.exists_ (by rw [hp]; rfl) hs
      exact Or.inl ⟨g', .int (if (lookup M t).isSome then 1 else 0), M, by simp only [gstep, e1, Res.bind], e2, Grows.mk' e3 ⟨[], fun _ hx => Or.inl hx⟩, fun _ => ⟨fun _ hx => hx, e4⟩⟩
  | find s =>
    obtain ⟨g', r, M', e1, e2, e3, e4, e5⟩ := conv (.find s) g1 c2 c3 ho rfl
    refine Or.inl ⟨g', r, M', ?_, e2, Grows.mk' (by omega) e3.2, fun _ => ⟨e4, e5⟩⟩
    simp only [gstep, strFind, c1, Res.bind]
    rw [← e1]
    exact withGlobal_bind g1 (fun p => find p s) Spec.Ret.ptr
  | findn s n =>
    obtain ⟨g', r, M', e1, e2, e3, e4, e5⟩ := conv (.find ((s.take n).takeWhile (· ≠ 0) ++ [0])) g1 c2 c3
      (by simp [Spec.PoolOp.Permitted]) rfl
    refine Or.inl ⟨g', r, M', ?_, e2, Grows.mk' (by omega) e3.2, fun _ => ⟨e4, e5⟩⟩
    simp only [gstep, strFindn, c1, Res.bind, strncpyTmp_ok ho]
    rw [← e1]
    exact withGlobal_bind g1 (fun p => find p _) Spec.Ret.ptr
  | copy s =>
    obtain ⟨g', r, M', e1, e2, e3, e4, e5⟩ := conv (.copy s) g1 c2 c3 ho rfl
    refine Or.inl ⟨g', r, M', ?_, e2, Grows.mk' (by omega) e3.2, fun _ => ⟨e4, e5⟩⟩
    simp only [gstep, strCopy, c1, Res.bind]
    rw [← e1]
    exact withGlobal_bind g1 (fun p => copy p s) Spec.Ret.ptr
  | copyn s n =>
    cases hp : g.pool with
    | none => exact Or.inr ⟨rfl, rfl, by simp only [gstep, strCopyn, withGlobal, hp, Res.bind]⟩
    | some q =>
      obtain ⟨g', r, M', e1, e2, e3, e4, e5⟩ := conv (.copyn s n) g h (by rw [hp]; rfl) ho rfl
      refine Or.inl ⟨g', r, M', ?_, e2, Grows.mk' (by omega) e3.2, fun _ => ⟨e4, e5⟩⟩
      simp only [gstep, strCopyn]
      rw [← e1]
      exact withGlobal_bind g (fun p => copyn p s n) Spec.Ret.ptr
  | grow s n =>
    obtain ⟨g', r, M', e1, e2, e3, e4, e5⟩ := conv (.grow s n) g1 c2 c3 ho rfl
    refine Or.inl ⟨g', r, M', ?_, e2, Grows.mk' (by omega) e3.2, fun _ => ⟨e4, e5⟩⟩
    simp only [gstep, strGrow, c1, Res.bind]
    rw [← e1]
    refine Eq.trans (withGlobal_bind g1 (fun p => (grow p s n).bind fun p' => .ok (p', ())) (fun _ => Spec.Ret.int 0)) ?_
    unfold withGlobal
    split
    · rfl
    · simp only [step]
      cases grow _ s n <;> rfl
  | finish =>
    obtain ⟨g', r, M', e1, e2, e3, e4, e5⟩ := conv .finish g1 c2 c3 trivial rfl
    refine Or.inl ⟨g', r, M', ?_, e2, Grows.mk' (by omega) e3.2, fun _ => ⟨e4, e5⟩⟩
    simp only [gstep, strFinish, c1, Res.bind]
    rw [← e1]
    exact withGlobal_bind g1 (fun p => finish p) Spec.Ret.ptr
  | unique s =>
    obtain ⟨t, hs⟩ := cstr_of_mem ho
    cases hp : g.pool with
    | none =>
      exact Or.inr ⟨rfl, rfl, by simp only [gstep, strUnique, hs, uniqueLoop, strExists, withGlobal, hp, Res.bind]⟩
    | some q =>
      obtain ⟨g', d, M', k, e1, e2, e5, -, e6, -, -, -, e3, e4, e7, e8⟩ := h.unique (by rw [hp]; rfl) hs
      exact Or.inl ⟨g', .ptr d, M', by simp only [gstep, e1, Res.bind], e2,
        ⟨by omega, ⟨_, e7⟩, ⟨t, fun j h1 h2 => e8 j h1 (by omega)⟩, fun hn => absurd rfl (hn s)⟩, fun _ => ⟨e6, e5⟩⟩
  | destroy =>
    obtain ⟨g', e1, e2, -, e3⟩ := h.destroy
    exact Or.inl ⟨g', .int 0, [], by simp only [gstep, e1, Res.bind], e2, Grows.mk' e3 ⟨[], by simp⟩, fun h => absurd rfl h⟩

theorem gstep_ok {g : Global} {M : List (List Byte × Nat)} (h : GInv g M) (o : Spec.GlobalOp) (ho : o.Permitted) :
    (∃ g' r M', gstep g o = .ok (g', r) ∧ GInv g' M' ∧ g.counter ≤ g'.counter) ∨ (g.pool = none ∧ needsPool o = true ∧ gstep g o = .ub) := by
  rcases gstep_full h o ho with ⟨g', r, M', e1, e2, e3, -⟩ | e
  · exact Or.inl ⟨g', r, M', e1, e2, e3.le⟩
  · exact Or.inr e

end Maa.StrPool
