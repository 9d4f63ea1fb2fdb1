import Verif.Lemmas.StrPool

/-! # Properties C26 to C29 and C54: string pools, maa/string.c

`h0` and `hh0` are the memory for strings and for table cells when the pool is created; `hh0` is empty
(no other table lives there).  `Reaches` is: a new pool, then this history of permitted calls with these
results.  `GReach` is: any sequence of permitted calls on the global pool since the program started. -/

namespace Maa.StrPool

open Spec (PoolOp GlobalOp StringAt upToNul)
open CStr (cstr)
open StrMem (Mem SInfo)
open HashHeap (HTab)
open Tab (Entry)

/-- Some permitted calls on a new pool lead to `p`. -/
def Reaches (h0 : Mem) (hh0 : Heap (Entry SKey Ptr)) (hist : List PoolOp) (p : Pool) (outs : List Spec.Ret) : Prop :=
  ∃ p0, create h0 hh0 = .ok p0 ∧ (∀ o ∈ hist, o.Permitted) ∧ Spec.run step p0 hist = .ok (p, outs)

/-- The initial memories are sound. -/
structure Start (h0 : Mem) (hh0 : Heap (Entry SKey Ptr)) : Prop where
  strings : h0.Ok
  cells : hh0.Ok

variable {h0 : Mem} {hh0 : Heap (Entry SKey Ptr)}

theorem Reaches.inv (st : Start h0 hh0) {hist : List PoolOp} {p : Pool} {outs : List Spec.Ret}
    (r : Reaches h0 hh0 hist p outs) :
    ∃ v M ro, PInv h0 hh0 p v M ro ∧
      (∀ (j : Nat) (a : List Byte) (x : Spec.Ret), hist[j]? = some (PoolOp.find a) → outs[j]? = some x →
        ∃ t d, cstr a = .ok t ∧ x = Spec.Ret.ptr d ∧ (t, d) ∈ M) ∧
      ((∀ o ∈ hist, o.isFinish = false) → ∀ x ∈ M, ∃ a, PoolOp.find a ∈ hist ∧ cstr a = .ok x.1) ∧
      ((∀ o ∈ hist, o.isIterate = false) → ro = 0) ∧ outs.length = hist.length ∧
      (Spec.allFinished hist = true → v.pending = []) := by
  obtain ⟨p0, h1, h2, h3⟩ := r
  obtain ⟨p0', h4, i⟩ := create_ok h0 st.strings hh0 st.cells
  rw [h1] at h4
  cases h4
  obtain ⟨v, M, ro, k1, -, -, k2, k3, k4, k5, k6⟩ := run_ok st.strings hist i h2 h3
  refine ⟨v, M, ro, k1, k2, fun h x hx => ?_, fun h => k4 h rfl, k5, k6⟩
  rcases k3 h x hx with h | h
  · simp at h
  · exact h

theorem Reaches.append {hist hist' : List PoolOp} {p p' : Pool} {outs outs' : List Spec.Ret}
    (r : Reaches h0 hh0 hist p outs) (perm : ∀ o ∈ hist', o.Permitted) (h : Spec.run step p hist' = .ok (p', outs')) :
    Reaches h0 hh0 (hist ++ hist') p' (outs ++ outs') := by
  obtain ⟨p0, h1, h2, h3⟩ := r
  refine ⟨p0, h1, ?_, ?_⟩
  · intro o ho
    rcases List.mem_append.1 ho with h | h
    · exact h2 o h
    · exact perm o h
  · rw [Spec.run_append, h3]
    simp only [Res.bind, h]

theorem upToNul_eq {a t : List Byte} (h : cstr a = .ok t) : upToNul a = some t := StrMem.upToNul_of h

/-- C26: in any history, two `str_pool_find` calls return the same pointer exactly when their arguments are
equal strings; the pointer is not NULL and at the end of the history still points to that string. -/
theorem C26_interns (st : Start h0 hh0) (hist : List PoolOp) (p : Pool) (outs : List Spec.Ret)
    (r : Reaches h0 hh0 hist p outs) (i j : Nat) (a b : List Byte) (hi : hist[i]? = some (.find a))
    (hj : hist[j]? = some (.find b)) :
    ∃ x y s, outs[i]? = some (.ptr x) ∧ outs[j]? = some (.ptr y) ∧ (x = y ↔ upToNul a = upToNul b) ∧ x ≠ 0 ∧
      upToNul a = some s ∧ StringAt p.mem.mem x s := by
  obtain ⟨v, M, ro, k1, k2, -, -, k3, -⟩ := r.inv st
  have hlt : ∀ (i : Nat) (a : List Byte), hist[i]? = some (.find a) → ∃ x, outs[i]? = some x := by
    intro i a h
    have : i < hist.length := by
      by_contra hc
      rw [List.getElem?_eq_none (by omega)] at h; simp at h
    exact ⟨outs[i]'(by omega), List.getElem?_eq_getElem (by omega)⟩
  obtain ⟨x, hx⟩ := hlt i a hi
  obtain ⟨y, hy⟩ := hlt j b hj
  obtain ⟨t, d, e1, rfl, e3⟩ := k2 i a x hi hx
  obtain ⟨t', d', f1, rfl, f3⟩ := k2 j b y hj hy
  refine ⟨d, d', t, hx, hy, ?_, k1.nonnull st.strings e3, upToNul_eq e1, k1.stringAt e3⟩
  rw [k1.unique e3 f3, upToNul_eq e1, upToNul_eq f1, Option.some.injEq]

/-- C26, no failure: permitted calls other than `str_pool_iterate` always return (see C28). -/
theorem C26_no_failure (st : Start h0 hh0) (hist : List PoolOp) (perm : ∀ o ∈ hist, o.Permitted)
    (no_iterate : ∀ o ∈ hist, o.isIterate = false) : ∃ p outs, Reaches h0 hh0 hist p outs := by
  obtain ⟨p0, h1, i⟩ := create_ok h0 st.strings hh0 st.cells
  obtain ⟨p, outs, h2⟩ := run_progress st.strings hist i perm no_iterate
  exact ⟨p, outs, p0, h1, perm, h2⟩

/-- C26, `str_pool_exists` tells whether an equal string was given to `str_pool_find` before (when nothing was
added with `str_pool_finish`), and changes no string. -/
theorem C26_exists (st : Start h0 hh0) (hist : List PoolOp) (p : Pool) (outs : List Spec.Ret)
    (r : Reaches h0 hh0 hist p outs) (no_finish : ∀ o ∈ hist, o.isFinish = false) (a : List Byte) (ha : 0 ∈ a) :
    ∃ p' n, exists_ p a = .ok (p', n) ∧ p'.mem = p.mem ∧
      (n = 1 ∨ n = 0) ∧ (n = 1 ↔ ∃ b, PoolOp.find b ∈ hist ∧ upToNul b = upToNul a) := by
  obtain ⟨v, M, ro, k1, k2, k3, -, k4, -⟩ := r.inv st
  obtain ⟨t, ht⟩ := cstr_of_mem ha
  obtain ⟨p', h1, -, h2⟩ := k1.exists_ok st.strings ht
  refine ⟨p', _, h1, h2, ?_, ?_⟩
  · cases (lookup M t).isSome <;> simp
  cases hl : lookup M t with
  | some d =>
    simp only [Option.isSome_some, if_true, true_iff]
    obtain ⟨b, h3, h4⟩ := k3 no_finish _ (lookup_some hl)
    exact ⟨b, h3, by rw [upToNul_eq h4, upToNul_eq ht]⟩
  | none =>
    simp only [Option.isSome_none, Bool.false_eq_true, if_false, Int.zero_ne_one, false_iff]
    rintro ⟨b, h3, h4⟩
    obtain ⟨j, hj, hb⟩ := List.mem_iff_getElem.1 h3
    have hj' : j < outs.length := by omega
    obtain ⟨t', d, e1, -, e3⟩ := k2 j b outs[j] (by rw [List.getElem?_eq_getElem hj, hb])
      (List.getElem?_eq_getElem hj')
    rw [upToNul_eq e1, upToNul_eq ht, Option.some.injEq] at h4
    subst h4
    rw [lookup_of k1.distinct e3] at hl
    simp at hl

/-- C26, destroying the pool gives back all memory, for any history without `str_pool_iterate`. -/
theorem C26_destroy (st : Start h0 hh0) (hist : List PoolOp) (p : Pool) (outs : List Spec.Ret)
    (r : Reaches h0 hh0 hist p outs) (no_iterate : ∀ o ∈ hist, o.isIterate = false) :
    ∃ m c, destroy p = .ok (m, c) ∧ m.mem = h0.mem ∧ c.mem = hh0.mem := by
  obtain ⟨v, M, ro, k1, -, -, k2, -⟩ := r.inv st
  rw [k2 no_iterate] at k1
  obtain ⟨m, c, h1, h2, h3, -⟩ := k1.destroy_ok st.strings st.cells
  exact ⟨m, c, h1, h2, h3⟩

/-- Empty memories are a possible start. -/
theorem start : Start Heap.init Heap.init := ⟨Heap.Ok.init0, Heap.Ok.init0⟩

/-- Memories with something in them, and with allocators that hand out the address freed last, will do as well. -/
example (x : List Byte × Nat) (y : Entry SKey Ptr × Nat) :
    Start ((Heap.init Heap.atOnce).alloc x).1 ((Heap.init Heap.atOnce).alloc y).1 :=
  ⟨(Heap.Ok.init Heap.atOnce_ok).alloc x, (Heap.Ok.init Heap.atOnce_ok).alloc y⟩

/-- Two equal strings in different buffers and a different one. -/
example : ∃ p outs, Reaches Heap.init Heap.init
      [.find [97, 98, 0], .copy [97, 98, 0], .find [97, 98, 0, 120], .find [97, 0], .exists_ [98, 0]] p outs ∧
    outs = [.ptr 1, .ptr 2, .ptr 1, .ptr 3, .int 0] ∧ StringAt p.mem.mem 1 [97, 98] := by
  refine ⟨_, _, ⟨_, rfl, ?_, rfl⟩, rfl, ⟨[], rfl, by simp⟩⟩
  intro o ho
  fin_cases ho <;> simp [PoolOp.Permitted]

/-- The calls growing a string from these pieces. -/
def growCalls (pieces : List (List Byte)) : List PoolOp := pieces.map fun s => .grow s s.length

theorem grow_run (pieces : List (List Byte)) : ∀ {p : Pool} {v : Spec.StrView} {M : List (List Byte × Nat)} {ro : Int},
    PInv h0 hh0 p v M ro → ∃ p' outs, Spec.run step p (growCalls pieces) = .ok (p', outs) ∧
      PInv h0 hh0 p' { v with pending := v.pending ++ pieces.flatten } M ro := by
  induction pieces with
  | nil => intro p v M ro i; exact ⟨p, [], rfl, by simpa using i⟩
  | cons s ps ih =>
    intro p v M ro i
    obtain ⟨s1, top, rest, a1, a2, -⟩ := i.str.grown s s.length (Nat.le_refl _)
    have i2 := i.strStep (mem' := s1.1) (str' := s1.2) a2 (fun _ h => h)
    obtain ⟨p', outs, h1, h2⟩ := ih i2
    simp only at a1
    refine ⟨p', .int 0 :: outs, ?_, by simpa using h2⟩
    simp only [growCalls, List.map_cons, Spec.run, step, grow, a1, Res.bind]
    simp only [growCalls] at h1
    rw [h1]

theorem takeWhile_ofStr {s : List Byte} (h : (0 : Byte) ∉ s) : (s ++ [0]).takeWhile (· ≠ 0) = s := by
  induction s with
  | nil => simp
  | cons b s ih =>
    rw [List.mem_cons, not_or] at h
    rw [List.cons_append, List.takeWhile_cons, if_pos (by simpa using Ne.symm h.1), ih h.2]

/-- growing the pieces and finishing, in a pool that is not locked -/
theorem grow_finish (st : Start h0 hh0) {p : Pool} {v : Spec.StrView} {M : List (List Byte × Nat)}
    (i : PInv h0 hh0 p v M 0) (hv : v.pending = []) (pieces : List (List Byte)) (noNul : (0 : Byte) ∉ pieces.flatten) :
    ∃ p' outs d v', Spec.run step p (growCalls pieces ++ [.finish]) = .ok (p', outs) ∧
      outs.getLast? = some (.ptr d) ∧ d ≠ 0 ∧ StringAt p'.mem.mem d pieces.flatten ∧
      PInv h0 hh0 p' v' (if (lookup M pieces.flatten).isSome then M else (pieces.flatten, d) :: M) 0 ∧
      (∀ x ∈ M, x.2 ≠ d) := by
  obtain ⟨p1, outs, h1, i1⟩ := grow_run pieces i
  obtain ⟨c, hc, -, h2⟩ := i1.finish_ok
  obtain ⟨p2, d, h3, i2, h4, h5⟩ := h2 rfl
  simp only [hv, List.nil_append] at hc i2
  rw [takeWhile_ofStr noNul] at hc
  subst hc
  refine ⟨p2, outs ++ [.ptr d], d, _, ?_, by simp, h4, ⟨[0], ?_, noNul⟩, i2, ?_⟩
  · rw [Spec.run_append, h1]
    simp only [Res.bind, Spec.run, step, h3]
  · have := (i2.str.strs (d, pieces.flatten ++ [0] ++ [0]) (by simp)).1
    simpa using this
  · rintro x hx rfl
    obtain ⟨b, e1, -⟩ := i1.known x hx
    exact h5 (List.mem_map_of_mem (f := Prod.fst) e1)

/-- C27, as far as it holds: when the concatenation is not yet in the pool, `str_pool_finish` returns a
pointer to it, and `str_pool_find` of it returns that same pointer at any later time. -/
theorem C27_finish_partial (st : Start h0 hh0) (hist : List PoolOp) (p : Pool) (outs : List Spec.Ret)
    (r : Reaches h0 hh0 hist p outs) (no_iterate : ∀ o ∈ hist, o.isIterate = false)
    (finished : Spec.allFinished hist = true) (pieces : List (List Byte)) (noNul : (0 : Byte) ∉ pieces.flatten)
    (q : Pool) (new : exists_ p (pieces.flatten ++ [0]) = .ok (q, 0)) :
    ∃ p' outs' d, Spec.run step p (growCalls pieces ++ [.finish]) = .ok (p', outs') ∧
      outs'.getLast? = some (.ptr d) ∧ d ≠ 0 ∧ StringAt p'.mem.mem d pieces.flatten ∧
      ∀ later p'' louts, (∀ o ∈ later, o.Permitted) → Spec.run step p' later = .ok (p'', louts) →
        ∃ p3, find p'' (pieces.flatten ++ [0]) = .ok (p3, d) := by
  obtain ⟨v, M, ro, k1, -, -, k2, -, k3⟩ := r.inv st
  rw [k2 no_iterate] at k1
  have hs := CStr.cstr_ofStr _ noNul
  unfold CStr.ofStr at hs
  obtain ⟨p1, h1, -, -⟩ := k1.exists_ok st.strings hs
  have hl : lookup M pieces.flatten = none := by
    rw [h1] at new
    simp only [Res.ok.injEq, Prod.mk.injEq] at new
    cases hl : lookup M pieces.flatten with
    | none => rfl
    | some d => rw [hl] at new; simp at new
  obtain ⟨p', outs', d, v', e1, e2, e3, e4, e5, -⟩ := grow_finish st k1 (k3 finished) pieces noNul
  rw [hl] at e5
  simp only [Option.isSome_none, Bool.false_eq_true, if_false] at e5
  refine ⟨p', outs', d, e1, e2, e3, e4, ?_⟩
  intro later p'' louts perm hr
  obtain ⟨v2, M2, ro2, f1, f2, -⟩ := run_ok st.strings later e5 perm hr
  obtain ⟨p3, f3, -⟩ := f1.find_old st.strings hs (lookup_of f1.distinct (d := d) (f2 _ (by simp)))
  exact ⟨p3, f3⟩

/-- C27 fails when the string is already in the pool: `str_pool_finish` returns a different pointer than
`str_pool_find` does, before and after. -/
theorem C27_refuted (st : Start h0 hh0) (hist : List PoolOp) (p : Pool) (outs : List Spec.Ret)
    (r : Reaches h0 hh0 hist p outs) (no_iterate : ∀ o ∈ hist, o.isIterate = false)
    (finished : Spec.allFinished hist = true) (pieces : List (List Byte)) (noNul : (0 : Byte) ∉ pieces.flatten)
    (q : Pool) (old : exists_ p (pieces.flatten ++ [0]) = .ok (q, 1)) :
    ∃ p' outs' d x, Spec.run step p (growCalls pieces ++ [.finish]) = .ok (p', outs') ∧
      outs'.getLast? = some (.ptr d) ∧ (∃ p1, find p (pieces.flatten ++ [0]) = .ok (p1, x)) ∧
      (∃ p1, find p' (pieces.flatten ++ [0]) = .ok (p1, x)) ∧ d ≠ x := by
  obtain ⟨v, M, ro, k1, -, -, k2, -, k3⟩ := r.inv st
  rw [k2 no_iterate] at k1
  have hs := CStr.cstr_ofStr _ noNul
  unfold CStr.ofStr at hs
  obtain ⟨p1, h1, -, -⟩ := k1.exists_ok st.strings hs
  obtain ⟨x, hl⟩ : ∃ x, lookup M pieces.flatten = some x := by
    rw [h1] at old
    simp only [Res.ok.injEq, Prod.mk.injEq] at old
    cases hl : lookup M pieces.flatten with
    | none => rw [hl] at old; simp at old
    | some d => exact ⟨d, rfl⟩
  obtain ⟨p', outs', d, v', e1, e2, e3, e4, e5, e6⟩ := grow_finish st k1 (k3 finished) pieces noNul
  rw [hl] at e5
  simp only [Option.isSome_some, if_true] at e5
  obtain ⟨a1, a2, -⟩ := k1.find_old st.strings hs hl
  obtain ⟨b1, b2, -⟩ := e5.find_old st.strings hs hl
  exact ⟨p', outs', d, x, e1, e2, ⟨a1, a2⟩, ⟨b1, b2⟩, fun h => e6 _ (lookup_some hl) h.symm⟩

/-- Both cases happen. -/
example : ∃ p outs q, Reaches Heap.init Heap.init [.find [97, 98, 0]] p outs ∧
    exists_ p ([[97], [98]].flatten ++ [0]) = .ok (q, 1) ∧ (∃ q', exists_ p ([[97], [99]].flatten ++ [0]) = .ok (q', 0)) := by
  refine ⟨_, _, _, ⟨_, rfl, ?_, rfl⟩, rfl, _, rfl⟩
  intro o ho
  fin_cases ho
  simp [PoolOp.Permitted]

/-- What a user knows of the pointers in the pool: each is what `str_pool_find` returns for a string that
`str_pool_exists` reports, and they are all different. -/
def PooledPointers (p : Pool) (items : List Nat) : Prop :=
  items.Nodup ∧ ∀ d, d ∈ items ↔ ∃ s q q', (0 : Byte) ∉ s ∧ exists_ p (s ++ [0]) = .ok (q, 1) ∧
    find p (s ++ [0]) = .ok (q', d)

theorem PInv.pooled (st : Start h0 hh0) {p : Pool} {v : Spec.StrView} {M : List (List Byte × Nat)} {ro : Int}
    (i : PInv h0 hh0 p v M ro) : PooledPointers p (M.map Prod.snd) := by
  refine ⟨?_, fun d => ⟨?_, ?_⟩⟩
  · unfold List.Nodup
    rw [List.pairwise_map]
    refine List.Pairwise.imp_of_mem ?_ i.distinct
    intro a b ha hb hab h
    exact hab ((i.unique (t := a.1) (d := a.2) ha hb).1 h)
  · intro hd
    obtain ⟨x, hx, rfl⟩ := List.mem_map.1 hd
    have hno := (i.stringAt hx).choose_spec.2
    have hs := CStr.cstr_ofStr _ hno
    unfold CStr.ofStr at hs
    have hl := lookup_of i.distinct (s := x.1) (d := x.2) hx
    obtain ⟨q, e1, -⟩ := i.exists_ok st.strings hs
    obtain ⟨q', e2, -⟩ := i.find_old st.strings hs hl
    rw [hl] at e1
    exact ⟨x.1, q, q', hno, e1, e2⟩
  · rintro ⟨s, q, q', hno, e1, e2⟩
    have hs := CStr.cstr_ofStr _ hno
    unfold CStr.ofStr at hs
    obtain ⟨p1, f1, -⟩ := i.exists_ok st.strings hs
    rw [f1] at e1
    cases hl : lookup M s with
    | none => rw [hl] at e1; simp at e1
    | some x =>
      obtain ⟨p2, f2, -⟩ := i.find_old st.strings hs hl
      rw [f2] at e2
      simp only [Res.ok.injEq, Prod.mk.injEq] at e2
      rw [← e2.2]
      exact List.mem_map.2 ⟨_, lookup_some hl, rfl⟩

/-- C28, what is visited: both iterations call the iterator with pooled pointers only, none twice, all of them
if it never returns non-zero, and stop at the first non-zero result. -/
theorem C28_visits (st : Start h0 hh0) (hist : List PoolOp) (p : Pool) (outs : List Spec.Ret)
    (r : Reaches h0 hh0 hist p outs) (f : List Nat → Nat → Int) :
    ∃ items, PooledPointers p items ∧
      (∃ p' log res, iterate p f = .ok (p', log, res) ∧ Spec.IterationOf items log res) ∧
      (∃ p' log res, iterateArg p f = .ok (p', log, res) ∧ Spec.IterationOf items log res) := by
  obtain ⟨v, M, ro, k1, -⟩ := r.inv st
  refine ⟨_, k1.pooled st, ?_, ?_⟩
  · obtain ⟨t', log, res, ro', h1, h2, h3, -⟩ := k1.iter f id 1 (fun t => Or.inr ⟨rfl, rfl⟩)
    exact ⟨{ p with tab := t' }, log, res, by simp only [iterate, h1, Res.bind], h3⟩
  · obtain ⟨t', log, res, ro', h1, h2, h3, -⟩ := k1.iter f (fun t => { t with readonly := 0 }) 0 (fun t => Or.inl rfl)
    exact ⟨{ p with tab := t' }, log, res, by simp only [iterateArg, h1, Res.bind], h3⟩

/-- C28, for `str_pool_iterate_arg` with any iterator, and for `str_pool_iterate` when the iterator never
stops: afterwards the pool takes new strings, and all further permitted calls, as before. -/
theorem C28_usable_partial (st : Start h0 hh0) (hist : List PoolOp) (p : Pool) (outs : List Spec.Ret)
    (r : Reaches h0 hh0 hist p outs) (no_iterate : ∀ o ∈ hist, o.isIterate = false) (f : List Nat → Nat → Int) (p' : Pool)
    (log : List (Nat × Int)) (res : Int)
    (h : iterateArg p f = .ok (p', log, res) ∨ iterate p f = .ok (p', log, res) ∧ res = 0) :
    ∀ later, (∀ o ∈ later, o.Permitted) → (∀ o ∈ later, o.isIterate = false) →
      ∃ p'' louts, Spec.run step p' later = .ok (p'', louts) := by
  obtain ⟨v, M, ro, k1, -, -, k2, -⟩ := r.inv st
  have hro := k2 no_iterate
  subst hro
  have key : PInv h0 hh0 p' v M 0 := by
    rcases h with h | ⟨h, hres⟩
    · obtain ⟨t', log', res', ro', h1, h2, h3, h4, h5, h6⟩ := k1.iter f (fun t => { t with readonly := 0 }) 0
        (fun t => Or.inl rfl)
      simp only [iterateArg, h1, Res.bind, Res.ok.injEq, Prod.mk.injEq] at h
      rw [← h.1]
      have : ro' = 0 := by
        by_cases hr : res' = 0
        · by_cases hM : M = []
          · exact h6 hr hM
          · exact h5 hr hM
        · exact h4 hr
      rw [← this]; exact h2
    · obtain ⟨t', log', res', ro', h1, h2, h3, h4, h5, h6⟩ := k1.iter f id 1 (fun t => Or.inr ⟨rfl, rfl⟩)
      simp only [iterate, h1, Res.bind, Res.ok.injEq, Prod.mk.injEq] at h
      rw [← h.1]
      have hr : res' = 0 := by rw [h.2.2]; exact hres
      have : ro' = 0 := by
        by_cases hM : M = []
        · exact h6 hr hM
        · exact h5 hr hM
      rw [← this]; exact h2
  intro later perm hni
  exact run_progress st.strings later key perm hni

/-- C28 fails for `str_pool_iterate`: whenever its iterator stops early, the pool stays locked and adding any
string that is not yet in it aborts. -/
theorem C28_refuted (st : Start h0 hh0) (hist : List PoolOp) (p : Pool) (outs : List Spec.Ret)
    (r : Reaches h0 hh0 hist p outs) (f : List Nat → Nat → Int) (p' : Pool)
    (log : List (Nat × Int)) (res : Int) (h : iterate p f = .ok (p', log, res)) (stopped : res ≠ 0)
    (s : List Byte) (hs : 0 ∈ s) (q : Pool) (new : exists_ p s = .ok (q, 0)) : find p' s = .abort := by
  obtain ⟨v, M, ro, k1, -⟩ := r.inv st
  obtain ⟨t', log', res', ro', h1, h2, h3, h4, -⟩ := k1.iter f id 1 (fun t => Or.inr ⟨rfl, rfl⟩)
  simp only [iterate, h1, Res.bind, Res.ok.injEq, Prod.mk.injEq] at h
  obtain ⟨rfl, -, rfl⟩ := h
  obtain ⟨t, ht⟩ := cstr_of_mem hs
  obtain ⟨p1, e1, -⟩ := k1.exists_ok st.strings ht
  have hl : lookup M t = none := by
    rw [e1] at new
    simp only [Res.ok.injEq, Prod.mk.injEq] at new
    cases hl : lookup M t with
    | none => rfl
    | some d => rw [hl] at new; simp at new
  exact (h2.find_new ht hl).1 (by rw [h4 stopped]; decide)

/-- An iterator that stops at the first string: locked after `str_pool_iterate`, not after
`str_pool_iterate_arg`. -/
example : ∃ p p1 log q, Reaches Heap.init Heap.init [.find [97, 0]] p [.ptr 1] ∧
    iterate p (fun _ _ => 7) = .ok (p1, log, 1) ∧ exists_ p [98, 0] = .ok (q, 0) ∧ find p1 [98, 0] = .abort ∧
    (∃ p2 log' p3, iterateArg p (fun _ _ => 7) = .ok (p2, log', 1) ∧ find p2 [98, 0] = .ok (p3, 2)) := by
  refine ⟨_, _, _, _, ⟨_, rfl, ?_, rfl⟩, rfl, rfl, rfl, _, _, _, rfl, rfl⟩
  intro o ho
  fin_cases ho
  simp [PoolOp.Permitted]

/-! ## the global pool -/

/-- States of the program reached by permitted calls on the global pool, whatever addresses the allocator chooses. -/
inductive GReach : Global → Prop
  | start {p1 p2 : Policy} : Heap.Allocator p1 → Heap.Allocator p2 → GReach (Global.init p1 p2)
  | call {g g' : Global} {o : GlobalOp} {r : Spec.Ret} : GReach g → o.Permitted → gstep g o = .ok (g', r) → GReach g'

theorem GReach.inv {g : Global} (h : GReach g) : ∃ M, GInv g M := by
  induction h with
  | start h1 h2 => exact ⟨[], GInv.init h1 h2⟩
  | call _ ho hs ih =>
    obtain ⟨M, i⟩ := ih
    rcases gstep_ok i _ ho with ⟨g', r, M', e1, e2, -⟩ | ⟨-, -, e1⟩
    · rw [e1] at hs
      cases hs
      exact ⟨M', e2⟩
    · rw [e1] at hs
      simp at hs

/-- C29, as far as it holds: once the global pool exists, `str_unique` returns a pooled string made of the prefix
and a decimal number that was not in the pool before and is afterwards. -/
theorem C29_unique_partial (g : Global) (r : GReach g) (exists_pool : g.pool.isSome) (pre rest : List Byte)
    (hpre : (0 : Byte) ∉ pre) :
    ∃ g' d k, strUnique g (pre ++ 0 :: rest) = .ok (g', d) ∧ d ≠ 0 ∧
      StringAt g'.mem.mem d (pre ++ Spec.decimal k) ∧
      (∃ q, strExists g (pre ++ Spec.decimal k ++ [0]) = .ok (q, 0)) ∧
      (∃ q, strExists g' (pre ++ Spec.decimal k ++ [0]) = .ok (q, 1)) ∧
      (∃ q, strFind g' (pre ++ Spec.decimal k ++ [0]) = .ok (q, d)) := by
  obtain ⟨M, i⟩ := r.inv
  obtain ⟨g', d, M', k, h1, h2, h3, h4, h5, h6, h7, h8, -⟩ := i.unique exists_pool (CStr.cstr_append pre hpre rest)
  have hno : (0 : Byte) ∉ pre ++ Spec.decimal k := by
    simp only [List.mem_append, not_or]; exact ⟨hpre, decimal_noNul _⟩
  have hs := CStr.cstr_ofStr _ hno
  unfold CStr.ofStr at hs
  refine ⟨g', d, k, h1, h8, h7, ?_, ?_, ?_⟩
  · obtain ⟨q, e1, -⟩ := i.exists_ exists_pool hs
    rw [h6] at e1
    exact ⟨q, e1⟩
  · obtain ⟨q, e1, -⟩ := h2.exists_ h3 hs
    rw [lookup_of h2.distinct h4] at e1
    exact ⟨q, e1⟩
  · obtain ⟨g2, f1, f2, f3, -⟩ := h2.checkGlobal
    obtain ⟨g3, d', M3, k1, k2, k3, k4, k5, -⟩ := f2.find f3 hs
    have : d' = d := by
      have e1 := lookup_of k2.distinct k4
      rw [lookup_of k2.distinct (k5 _ h4)] at e1
      exact (Option.some.inj e1).symm
    rw [this] at k1
    exact ⟨g3, by simp only [strFind, f1, Res.bind]; exact k1⟩

/-- Permitted calls lead from one state to another. -/
inductive Later : Global → Global → Prop
  | refl (g : Global) : Later g g
  | call {g g' g'' : Global} {o : GlobalOp} {r : Spec.Ret} :
      Later g g' → o.Permitted → gstep g' o = .ok (g'', r) → Later g g''

theorem Later.counter {g g' : Global} (l : Later g g') (r : GReach g) : GReach g' ∧ g.counter ≤ g'.counter := by
  induction l with
  | refl => exact ⟨r, Nat.le_refl _⟩
  | call _ ho hs ih =>
    obtain ⟨h1, h2⟩ := ih
    obtain ⟨M, i⟩ := h1.inv
    refine ⟨GReach.call h1 ho hs, ?_⟩
    rcases gstep_ok i _ ho with ⟨g', x, M', e1, -, e2⟩ | ⟨-, -, e1⟩
    · rw [e1] at hs
      cases hs
      omega
    · rw [e1] at hs
      simp at hs

/-- C29, repeated calls: of two `str_unique` calls with any permitted calls between them, even `str_destroy`, the
second uses a larger number. -/
theorem C29_numbers_grow (g g1 g2 g3 : Global) (r : GReach g) (pre pre' rest rest' : List Byte)
    (hpre : (0 : Byte) ∉ pre) (hpre' : (0 : Byte) ∉ pre') (d d' : Nat) (pool : g.pool.isSome) (pool' : g2.pool.isSome)
    (h1 : strUnique g (pre ++ 0 :: rest) = .ok (g1, d)) (l : Later g1 g2)
    (h2 : strUnique g2 (pre' ++ 0 :: rest') = .ok (g3, d')) :
    ∃ k k', k < k' ∧ StringAt g1.mem.mem d (pre ++ Spec.decimal k) ∧ StringAt g3.mem.mem d' (pre' ++ Spec.decimal k') := by
  obtain ⟨M, i⟩ := r.inv
  obtain ⟨g', x, M', k, e1, -, -, -, -, -, e7, -, e8, e9, -⟩ := i.unique pool (CStr.cstr_append pre hpre rest)
  rw [h1] at e1
  cases e1
  have r1 : GReach g1 := GReach.call (o := .unique (pre ++ 0 :: rest)) r (by simp [GlobalOp.Permitted])
    (by simp only [gstep, h1, Res.bind]; rfl)
  obtain ⟨r2, hc⟩ := l.counter r1
  obtain ⟨M2, i2⟩ := r2.inv
  obtain ⟨g', x, M', k', f1, -, -, -, -, -, f7, -, f8, f9, -⟩ := i2.unique pool' (CStr.cstr_append pre' hpre' rest')
  rw [h2] at f1
  cases f1
  exact ⟨k, k', by omega, e7, f7⟩

/-- C29 fails before the pool exists, at program start and after `str_destroy`: `str_unique`, like `str_exists`
and `str_copyn`, dereferences NULL. -/
theorem C29_refuted (g : Global) (r : GReach g) (no_pool : g.pool = none) (s : List Byte) (hs : 0 ∈ s) (n : Nat) :
    strUnique g s = .ub ∧ strExists g s = .ub ∧ strCopyn g s n = .ub ∧
    (∃ g', strDestroy g = .ok g' ∧ g'.pool = none) := by
  obtain ⟨M, i⟩ := r.inv
  obtain ⟨t, ht⟩ := cstr_of_mem hs
  refine ⟨?_, ?_, ?_, ?_⟩
  · simp only [strUnique, ht, uniqueLoop, strExists, withGlobal, no_pool, Res.bind]
  · simp only [strExists, withGlobal, no_pool]
  · simp only [strCopyn, withGlobal, no_pool]
  · obtain ⟨g', h1, -, h2, -⟩ := i.destroy
    exact ⟨g', h1, h2⟩

/-- Every other permitted call on the global pool returns, and the three above do once the pool exists. -/
theorem C26_global_no_failure (g : Global) (r : GReach g) (o : GlobalOp) (ho : o.Permitted)
    (pool : g.pool.isSome ∨ (∀ s, o ≠ .exists_ s) ∧ (∀ s n, o ≠ .copyn s n) ∧ (∀ s, o ≠ .unique s)) :
    ∃ g' x, gstep g o = .ok (g', x) ∧ GReach g' := by
  obtain ⟨M, i⟩ := r.inv
  rcases gstep_ok i o ho with ⟨g', x, M', e1, -, -⟩ | ⟨h1, h2, -⟩
  · exact ⟨g', x, e1, GReach.call r ho e1⟩
  · exfalso
    rcases pool with h | ⟨h3, h4, h5⟩
    · rw [h1] at h; simp at h
    · cases o <;> simp_all [needsPool]

/-- "x1" is taken, so the first `str_unique("x")` gives "x2", the next "x3". -/
example : ∃ g1 g2 g3, strFind Global.init [120, 49, 0] = .ok (g1, 1) ∧ strUnique g1 [120, 0] = .ok (g2, 2) ∧
    strUnique g2 [120, 0] = .ok (g3, 3) ∧ StringAt g2.mem.mem 2 [120, 50] ∧ StringAt g3.mem.mem 3 [120, 51] :=
  ⟨_, _, _, rfl, rfl, rfl, ⟨[], rfl, by decide⟩, ⟨[], rfl, by decide⟩⟩

/-- The numbers begin with 1. -/
example : ∃ g1 g2, strFind Global.init [121, 0] = .ok (g1, 1) ∧ strUnique g1 [120, 0] = .ok (g2, 2) ∧ StringAt g2.mem.mem 2 [120, 49] :=
  ⟨_, _, rfl, rfl, ⟨[], rfl, by decide⟩⟩

/-- C54: `str_findn` interns the first `n` bytes, cut at a NUL if there is one: it returns exactly what
`str_find` returns for that string, whether or not it was interned before, and needs only those bytes readable. -/
theorem C54_findn (g : Global) (r : GReach g) (s : List Byte) (n : Nat) (readable : 0 ∈ s ∨ n ≤ s.length)
    (t : List Byte) (ht : upToNul (s.take n ++ [0]) = some t) :
    strFindn g s n = strFind g (t ++ [0]) ∧
    ∃ g' d, strFindn g s n = .ok (g', d) ∧ StringAt g'.mem.mem d t ∧ (∃ q, strFind g' (t ++ [0]) = .ok (q, d)) := by
  have ht' : t = (s.take n).takeWhile (· ≠ 0) := by
    have h1 := (cstr_takeWhile (StrMem.upToNul_some ht)).1
    rw [← h1]
    clear ht h1 readable
    induction s.take n with
    | nil => simp
    | cons b l ih =>
      rw [List.cons_append, List.takeWhile_cons, List.takeWhile_cons]
      split
      · rw [ih]
      · rfl
  have heq : strFindn g s n = strFind g (t ++ [0]) := by
    obtain ⟨M, i⟩ := r.inv
    obtain ⟨g1, c1, -⟩ := i.checkGlobal
    simp only [strFindn, strFind, c1, Res.bind, strncpyTmp_ok readable, ← ht']
  refine ⟨heq, ?_⟩
  rw [heq]
  have hno : (0 : Byte) ∉ t := ht' ▸ takeWhile_noNul _
  have hs := CStr.cstr_ofStr _ hno
  unfold CStr.ofStr at hs
  obtain ⟨M, i⟩ := r.inv
  obtain ⟨g1, c1, c2, c3, -⟩ := i.checkGlobal
  obtain ⟨g2, d, M2, d1, d2, d3, d4, -, -, d5, -⟩ := c2.find c3 hs
  refine ⟨g2, d, by simp only [strFind, c1, Res.bind]; exact d1, d5, ?_⟩
  obtain ⟨g3, e1, e2, e3, -⟩ := d2.checkGlobal
  obtain ⟨g4, d', M4, f1, f2, f3, f4, f5, -⟩ := e2.find e3 hs
  have : d' = d := by
    have a1 := lookup_of f2.distinct f4
    rw [lookup_of f2.distinct (f5 _ d4)] at a1
    exact (Option.some.inj a1).symm
  rw [this] at f1
  exact ⟨g4, by simp only [strFind, e1, Res.bind]; exact f1⟩

/-- "abc" cut to "ab" in an unterminated buffer. -/
example : ∃ g d, strFindn Global.init [97, 98, 99] 2 = .ok (g, d) ∧ StringAt g.mem.mem d [97, 98] ∧
    upToNul ([97, 98, 99].take 2 ++ [0]) = some [97, 98] :=
  ⟨_, _, rfl, ⟨[], rfl, by decide⟩, by decide⟩

end Maa.StrPool
