import Verif.Lemmas.HashStats
import Verif.Lemmas.NameTab
import Verif.Props.HashHeap
import Verif.Spec.KeyLines

/-! # C06 and C15 at pointer level, and C68: the keys of a table printed -/

namespace Maa.HashHeap

open Tab (Entry Tab)

variable {K D : Type}

/-- The numbers of a statistics block against the chains in memory: `len i` is the length of the chain in slot `i`. -/
def TrueNumbers (h : Heap (Entry K D)) (t : HTab) (s : Maa.Tab.Stats) : Prop :=
  ∃ len : Nat → Nat, (∀ i < t.prime, ∃ l, Heap.Chain h.mem (t.buckets i) l ∧ l.length = len i) ∧
    s.size = t.prime ∧ s.entries = ((List.range t.prime).map len).sum ∧
    s.buckets_used = (List.range t.prime).countP (fun i => len i ≠ 0) ∧
    s.singletons = (List.range t.prime).countP (fun i => len i = 1) ∧
    (∀ i < t.prime, len i ≤ s.maximum_length) ∧ (s.maximum_length = 0 ∨ ∃ i < t.prime, len i = s.maximum_length)

theorem max_fold (b : Nat → Nat) : ∀ (l : List Nat) (a : Nat), (∀ i ∈ l, b i ≤ l.foldl (fun m i => max m (b i)) a) ∧
    (a ≤ l.foldl (fun m i => max m (b i)) a) ∧
    (l.foldl (fun m i => max m (b i)) a = a ∨ ∃ i ∈ l, b i = l.foldl (fun m i => max m (b i)) a) := by
  intro l
  induction l with
  | nil => intro a; simp
  | cons c l ih =>
    intro a
    simp only [List.foldl_cons]
    obtain ⟨i1, i2, i3⟩ := ih (max a (b c))
    refine ⟨?_, by omega, ?_⟩
    · intro i hi
      rcases List.mem_cons.1 hi with rfl | hi
      · omega
      · exact i1 i hi
    · rcases i3 with i3 | ⟨i, hi, i3⟩
      · by_cases hab : b c ≤ a
        · left; omega
        · right; exact ⟨c, by simp, by omega⟩
      · right; exact ⟨i, by simp [hi], i3⟩

theorem stats_true {h : Heap (Entry K D)} {ht : HTab} {t : Tab K D} {A} (r : HRep h ht t A) (hc : t.entries = (Maa.Tab.all t).length) :
    ∃ s, hgetStats h ht = .ok s ∧ TrueNumbers h ht s ∧ s.entries = (Maa.Tab.all t).length ∧ s.resizings = t.resizings ∧
      s.retrievals = t.retrievals ∧ s.hits = t.hits ∧ s.misses = t.misses := by
  rw [hgetStats_ok r]
  obtain ⟨e1, e0, e2, e3, e4, e5, e6, e7, e8⟩ := Maa.Tab.stats_fold t (List.range t.prime)
    { size := t.prime, resizings := t.resizings, entries := 0, buckets_used := 0, singletons := 0,
      maximum_length := 0, retrievals := t.retrievals, hits := t.hits, misses := t.misses }
  simp only [Nat.zero_add] at e0 e1 e2 e3 e4 e5 e6 e7 e8
  unfold Maa.Tab.getStats
  simp only
  have hcount : t.entries = ((List.range t.prime).foldl (Maa.Tab.statsStep t)
    { size := t.prime, resizings := t.resizings, entries := 0, buckets_used := 0, singletons := 0,
      maximum_length := 0, retrievals := t.retrievals, hits := t.hits, misses := t.misses }).entries := by rw [e5]; exact hc
  rw [if_neg (by simp [hcount])]
  refine ⟨_, rfl, ⟨fun i => (t.buckets i).length, ?_, ?_, ?_, ?_, ?_, ?_, ?_⟩, ?_, e0, e2, e3, e4⟩
  · intro i hi
    rw [r.prime] at hi
    exact ⟨A i, r.chain i hi, by simp only; rw [← r.ents i hi, List.length_map]⟩
  · rw [e1, r.prime]
  · rw [e5, r.prime, List.length_flatMap]
  · rw [e6, r.prime]
    apply List.countP_congr
    intro i _
    simp [List.isEmpty_iff]
  · rw [e7, r.prime]
    apply List.countP_congr
    intro i _
    simp
  · intro i hi
    rw [r.prime] at hi
    rw [e8]
    exact (max_fold (fun i => (t.buckets i).length) (List.range t.prime) 0).1 i (List.mem_range.2 hi)
  · rw [e8, r.prime]
    rcases (max_fold (fun i => (t.buckets i).length) (List.range t.prime) 0).2.2 with h | ⟨i, hi, h⟩
    · exact Or.inl h
    · exact Or.inr ⟨i, List.mem_range.1 hi, h⟩
  · rw [← hcount]; exact hc

/-- C06 at pointer level: after any history, in any memory, `hsh_get_stats`, walking the real chains, returns the true numbers. -/
theorem C06_pointers (ops : KeyOps K) (law : ops.Lawful) (h0 : Heap (Entry K Ptr)) (ok0 : h0.Ok)
    (hist : List (Spec.HashOp K)) (t0 t : HTab) (h : Heap (Entry K Ptr)) (outs : List Spec.Ret)
    (hc : hcreate 0 = .ok t0) (hr : Spec.run (heapStep ops) (h0, t0) hist = .ok ((h, t), outs)) :
    ∃ s m, hgetStats h t = .ok s ∧ TrueNumbers h t s ∧ Spec.run (Spec.hashStep (eqv ops)) {} hist = .ok (m, outs) ∧
      s.entries = m.map.length ∧ s.retrievals = m.retrievals ∧ s.misses = m.misses ∧ s.hits + s.misses ≤ s.retrievals := by
  obtain ⟨ht, h1, h2⟩ := heap_history law h0 ok0 hist
  rw [hc] at h1
  cases h1
  rw [hr] at h2
  cases ha : Spec.run (Spec.hashStep (eqv ops)) {} hist with
  | ok b =>
    rw [ha] at h2
    simp only [Spec.ResRel] at h2
    obtain ⟨e, t', A, r, sim, ow⟩ := h2
    obtain ⟨s, g1, g2, g3, -, g4, g5, g6⟩ := stats_true r sim.rep.inv.count
    refine ⟨s, b.1, g1, g2, by rw [e], ?_, by rw [g4, sim.retr], by rw [g6, sim.miss], by rw [g4, g5, g6]; exact sim.hits⟩
    rw [g3, ← sim.rep.perm.length_eq]
    simp [Maa.Tab.pairsOf]
  | _ => rw [ha] at h2; exact absurd h2 (by simp [Spec.ResRel])

/-- C15 at pointer level: the same for `set_get_stats`. -/
theorem C15_pointers (ops : KeyOps K) (law : ops.Lawful) (h0 : Heap (Entry K Unit)) (ok0 : h0.Ok)
    (hist : List (Spec.OneSetOp K)) (t0 t : HTab) (h : Heap (Entry K Unit)) (outs : List Int)
    (hc : hcreate 0 = .ok t0) (hr : Spec.run (setHeapStep ops) (h0, t0) hist = .ok ((h, t), outs)) :
    ∃ s m, hgetStats h t = .ok s ∧ TrueNumbers h t s ∧ Spec.run (Spec.oneSetStep (eqv ops)) {} hist = .ok (m, outs) ∧
      s.entries = m.elems.length ∧ t.entries = m.elems.length := by
  obtain ⟨ht, h1, h2⟩ := set_history law h0 ok0 hist
  rw [hc] at h1
  cases h1
  rw [hr] at h2
  cases ha : Spec.run (Spec.oneSetStep (eqv ops)) {} hist with
  | ok b =>
    rw [ha] at h2
    simp only [Spec.ResRel] at h2
    obtain ⟨e, t', A, r, rep, ro, ow⟩ := h2
    obtain ⟨s, g1, g2, g3, -⟩ := stats_true r rep.inv.count
    have hl : (Maa.Tab.all t').length = b.1.elems.length := by
      have := rep.perm.length_eq
      simpa [Maa.Tab.pairsOf] using this
    exact ⟨s, b.1, g1, g2, by rw [e], by rw [g3, hl], by rw [r.entries, rep.inv.count, hl]⟩
  | _ => rw [ha] at h2; exact absurd h2 (by simp [Spec.ResRel])

/-- Non-vacuity: three keys, two of which collide, after growth and a deletion. -/
example : ((hcreate 0).bind fun t => (Spec.run (heapStep Hash.exOps) (Heap.init, t)
    [.insert 1 10, .insert 3 30, .insert 5 50, .retrieve 3, .delete 1, .retrieve 1]).bind fun r => (hgetStats r.1.1 r.1.2).bind fun s =>
      .ok (s.entries, s.retrievals, s.misses)) = .ok (2, 2, 1) := by decide +kernel

end Maa.HashHeap

namespace Maa.NameTab

open HashHeap (heapStep)
open Spec (keyText keyLine keyWidth KeyLines)

theorem keyStrings_fold : ∀ (order : List (List Byte × Ptr)) (full : List (List (List Byte))) (last : List (List Byte)) (c : Column),
    (∀ l ∈ full, ∃ init k, l = init ++ [k] ∧ keyWidth init < 60 ∧ 60 ≤ keyWidth l) → keyWidth last < 60 →
    c.out = full.flatMap keyLine ++ last.flatMap keyText → c.i = keyWidth last →
    KeyLines (full.flatten ++ last ++ order.map Prod.fst) ((order.foldl keyStrings c).out ++ [10]) := by
  intro order
  induction order with
  | nil =>
    intro full last c hf hl ho hi
    exact ⟨full, last, by simp, by simp [ho, keyLine], hf, hl⟩
  | cons p order ih =>
    intro full last c hf hl ho hi
    have hw : keyWidth (last ++ [p.1]) = keyWidth last + (p.1.length + 2) := by simp [keyWidth, keyText]
    simp only [List.foldl_cons]
    by_cases hc : c.i + (p.1.length + 2) ≥ 60
    · have := ih (full ++ [last ++ [p.1]]) [] (keyStrings c p) (by
        intro l hm
        rcases List.mem_append.1 hm with hm | hm
        · exact hf l hm
        · rw [List.mem_singleton.1 hm]
          exact ⟨last, p.1, rfl, hl, by rw [hw]; omega⟩) (by simp [keyWidth])
        (by simp [keyStrings, if_pos hc, ho, keyLine, keyText]) (by simp [keyStrings, if_pos hc, keyWidth])
      simpa using this
    · have := ih full (last ++ [p.1]) (keyStrings c p) hf (by rw [hw]; omega)
        (by simp [keyStrings, if_neg hc, ho, keyText]) (by simp only [keyStrings, if_neg hc]; rw [hw]; omega)
      simpa using this

/-- C68: on any table of strings (whatever the calls before were, locked or not) `hsh_key_strings` prints each key exactly
once, in some order, laid out in lines, and changes nothing; what was printed earlier does not matter. -/
theorem C68_key_strings (hist : List (Spec.HashOp (List Byte))) (t0 : HashHeap.HTab) (t : Table) (outs : List Spec.Ret) (m : Spec.MapState (List Byte))
    (hc : HashHeap.hcreate 0 = .ok t0) (hr : Spec.run (heapStep strOps) (Heap.init, t0) hist = .ok (t, outs))
    (hm : Spec.run (Spec.hashStep (eqv strOps)) {} hist = .ok (m, outs)) (before : Nat) :
    ∃ (keys : List (List Byte)) (i : Nat) (out : List Byte), keys.Perm (m.map.map Prod.fst) ∧ KeyLines keys out ∧
      hshKeyStrings t before = .ok (t, i, out) := by
  obtain ⟨ht, h1, h2⟩ := HashHeap.heap_history strOps_lawful Heap.init Heap.Ok.init0 hist
  rw [hc] at h1
  cases h1
  rw [hr, hm] at h2
  obtain ⟨-, sim⟩ := h2
  obtain ⟨order, hp, h3⟩ := iterate_quiet_sim sim keyStrings { i := 0, out := [] }
  refine ⟨order.map Prod.fst, (order.foldl keyStrings { i := 0, out := [] }).i, (order.foldl keyStrings { i := 0, out := [] }).out ++ [10], hp.map _, ?_,
    by simp only at h3; simp only [hshKeyStrings, h3, Res.bind]⟩
  simpa using keyStrings_fold order [] [] { i := 0, out := [] } (by simp) (by simp [keyWidth]) (by simp) (by simp [keyWidth])


/-- Non-vacuity: three keys, the last of which fills the line; the counter left by an earlier call does not matter. -/
example : ((HashHeap.hcreate 0).bind fun t => (Spec.run (heapStep strOps) (Heap.init, t)
    [.insert (List.replicate 40 97) 1, .insert (List.replicate 40 98) 2, .insert [99] 3, .readonly 1]).bind fun r => (hshKeyStrings r.1 59).bind fun q =>
      .ok (q.2.1, q.2.2.length, q.2.2.count 10)) = .ok (0, 89, 2) := by decide +kernel

end Maa.NameTab
