import Verif.Lemmas.StrStats

/-! Loops over a string pool whose body uses the pool. -/

namespace Maa.StrPool

open Spec (PoolOp StrView)
open CStr (cstr)
open StrMem (Mem SInfo)
open HashHeap (HTab HRep At cellsFrom hretrieve)
open Tab (Entry)

variable {h0 : Mem} {hh0 : Heap (Entry SKey Ptr)} {p : Pool} {v : StrView} {M : List (List Byte × Nat)} {ro : Int}

theorem PInv.tabRo (i : PInv h0 hh0 p v M ro) : p.tab.readonly = ro := by
  obtain ⟨ms, ⟨t, A, r, sim, ow⟩, hm, hr⟩ := i.sim
  rw [r.ro, sim.ro, hr]

/-- The table is locked and its cells, `A` by bucket, stay where they are. -/
def Walk (A : Nat → List (Nat × Entry SKey Ptr)) (n : Nat) (cells : Heap (Entry SKey Ptr)) (tab : HTab) : Prop :=
  ∃ t, HRep cells tab t A ∧ t.prime = n ∧ (∀ i < t.prime, ∀ e ∈ t.buckets i, e.hash % t.prime = i) ∧ t.readonly = 1

theorem retrieve_ro {K D : Type} {ops : KeyOps K} {t t' : Tab.Tab K D} {k : K} {d : Option D} (hro : t.readonly ≠ 0)
    (h : Tab.retrieve ops t k = .ok (t', d)) : t'.buckets = t.buckets ∧ t'.prime = t.prime ∧ t'.readonly = t.readonly := by
  unfold Tab.retrieve at h
  simp only [if_neg hro] at h
  repeat' split at h
  all_goals first
    | (simp at h; done)
    | (simp only [Res.ok.injEq, Prod.mk.injEq] at h; obtain ⟨rfl, -⟩ := h; exact ⟨rfl, rfl, rfl⟩)

theorem Walk.retrieve {A : Nat → List (Nat × Entry SKey Ptr)} {n : Nat} (w : Walk A n p.cells p.tab) {k : SKey} {p' : Pool} {d : Nat}
    (h : StrPool.retrieve p k = .ok (p', d)) : Walk A n p'.cells p'.tab ∧ p'.cells = p.cells := by
  obtain ⟨t, r, e1, e2, e3⟩ := w
  unfold StrPool.retrieve at h
  split at h
  · simp at h
  have h1 := HashHeap.hretrieve_hrep (ops := ops p.mem) r k
  cases hq : hretrieve (ops p.mem) p.cells p.tab k with
  | ok c =>
    rw [hq] at h h1
    simp only [Res.bind, Res.ok.injEq, Prod.mk.injEq] at h
    obtain ⟨rfl, -⟩ := h
    cases hb : Tab.retrieve (ops p.mem) t k with
    | ok b =>
      rw [hb] at h1
      obtain ⟨-, A', a1, -, a2⟩ := h1
      have hro : t.readonly ≠ 0 := by rw [e3]; decide
      obtain ⟨rfl, a3, -⟩ := a2 hro
      obtain ⟨f1, f2, f3⟩ := retrieve_ro hro (t' := b.1) (d := b.2) hb
      exact ⟨⟨b.1, a1, f2.trans e1, by rw [f1, f2]; exact e2, f3.trans e3⟩, a3⟩
    | _ => rw [hb] at h1; exact absurd h1 (by simp [Spec.ResRel])
  | _ => rw [hq] at h; simp [Res.bind] at h

/-- A call the body of a loop may make: anything but adding a string, finishing one, or another iteration. -/
def Harmless (M : List (List Byte × Nat)) : PoolOp → Prop
  | .find s => ∃ t, cstr s = .ok t ∧ (lookup M t).isSome = true
  | .finish | .iterate _ | .iterateArg _ => False
  | _ => True

theorem body_step (ok0 : h0.Ok) (i : PInv h0 hh0 p v M ro) {A : Nat → List (Nat × Entry SKey Ptr)} {n : Nat}
    (w : Walk A n p.cells p.tab) (o : PoolOp) (ho : o.Permitted) (hh : Harmless M o) :
    ∃ p' x v', step p o = .ok (p', x) ∧ PInv h0 hh0 p' v' M ro ∧ Walk A n p'.cells p'.tab ∧ p'.cells = p.cells ∧
      ∀ x ∈ v.strings, x ∈ v'.strings := by
  cases o with
  | exists_ s =>
    obtain ⟨t, hs⟩ := cstr_of_mem ho
    obtain ⟨p', h1, h2, -, -⟩ := i.retrieve (CStr.cstr_ok hs).1
    obtain ⟨w', hc⟩ := w.retrieve h1
    exact ⟨p', .int (if (lookup M t).getD 0 ≠ 0 then 1 else 0), v, by simp only [step, exists_, hs, Res.bind, h1], h2, w', hc, fun _ h => h⟩
  | find s =>
    obtain ⟨t, hs, hl⟩ := hh
    obtain ⟨d, hl⟩ := Option.isSome_iff_exists.1 hl
    obtain ⟨p', h1, h2, -, -⟩ := i.retrieve (CStr.cstr_ok hs).1
    obtain ⟨w', hc⟩ := w.retrieve h1
    have hd := i.nonnull ok0 (lookup_some hl)
    simp only at hd
    refine ⟨p', .ptr d, v, ?_, h2, w', hc, fun _ h => h⟩
    simp only [step, find, hs, Res.bind, h1, hl, Option.getD_some]
    rw [if_pos hd]
  | copy s =>
    obtain ⟨t, hs⟩ := cstr_of_mem ho
    obtain ⟨s', d, v', e1, e2, e3, e4⟩ := StrMem.step_inv i.str (.strcpy s)
      (by intro r; simp [StrView.see, StrMem.upToNul_of hs])
    simp only [StrView.see, StrMem.upToNul_of hs, Option.map_some, Option.some.injEq] at e2
    simp only [StrMem.step] at e1
    have hsub : ∀ x ∈ v.strings, x ∈ v'.strings := by rw [← e2]; exact copied_sub _ _ _ _
    exact ⟨{ p with mem := s'.1, str := s'.2 }, .ptr d, v', by simp only [step, copy, e1, Res.bind], i.strStep (mem' := s'.1) (str' := s'.2) e3 hsub,
      w, rfl, hsub⟩
  | copyn s m =>
    have hn : m + 1 ≤ s.length := ho
    obtain ⟨s', d, v', e1, e2, e3, e4⟩ := StrMem.step_inv i.str (.strncpy s m)
      (by intro r; simp only [StrView.see]; rw [if_pos hn]; simp)
    simp only [StrView.see, if_pos hn, Option.some.injEq] at e2
    simp only [StrMem.step] at e1
    have hsub : ∀ x ∈ v.strings, x ∈ v'.strings := by rw [← e2]; exact copied_sub _ _ _ _
    exact ⟨{ p with mem := s'.1, str := s'.2 }, .ptr d, v', by simp only [step, copyn, e1, Res.bind], i.strStep (mem' := s'.1) (str' := s'.2) e3 hsub,
      w, rfl, hsub⟩
  | grow s m =>
    have hn : m ≤ s.length := ho
    obtain ⟨s1, top, rest, a1, a2, -⟩ := i.str.grown s m hn
    simp only at a1
    exact ⟨{ p with mem := s1.1, str := s1.2 }, .int 0, _, by simp only [step, grow, a1, Res.bind], i.strStep (mem' := s1.1) (str' := s1.2) a2 (fun _ h => h),
      w, rfl, fun _ h => h⟩
  | finish => exact hh.elim
  | iterate f => exact hh.elim
  | iterateArg f => exact hh.elim

theorem body_calls (ok0 : h0.Ok) {A : Nat → List (Nat × Entry SKey Ptr)} {n : Nat} : ∀ (os : List PoolOp) {p : Pool} {v : StrView},
    PInv h0 hh0 p v M ro → Walk A n p.cells p.tab → (∀ o ∈ os, o.Permitted ∧ Harmless M o) →
    ∃ p' v', calls os p = .ok p' ∧ PInv h0 hh0 p' v' M ro ∧ Walk A n p'.cells p'.tab ∧ p'.cells = p.cells ∧ ∀ x ∈ v.strings, x ∈ v'.strings := by
  intro os
  induction os with
  | nil => intro p v i w _; exact ⟨p, v, rfl, i, w, rfl, fun _ h => h⟩
  | cons o os ih =>
    intro p v i w h
    obtain ⟨p1, x, v1, h1, i1, w1, c1, s1⟩ := body_step ok0 i w o (h o (by simp)).1 (h o (by simp)).2
    obtain ⟨p2, v2, h2, i2, w2, c2, s2⟩ := ih i1 w1 (fun o ho => h o (by simp [ho]))
    refine ⟨p2, v2, ?_, i2, w2, c2.trans c1, fun x hx => s2 x (s1 x hx)⟩
    simp only [calls, h1, Res.bind, h2]

theorem PInv.setRo (i : PInv h0 hh0 p v M ro) (f : Int) : PInv h0 hh0 { p with tab := { p.tab with readonly := f } } v M f := by
  obtain ⟨ms, hs, hm, hr⟩ := i.sim
  exact ⟨i.str, ⟨{ ms with readonly := f }, PSim.setRo hs f, hm, rfl⟩, i.known⟩

/-- the loop from a position on -/
theorem strIterate_ok (ok0 : h0.Ok) (body : List Nat → Nat → List PoolOp × Bool)
    (hb : ∀ seen key, ∀ o ∈ (body seen key).1, o.Permitted ∧ Harmless M o) {A : Nat → List (Nat × Entry SKey Ptr)} {n : Nat}
    (hkeys : ∀ i < n, ∀ c ∈ A i, c.2.key = .stored c.2.datum) :
    ∀ (rem : List (Nat × Entry SKey Ptr)) (k : Nat) (p : Pool) (v : StrView) (pos : Nat) (seen : List Nat), rem.length < k →
      PInv h0 hh0 p v M 1 → Walk A n p.cells p.tab → At n A pos rem →
    ∃ (p' : Pool) (v' : StrView) (log rest : List Nat) (stopped : Bool), strIterate body k p pos seen = .ok (p', seen ++ log, stopped) ∧
      PInv h0 hh0 p' v' M (if stopped then 1 else 0) ∧ (∀ x ∈ v.strings, x ∈ v'.strings) ∧
      log ++ rest = rem.map (fun c => c.2.datum) ∧ (stopped = false → rest = []) ∧
      (∀ pre x post, log = pre ++ x :: post → (body (seen ++ pre) x).2 = (stopped && post.isEmpty)) ∧ log ≠ [] := by
  intro rem
  induction rem with
  | nil =>
    intro k p v pos seen hk i w hat
    obtain ⟨e, rest, h1, -⟩ := hat.cell
    simp at h1
  | cons c rest ih =>
    intro k p v pos seen hk i w hat
    cases k with
    | zero => omega
    | succ k =>
      obtain ⟨e, rest', h1, j, hj, hmem⟩ := hat.cell
      simp only [List.cons.injEq] at h1
      obtain ⟨h1, h1'⟩ := h1
      subst h1'
      rw [h1] at hat ⊢
      have w0 := w
      obtain ⟨t0, r0, n0, -, -⟩ := w0
      obtain ⟨hp0, nx, hm⟩ := HashHeap.cell_mem r0 (by rw [n0]; exact hj) hmem
      have hkey := hkeys j hj _ hmem
      have hget : poolGet p pos = .ok e.datum := by
        simp only at hkey
        simp only [poolGet, HashHeap.getPosition, Heap.read_ok hm, Res.bind, hkey]
      obtain ⟨p1, v1, c1, i1, w1, cc1, s1⟩ := body_calls ok0 (body seen e.datum).1 i w (hb seen e.datum)
      simp only [strIterate, if_neg hp0, hget, Res.bind, c1]
      cases hst : (body seen e.datum).2 with
      | true =>
        refine ⟨p1, v1, [e.datum], rest.map (fun c => c.2.datum), true, by simp, by simpa using i1, s1, by simp, by simp, ?_, by simp⟩
        intro pre x post h
        rcases List.cons_eq_append_iff.1 h with ⟨rfl, h'⟩ | ⟨l, rfl, h'⟩
        · simp only [List.cons.injEq] at h'
          obtain ⟨rfl, rfl⟩ := h'
          simpa using hst
        · simp at h'
      | false =>
        simp only [Bool.false_eq_true, if_false]
        obtain ⟨t1, r1, n1, sl1, ro1⟩ := w1
        rcases HashHeap.nextPosition_ok r1 sl1 (by rw [n1]; exact hat) with ⟨f1, f2⟩ | ⟨q, f1, f2, f3⟩
        · cases k with
          | zero => simp at hk
          | succ k =>
            refine ⟨{ p1 with tab := { p1.tab with readonly := 0 } }, v1, [e.datum], [], false, ?_, by simpa using i1.setRo 0, s1, by simp [f1], by simp, ?_, by simp⟩
            · simp only [poolNext, f2, Res.bind, strIterate, if_true]
            · intro pre x post h
              rcases List.cons_eq_append_iff.1 h with ⟨rfl, h'⟩ | ⟨l, rfl, h'⟩
              · simp only [List.cons.injEq] at h'
                obtain ⟨rfl, rfl⟩ := h'
                simpa using hst
              · simp at h'
        · obtain ⟨p2, v2, log, rst, st, g1, g2, g3, g4, g5, g6, g7⟩ := ih k p1 v1 q (seen ++ [e.datum]) (by simp at hk; omega) i1 ⟨t1, r1, n1, sl1, ro1⟩ (n1 ▸ f3)
          refine ⟨p2, v2, e.datum :: log, rst, st, ?_, g2, fun x hx => g3 x (s1 x hx), by simp [g4], g5, ?_, by simp⟩
          · simp only [poolNext, f2, Res.bind]
            rw [g1]
            simp
          · intro pre x post h
            rcases List.cons_eq_append_iff.1 h with ⟨rfl, h'⟩ | ⟨l, rfl, h'⟩
            · simp only [List.cons.injEq] at h'
              obtain ⟨rfl, rfl⟩ := h'
              rw [List.append_nil, hst]
              cases st with
              | false => rfl
              | true =>
                cases post with
                | nil =>
                  -- stopped without another string shown: impossible
                  exact absurd rfl g7
                | cons y l => rfl
            · have := g6 l x post h'
              simpa using this

theorem cells_lt_clock {K D : Type} {h : Heap (Entry K D)} {ht : HTab} {t : Tab.Tab K D} {A} (r : HRep h ht t A) :
    (cellsFrom t.prime 0 A).length < h.clock := by
  have hnd : ((cellsFrom t.prime 0 A).map Prod.fst).Nodup := by
    unfold cellsFrom
    rw [List.drop_zero, List.map_flatMap]
    rw [List.nodup_flatMap]
    refine ⟨fun j hj => Heap.Chain.nodup (r.chain j (List.mem_range.1 hj)), ?_⟩
    refine List.Pairwise.imp_of_mem ?_ List.nodup_range
    intro a b ha hb hab x hx hx'
    exact r.disj a (List.mem_range.1 ha) b (List.mem_range.1 hb) hab x hx hx'
  have := r.ok.length_lt hnd fun a ha => by
    obtain ⟨c, hc, rfl⟩ := List.mem_map.1 ha
    unfold cellsFrom at hc
    rw [List.drop_zero, List.mem_flatMap] at hc
    obtain ⟨j, hj, hc⟩ := hc
    obtain ⟨-, nx, h2⟩ := HashHeap.cell_mem r (List.mem_range.1 hj) (p := c.1) (e := c.2) hc
    rw [h2]; rfl
  simpa using this

/-- the first position of a pool that holds strings, and the cells to visit -/
theorem PInv.start (i : PInv h0 hh0 p v M ro) :
    (M = [] ∧ poolInit p = (p, 0)) ∨
    (M ≠ [] ∧ ∃ (pos n : Nat) (A : Nat → List (Nat × Entry SKey Ptr)) (rem : List (Nat × Entry SKey Ptr)), pos ≠ 0 ∧
      poolInit p = ({ p with tab := { p.tab with readonly := 1 } }, pos) ∧
      At n A pos rem ∧ Walk A n p.cells { p.tab with readonly := 1 } ∧ rem.length < p.cells.clock ∧
      (∀ i < n, ∀ c ∈ A i, c.2.key = .stored c.2.datum) ∧ (rem.map fun c => c.2.datum).Perm (M.map Prod.snd)) := by
  obtain ⟨ms, ⟨t, A, r, sim, ow⟩, hm, hr⟩ := i.sim
  have hkeys : ∀ e ∈ Tab.all t, e.key = .stored e.datum := by
    intro e he
    have : (e.key, e.datum) ∈ ms.map := sim.rep.perm.subset (by
      simp only [Tab.pairsOf, List.mem_map]; exact ⟨e, he, rfl⟩)
    rw [hm] at this
    simp only [tabMap, List.mem_map, Prod.mk.injEq] at this
    obtain ⟨x, -, h1, h2⟩ := this
    rw [← h1, h2]
  have hcells : ((cellsFrom t.prime 0 A).map fun c => c.2.datum).Perm (M.map Prod.snd) := by
    have h1 := sim.rep.perm.map Prod.snd
    rw [hm] at h1
    have h2 : (cellsFrom t.prime 0 A).map (fun c => c.2.datum) = (Tab.pairsOf t).map Prod.snd := by
      rw [Tab.pairsOf, ← HashHeap.cells_map r, List.map_map, List.map_map]; rfl
    have h3 : (tabMap M).map Prod.snd = M.map Prod.snd := by simp [tabMap]
    rw [h2, ← h3]; exact h1
  rcases HashHeap.initPosition_ok r with ⟨g1, g2⟩ | ⟨pos, g1, g2, g3⟩
  · left
    refine ⟨?_, by simp only [poolInit]; rw [show HashHeap.initPosition p.tab = (p.tab, 0) from g2]⟩
    rw [g1] at hcells
    simpa using hcells.symm.eq_nil
  · right
    refine ⟨?_, pos, t.prime, A, cellsFrom t.prime 0 A, g1, ?_, g3,
      ⟨{ t with readonly := 1 }, r.withRo 1, rfl, fun j hj e he => (sim.rep.inv.slot j hj e he).2, rfl⟩, cells_lt_clock r, ?_, hcells⟩
    · rintro rfl
      obtain ⟨e, rest, h1, -⟩ := g3.cell
      rw [h1] at hcells
      simpa using hcells.eq_nil
    · simp only [poolInit]
      rw [show HashHeap.initPosition p.tab = _ from g2]
    · intro j hj c hc
      refine hkeys c.2 ?_
      rw [← HashHeap.cells_map r]
      refine List.mem_map.2 ⟨c, ?_, rfl⟩
      unfold cellsFrom
      rw [List.drop_zero, List.mem_flatMap]
      exact ⟨j, List.mem_range.2 hj, hc⟩

end Maa.StrPool
