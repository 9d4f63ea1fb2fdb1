import Verif.Model.StrStats
import Verif.Lemmas.StrPool
import Verif.Lemmas.HashStats
import Verif.Lemmas.TabStats

namespace Maa.StrPool

open CStr (cstr)
open StrMem (Mem SInfo)
open HashHeap (HTab PSim HRep)
open Tab (Entry)

variable {h0 : Mem} {hh0 : Heap (Entry SKey Ptr)} {p : Pool} {v : Spec.StrView} {M : List (List Byte × Nat)} {ro : Int}

/-- the statistics of a pool exist and are the counters -/
theorem PInv.stats (i : PInv h0 hh0 p v M ro) : getStats (some p) =
    .ok { count := p.str.count, bytes := p.str.bytes, retrievals := p.tab.retrievals, hits := p.tab.hits, misses := p.tab.misses } := by
  obtain ⟨ms, ⟨t, A, r, sim, ow⟩, hm, hr⟩ := i.sim
  have h1 := HashHeap.hgetStats_ok r
  obtain ⟨-, -, -, -, -, e5, -⟩ := Tab.stats_fold t (List.range t.prime)
    { size := t.prime, resizings := t.resizings, entries := 0, buckets_used := 0, singletons := 0,
      maximum_length := 0, retrievals := t.retrievals, hits := t.hits, misses := t.misses }
  simp only at e5 h1
  have hc := sim.rep.inv.count
  have h2 : ∃ s, Tab.getStats t = .ok s := by
    unfold Tab.getStats
    simp only
    rw [if_neg (by rw [e5, hc]; simp [Tab.all])]
    exact ⟨_, rfl⟩
  obtain ⟨s, h2⟩ := h2
  obtain ⟨-, -, -, a4, a5, a6⟩ := Tab.getStats_fields h2
  simp only [getStats, h1, h2, Res.bind, StrMem.stats, a4, a5, a6]
  have := r.retrievals
  have := r.hits
  have := r.misses
  simp_all

theorem PInv.retrieve_counts (i : PInv h0 hh0 p v M ro) {t : List Byte} (ht : (0 : Byte) ∉ t)
    {p' : Pool} {d : Nat} (h : StrPool.retrieve p (.arg t) = .ok (p', d)) :
    p'.str = p.str ∧ p'.tab.retrievals = p.tab.retrievals + 1 ∧
    p'.tab.misses = p.tab.misses + (if (lookup M t).isSome then 0 else 1) ∧
    p.tab.hits ≤ p'.tab.hits ∧ p'.tab.hits ≤ p.tab.hits + (if (lookup M t).isSome then 1 else 0) := by
  obtain ⟨ms, hs, hm, hr⟩ := i.sim
  have h1 := HashHeap.heapStep_sim (ops_lawful p.mem) hh0 _ ms (.retrieve (.arg t)) hs
  have hf := find_tabMap i (.arg t)
  have hc : StrPool.content p.mem (.arg t) = t := takeWhile_id ht
  rw [hc] at hf
  simp only [Spec.hashStep, hm, hf, HashHeap.heapStep] at h1
  unfold StrPool.retrieve at h
  rw [if_neg (by simp [i.keysReadable])] at h
  cases hq : HashHeap.hretrieve (ops p.mem) p.cells p.tab (.arg t) with
  | ok q =>
    rw [hq] at h1 h
    have hfl := HashHeap.hretrieve_fields hq
    simp only [Res.bind, Res.ok.injEq, Prod.mk.injEq] at h h1
    obtain ⟨h, -⟩ := h
    have old : p.tab.misses = ms.misses := by
      obtain ⟨t, A, r, sim, -⟩ := hs
      exact r.misses.trans sim.miss
    have key : (lookup M t).isSome = q.2.isSome := by
      cases hl : lookup M t with
      | none =>
        rw [hl] at h1
        simp only [Spec.ResRel] at h1
        obtain ⟨-, t', A', r', sim', -⟩ := h1
        have new : q.1.2.misses = ms.misses + 1 := r'.misses.trans sim'.miss
        rw [hfl.2.1, old] at new
        cases hz : q.2 <;> rw [hz] at new <;> simp at new ⊢
      | some d =>
        rw [hl] at h1
        simp only [Spec.ResRel] at h1
        obtain ⟨-, t', A', r', sim', -⟩ := h1
        have new : q.1.2.misses = ms.misses := r'.misses.trans sim'.miss
        rw [hfl.2.1, old] at new
        cases hz : q.2 <;> rw [hz] at new <;> simp at new ⊢
    rw [← h, key]
    exact ⟨rfl, hfl⟩
  | _ => rw [hq] at h; simp [Res.bind] at h

theorem insert_counts {d : Nat} {p' : Pool} (h : StrPool.insert p d = .ok p') :
    p'.str = p.str ∧ p'.tab.retrievals = p.tab.retrievals ∧ p'.tab.misses = p.tab.misses ∧ p'.tab.hits = p.tab.hits := by
  unfold StrPool.insert at h
  split at h
  · simp at h
  · cases hq : HashHeap.hinsert (ops p.mem) p.cells p.tab (.stored d) d with
    | ok q =>
      rw [hq] at h
      simp only [Res.bind, Res.ok.injEq] at h
      obtain ⟨a1, a2, a3⟩ := HashHeap.hinsert_fields hq
      rw [← h]
      exact ⟨rfl, a1, a3, a2⟩
    | _ => rw [hq] at h; simp [Res.bind] at h

theorem grow_counts {h : Mem} {i : SInfo} {s : List Byte} {n : Nat} {r : Mem × SInfo} (hg : StrMem.grow h i s n = .ok r) :
    r.2.count = i.count ∧ r.2.bytes = i.bytes + n := by
  have bnd : ∀ {α β : Type} {x : Res α} {f : α → Res β} {b : β}, x.bind f = .ok b → ∃ a, x = .ok a ∧ f a = .ok b := by
    intro α β x f b e
    cases x with
    | ok a => exact ⟨a, rfl, e⟩
    | _ => cases e
  unfold StrMem.grow at hg
  split at hg
  · simp at hg
  · simp only at hg
    split at hg
    · split at hg
      · obtain ⟨_, -, e⟩ := bnd hg
        cases e; exact ⟨rfl, rfl⟩
      · obtain ⟨_, -, e⟩ := bnd hg
        obtain ⟨_, -, e⟩ := bnd e
        obtain ⟨_, -, e⟩ := bnd e
        cases e; exact ⟨rfl, rfl⟩
    · obtain ⟨_, -, e⟩ := bnd hg
      cases e; exact ⟨rfl, rfl⟩

theorem iterLoop_counts (f : List Nat → Nat → Int) (stop : HTab → HTab)
    (hstop : ∀ t, (stop t).retrievals = t.retrievals ∧ (stop t).misses = t.misses ∧ (stop t).hits = t.hits) :
    ∀ (n : Nat) (h : Heap (Entry SKey Ptr)) (t : HTab) (pos : Nat) (seen : List (Nat × Int)) (r),
    iterLoop f stop n h t pos seen = .ok r → r.1.retrievals = t.retrievals ∧ r.1.misses = t.misses ∧ r.1.hits = t.hits := by
  have hnext : ∀ (h : Heap (Entry SKey Ptr)) (t : HTab) (pos : Nat) (q : HTab × Nat), HashHeap.nextPosition h t pos = .ok q →
      q.1.retrievals = t.retrievals ∧ q.1.misses = t.misses ∧ q.1.hits = t.hits := by
    intro h t pos q hq
    unfold HashHeap.nextPosition at hq
    split at hq
    · simp only [Res.ok.injEq] at hq; rw [← hq]; exact ⟨rfl, rfl, rfl⟩
    · cases h1 : h.read pos with
      | ok b =>
        rw [h1] at hq
        simp only [Res.bind] at hq
        split at hq
        · simp only [Res.ok.injEq] at hq; rw [← hq]; exact ⟨rfl, rfl, rfl⟩
        · split at hq
          · simp at hq
          · split at hq <;> (simp only [Res.ok.injEq] at hq; rw [← hq]; exact ⟨rfl, rfl, rfl⟩)
      | _ => rw [h1] at hq; simp [Res.bind] at hq
  intro n
  induction n with
  | zero => intro h t pos seen r hr; simp [iterLoop] at hr
  | succ n ih =>
    intro h t pos seen r hr
    simp only [iterLoop] at hr
    split at hr
    · simp only [Res.ok.injEq] at hr; rw [← hr]; exact ⟨rfl, rfl, rfl⟩
    · cases hg : HashHeap.getPosition h pos with
      | ok kd =>
        rw [hg] at hr
        simp only [Res.bind] at hr
        cases hk : kd.1 with
        | arg s => rw [hk] at hr; simp at hr
        | stored key =>
          rw [hk] at hr
          simp only at hr
          split at hr
          · simp only [Res.ok.injEq] at hr; rw [← hr]; exact hstop t
          · cases hn : HashHeap.nextPosition h t pos with
            | ok q =>
              rw [hn] at hr
              obtain ⟨a1, a2, a3⟩ := hnext _ _ _ _ hn
              obtain ⟨b1, b2, b3⟩ := ih _ _ _ _ _ hr
              exact ⟨b1.trans a1, b2.trans a2, b3.trans a3⟩
            | _ => rw [hn] at hr; simp at hr
      | _ => rw [hg] at hr; simp [Res.bind] at hr

theorem initPosition_counts (t : HTab) : (HashHeap.initPosition t).1.retrievals = t.retrievals ∧
    (HashHeap.initPosition t).1.misses = t.misses ∧ (HashHeap.initPosition t).1.hits = t.hits := by
  unfold HashHeap.initPosition
  simp only
  split <;> exact ⟨rfl, rfl, rfl⟩

end Maa.StrPool
