import Verif.Model.HashStats
import Verif.Lemmas.NameTab

namespace Maa.HashHeap

open Tab (Entry Stats Tab)

variable {K D : Type}

theorem countChain_ok {h : Heap (Entry K D)} {l : List (Nat × Entry K D)} : ∀ {n p c : Nat}, Heap.Chain h.mem p l → l.length < n →
    countChain n h p c = .ok (c + l.length) := by
  induction l with
  | nil =>
    intro n p c hc hn
    obtain ⟨n, rfl⟩ : ∃ k, n = k + 1 := ⟨n - 1, by simp at hn; omega⟩
    have : p = 0 := hc
    simp [countChain, this]
  | cons x l ih =>
    intro n p c hc hn
    obtain ⟨n, rfl⟩ : ∃ k, n = k + 1 := ⟨n - 1, by simp at hn; omega⟩
    obtain ⟨h1, h2, nx, h3, h4⟩ := hc
    have hp : p ≠ 0 := by rw [h1]; exact h2
    simp only [countChain, if_neg hp, Heap.read_ok (h1 ▸ h3), Res.bind]
    rw [ih h4 (by simp at hn; omega)]
    simp only [List.length_cons, Res.ok.injEq]
    omega

theorem statsLoop_ok {h : Heap (Entry K D)} {ht : HTab} {t : Tab K D} {A} (r : HRep h ht t A) (l : List Nat) (hl : ∀ i ∈ l, i < t.prime) :
    ∀ s, statsLoop h ht l s = .ok (l.foldl (Tab.statsStep t) s) := by
  induction l with
  | nil => intro s; rfl
  | cons i l ih =>
    intro s
    have hi := hl i (by simp)
    have hch := r.chain i hi
    have hen := r.ents i hi
    have hlen : (A i).length = (t.buckets i).length := by rw [← hen, List.length_map]
    simp only [statsLoop, List.foldl_cons, Tab.statsStep]
    cases hA : A i with
    | nil =>
      rw [hA] at hch hen
      have h0 : ht.buckets i = 0 := hch
      simp only [List.map_nil] at hen
      rw [if_pos h0, ih fun j hj => hl j (by simp [hj])]
      simp [← hen]
    | cons x xs =>
      rw [hA] at hch hen hlen
      have h0 : ht.buckets i ≠ 0 := by
        rw [hch.1]; exact hch.2.1
      rw [if_neg h0, countChain_ok hch (Heap.Chain.length_lt r.ok hch)]
      simp only [Res.bind, Nat.zero_add, hlen]
      have hne : (t.buckets i).isEmpty = false := by rw [← hen]; rfl
      rw [ih fun j hj => hl j (by simp [hj])]
      simp [hne]

/-- counting the cells gives what counting the chains gives -/
theorem hgetStats_ok {h : Heap (Entry K D)} {ht : HTab} {t : Tab K D} {A} (r : HRep h ht t A) : hgetStats h ht = Tab.getStats t := by
  unfold hgetStats Tab.getStats
  rw [statsLoop_ok r _ (fun i hi => by rw [List.mem_range, r.prime] at hi; exact hi)]
  simp only [Res.bind, r.prime, r.entries, r.resizings, r.retrievals, r.hits, r.misses]

theorem hgrow_fields {h h' : Heap (Entry K D)} {t t' : HTab} (hg : hgrow h t = .ok (h', t')) :
    t'.retrievals = t.retrievals ∧ t'.hits = t.hits ∧ t'.misses = t.misses := by
  unfold hgrow at hg
  by_cases hc : t.entries * 2 > t.prime
  · rw [if_pos hc] at hg
    cases h1 : hcreate (t.prime * 3) with
    | ok new =>
      rw [h1] at hg
      simp only [Res.bind] at hg
      cases h2 : copyAll h.clock t.buckets (List.range t.prime) h new with
      | ok r =>
        rw [h2] at hg
        simp only at hg
        cases h3 : freeAll h.clock t.buckets (List.range t.prime) r.1 with
        | ok h3' => rw [h3] at hg; simp only [Res.ok.injEq, Prod.mk.injEq] at hg; rw [← hg.2]; exact ⟨rfl, rfl, rfl⟩
        | _ => rw [h3] at hg; simp at hg
      | _ => rw [h2] at hg; simp at hg
    | _ => rw [h1] at hg; simp [Res.bind] at hg
  · rw [if_neg hc] at hg
    simp only [Res.ok.injEq, Prod.mk.injEq] at hg
    rw [← hg.2]; exact ⟨rfl, rfl, rfl⟩

theorem hinsert_fields {ops : KeyOps K} {h : Heap (Entry K D)} {t : HTab} {k : K} {d : D} {r : (Heap (Entry K D) × HTab) × Int}
    (hi : hinsert ops h t k d = .ok r) :
    r.1.2.retrievals = t.retrievals ∧ r.1.2.hits = t.hits ∧ r.1.2.misses = t.misses := by
  unfold hinsert at hi
  simp only at hi
  by_cases hro : t.readonly ≠ 0
  · rw [if_pos hro] at hi; simp at hi
  rw [if_neg hro] at hi
  cases hg : hgrow h t with
  | ok g =>
    rw [hg] at hi
    simp only [Res.bind] at hi
    have gf := hgrow_fields (h' := g.1) (t' := g.2) hg
    by_cases hp : g.2.prime = 0
    · rw [if_pos hp] at hi; simp at hi
    rw [if_neg hp] at hi
    cases hf : findLoop ops k g.1.clock g.1 0 (g.2.buckets (ops.hash k % g.2.prime)) with
    | ok f =>
      rw [hf] at hi
      cases f with
      | some _ => simp only [Res.ok.injEq] at hi; rw [← hi]; exact gf
      | none => simp only [Res.ok.injEq] at hi; rw [← hi]; exact gf
    | _ => rw [hf] at hi; simp at hi
  | _ => rw [hg] at hi; simp [Res.bind] at hi

theorem hretrieve_fields {ops : KeyOps K} {h : Heap (Entry K D)} {t : HTab} {k : K} {r : (Heap (Entry K D) × HTab) × Option D}
    (hi : hretrieve ops h t k = .ok r) :
    r.1.2.retrievals = t.retrievals + 1 ∧ r.1.2.misses = t.misses + (if r.2.isSome then 0 else 1) ∧
    t.hits ≤ r.1.2.hits ∧ r.1.2.hits ≤ t.hits + (if r.2.isSome then 1 else 0) := by
  unfold hretrieve at hi
  by_cases hp : t.prime = 0
  · rw [if_pos hp] at hi; simp at hi
  rw [if_neg hp] at hi
  simp only at hi
  cases hf : findLoop ops k h.clock h 0 (t.buckets (ops.hash k % t.prime)) with
  | ok f =>
    rw [hf] at hi
    simp only [Res.bind] at hi
    cases f with
    | none => simp only [Res.ok.injEq] at hi; rw [← hi]; simp
    | some x =>
      obtain ⟨prev, pt, c⟩ := x
      simp only at hi
      by_cases h0 : prev = 0
      · rw [if_pos h0] at hi; simp only [Res.ok.injEq] at hi; rw [← hi]; simp
      · rw [if_neg h0] at hi
        by_cases hro : t.readonly = 0
        · rw [if_pos hro] at hi
          cases h1 : h.read prev with
          | ok pc =>
            rw [h1] at hi
            simp only at hi
            cases h2 : h.write prev (pc.1, c.2) with
            | ok g =>
              rw [h2] at hi
              simp only at hi
              cases h3 : g.write pt (c.1, t.buckets (ops.hash k % t.prime)) with
              | ok g' => rw [h3] at hi; simp only [Res.ok.injEq] at hi; rw [← hi]; simp
              | _ => rw [h3] at hi; simp at hi
            | _ => rw [h2] at hi; simp at hi
          | _ => rw [h1] at hi; simp at hi
        · rw [if_neg hro] at hi; simp only [Res.ok.injEq] at hi; rw [← hi]; simp
  | _ => rw [hf] at hi; simp [Res.bind] at hi

end Maa.HashHeap
