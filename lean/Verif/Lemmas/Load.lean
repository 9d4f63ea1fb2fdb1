import Verif.Lemmas.Tab
import Verif.Props.Prime

namespace Maa.Tab

variable {K D : Type}

/-! load -/

/-- at most half the size of the table plus one entries -/
structure Load (t : Tab K D) : Prop where
  half : t.entries * 2 ≤ t.prime + 2
  pos : 1 ≤ t.prime

/-- The largest number of entries for which the next size is certainly found: the search starts at three times the old size,
which is below six times the number of entries. -/
abbrev many : Nat := 715827880

theorem insert_load {ops : KeyOps K} {t t' : Tab K D} {k : K} {d : D} {r : Int}
    (h : Load t) (hn : t'.entries ≤ many) (hi : insert ops t k d = .ok (t', r)) :
    Load t' ∧ t.entries ≤ t'.entries := by
  unfold insert at hi
  simp only at hi
  by_cases hro : t.readonly ≠ 0
  · rw [if_pos hro] at hi; simp at hi
  · rw [if_neg hro] at hi
    -- growth
    have hg : t.entries ≤ many → ∃ t1, Tab.grow t = Res.ok t1 ∧ t1.entries = t.entries ∧ t1.entries * 2 ≤ t1.prime ∧ 1 ≤ t1.prime := by
      intro hm
      unfold Tab.grow
      by_cases hc : t.entries * 2 > t.prime
      · rw [if_pos hc]
        obtain ⟨nt, hn1, hn2, hn3, -⟩ := Tab.create_ok (K := K) (D := D) (t.prime * 3)
        have hpos := h.pos
        have hhalf := h.half
        obtain ⟨p, hp1, ⟨hp2, -⟩⟩ := Prime.C02_next_prime_least_partial (t.prime * 3)
          (by omega) (by simp only [many] at hm; omega)
        rw [hn3] at hp1
        simp only [Option.some.injEq] at hp1
        have hfp := Tab.foldl_push_prime (Tab.all t) nt
        simp only [Tab.resize, hn1, Res.bind_ok, Res.pure_eq]
        refine ⟨_, rfl, rfl, ?_, ?_⟩ <;> simp only [hfp] <;> omega
      · rw [if_neg hc]
        exact ⟨t, rfl, rfl, by omega, h.pos⟩
    have hge : ∀ t1, Tab.grow t = Res.ok t1 → t1.entries = t.entries := by
      intro t1 hg1
      unfold Tab.grow at hg1
      split at hg1
      · obtain ⟨nt, hn1, -⟩ := Tab.create_ok (K := K) (D := D) (t.prime * 3)
        simp only [Tab.resize, hn1, Res.bind_ok, Res.pure_eq, Res.ok.injEq] at hg1
        rw [← hg1]
      · simp only [Res.ok.injEq] at hg1
        rw [hg1]
    cases hgr : Tab.grow t with
    | ok t1 =>
      rw [hgr] at hi
      simp only [Res.bind] at hi
      have g0 := hge t1 hgr
      have hmono : t.entries ≤ t'.entries := by
        split at hi
        · simp at hi
        · split at hi <;> simp only [Res.ok.injEq, Prod.mk.injEq] at hi <;> rw [← hi.1] <;> (try simp only [Tab.push]) <;> omega
      obtain ⟨t2, g1, g2, g3, g4⟩ := hg (by omega)
      rw [hgr] at g1
      cases g1
      refine ⟨?_, hmono⟩
      split at hi
      · simp at hi
      · split at hi
        · simp only [Res.ok.injEq, Prod.mk.injEq] at hi
          rw [← hi.1]
          exact ⟨by omega, by omega⟩
        · simp only [Res.ok.injEq, Prod.mk.injEq] at hi
          rw [← hi.1]
          refine ⟨?_, ?_⟩ <;> simp only [Tab.push] <;> omega
    | abort => rw [hgr] at hi; simp [Res.bind] at hi
    | fatal => rw [hgr] at hi; simp [Res.bind] at hi
    | ub => rw [hgr] at hi; simp [Res.bind] at hi

theorem insert_mono {ops : KeyOps K} {t t' : Tab K D} {k : K} {d : D} {r : Int}
    (hi : insert ops t k d = .ok (t', r)) : t.entries ≤ t'.entries := by
  unfold insert at hi
  simp only at hi
  by_cases hro : t.readonly ≠ 0
  · rw [if_pos hro] at hi; simp at hi
  · rw [if_neg hro] at hi
    have hge : ∀ t1, Tab.grow t = Res.ok t1 → t1.entries = t.entries := by
      intro t1 hg1
      unfold Tab.grow at hg1
      split at hg1
      · obtain ⟨nt, hn1, -⟩ := Tab.create_ok (K := K) (D := D) (t.prime * 3)
        simp only [Tab.resize, hn1, Res.bind_ok, Res.pure_eq, Res.ok.injEq] at hg1
        rw [← hg1]
      · simp only [Res.ok.injEq] at hg1
        rw [hg1]
    cases hgr : Tab.grow t with
    | ok t1 =>
      rw [hgr] at hi
      simp only [Res.bind] at hi
      have g0 := hge t1 hgr
      split at hi
      · simp at hi
      · split at hi <;> simp only [Res.ok.injEq, Prod.mk.injEq] at hi <;> rw [← hi.1] <;> (try simp only [Tab.push]) <;> omega
    | abort => rw [hgr] at hi; simp [Res.bind] at hi
    | fatal => rw [hgr] at hi; simp [Res.bind] at hi
    | ub => rw [hgr] at hi; simp [Res.bind] at hi

theorem delete_load {ops : KeyOps K} {t t' : Tab K D} {k : K} {r : Int}
    (h : Load t) (hs : delete ops t k = .ok (t', r)) : Load t' := by
  simp only [delete] at hs
  split at hs
  · simp at hs
  · split at hs
    · simp at hs
    · have e1 := h.half
      have e2 := h.pos
      split at hs <;> simp at hs <;> rw [← hs.1] <;>
        refine ⟨?_, ?_⟩ <;> (try simp only) <;> omega

theorem retrieve_load {ops : KeyOps K} {t t' : Tab K D} {k : K} {r : Option D}
    (h : Load t) (hs : retrieve ops t k = .ok (t', r)) : Load t' := by
  have key : ∀ r, Tab.retrieve ops t k = .ok r → r.1.entries = t.entries ∧ r.1.prime = t.prime := by
    intro r hr
    unfold Tab.retrieve at hr
    split at hr
    · simp at hr
    · simp only at hr
      split at hr
      · simp at hr; rw [← hr]; simp
      · split at hr
        · simp at hr; rw [← hr]; simp
        · split at hr
          · split at hr <;> simp at hr <;> rw [← hr] <;> simp
          · simp at hr; rw [← hr]; simp
  obtain ⟨e1, e2⟩ := key _ hs
  simp only at e1 e2
  have a1 := h.half
  have a2 := h.pos
  exact ⟨by omega, by omega⟩

theorem create_load {t : Tab K D} (hc : create 0 = .ok t) : Load t := by
  unfold create at hc
  rw [Prime.C02_refuted_small.1] at hc
  simp only [Res.ok.injEq] at hc
  rw [← hc]
  exact ⟨by simp, by simp⟩

end Maa.Tab
