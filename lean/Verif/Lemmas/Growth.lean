import Verif.Lemmas.HashPos
import Verif.Lemmas.OomCount
import Verif.Lemmas.Load
import Verif.Spec.Growth

/-! # What growing costs -/

namespace Maa.HashHeap

open Tab (Entry Tab)

variable {K D : Type}

theorem copyChain_clock : ∀ (n : Nat) {h h' : Heap (Entry K D)} {new new' : HTab} {pt : Nat},
    copyChain n h new pt = .ok (h', new') → h'.clock + new.entries = h.clock + new'.entries := by
  intro n
  induction n with
  | zero => intro h h' new new' pt e; simp [copyChain] at e
  | succ n ih =>
    intro h h' new new' pt e
    rw [copyChain] at e
    split at e
    · simp only [Res.ok.injEq, Prod.mk.injEq] at e
      rw [← e.1, ← e.2]
    · simp only [Res.bind_ok_iff] at e
      obtain ⟨c, -, c', -, e⟩ := e
      have := ih e
      simp only [hpush, Heap.alloc] at this
      omega

theorem copyAll_clock (n : Nat) (b : Nat → Nat) : ∀ (is : List Nat) {h h' : Heap (Entry K D)} {new new' : HTab},
    copyAll n b is h new = .ok (h', new') → h'.clock + new.entries = h.clock + new'.entries := by
  intro is
  induction is with
  | nil =>
    intro h h' new new' e
    simp only [copyAll, Res.ok.injEq, Prod.mk.injEq] at e
    rw [← e.1, ← e.2]
  | cons i is ih =>
    intro h h' new new' e
    simp only [copyAll, Res.bind_ok_iff] at e
    obtain ⟨⟨h1, n1⟩, e1, e2⟩ := e
    have := copyChain_clock n e1
    have := ih e2
    simp only at this
    omega

theorem foldl_push_entries (l : List (Entry K D)) : ∀ (t : Tab K D), (l.foldl Tab.push t).entries = t.entries + l.length := by
  induction l with
  | nil => intro t; rfl
  | cons a l ih => intro t; rw [List.foldl_cons, ih]; simp [Tab.push]; omega

/-- what growing does to the numbers -/
structure Grown (h : Heap (Entry K D)) (t : HTab) (h' : Heap (Entry K D)) (t' : HTab) : Prop where
  entries : t'.entries = t.entries
  cases : (t.entries * 2 > t.prime ∧ Prime.prmNextPrime (t.prime * 3) = some t'.prime ∧ h'.clock = h.clock + t.entries ∧
      t'.resizings = t.resizings + 1) ∨
    (t.entries * 2 ≤ t.prime ∧ t'.prime = t.prime ∧ h'.clock = h.clock ∧ t'.resizings = t.resizings)

theorem hgrow_grown {h h' : Heap (Entry K D)} {ht ht' : HTab} {t : Tab K D} {A} (r : HRep h ht t A) (cnt : t.entries = (Tab.all t).length)
    (e : hgrow h ht = .ok (h', ht')) : Grown h ht h' ht' := by
  unfold hgrow at e
  by_cases hc : ht.entries * 2 > ht.prime
  · rw [if_pos hc] at e
    simp only [Res.bind_ok_iff, Res.ok.injEq, Prod.mk.injEq] at e
    obtain ⟨new, e1, ⟨h1, n1⟩, e2, h2, e3, e4, e5⟩ := e
    obtain ⟨nt, n, c1, -, c3, c4⟩ := hcreate_hrep (D := D) h r.ok (ht.prime * 3)
    rw [e1] at c1
    cases c1
    obtain ⟨h1', ht1, A1, i1, i2, -, -⟩ := copyAll_ok h.mem ht.buckets A h.clock
      (List.range ht.prime) h new n _ c4 c3
      (fun i hi => by
        have hi := List.mem_range.1 hi
        rw [r.prime] at hi
        exact ⟨Heap.Chain.length_lt r.ok (r.chain i hi), r.chain i hi⟩)
      ⟨fun _ _ => rfl, by rintro a ⟨i, hi, ha⟩; simp at ha, fun a h1 h2 => by rw [h1] at h2; simp at h2⟩
    rw [e2] at i1
    cases i1
    have hall : ((List.range ht.prime).flatMap fun i => (A i).map Prod.snd) = Tab.all t := by
      unfold Tab.all
      rw [r.prime, List.flatMap_def, List.flatMap_def]
      congr 1
      apply List.map_congr_left
      intro i hi
      exact r.ents i (List.mem_range.1 hi)
    rw [hall] at i2
    have hent := i2.entries
    rw [foldl_push_entries, ← cnt, ← r.entries] at hent
    have hn0 : new.entries = 0 ∧ Prime.prmNextPrime (ht.prime * 3) = some new.prime := by
      unfold hcreate at e1
      split at e1
      · simp at e1
      · rename_i p hp
        simp only [Res.ok.injEq] at e1
        rw [← e1]
        exact ⟨rfl, hp⟩
    have hn1 : n.entries = 0 := by rw [← c4.entries]; exact hn0.1
    have hcl := copyAll_clock _ _ _ e2
    have hfc := Oom.freeAll_clock _ _ _ e3
    simp only at hfc
    have hpr : n1.prime = new.prime := by rw [i2.prime, Tab.foldl_push_prime, c4.prime]
    refine ⟨by rw [← e5], Or.inl ⟨hc, by rw [← e5]; simp only; rw [hpr]; exact hn0.2, ?_, by rw [← e5]⟩⟩
    rw [← e4]
    omega
  · rw [if_neg hc] at e
    simp only [Res.ok.injEq, Prod.mk.injEq] at e
    rw [← e.1, ← e.2]
    exact ⟨rfl, Or.inr ⟨by omega, rfl, rfl, rfl⟩⟩

theorem hinsert_cost {ops : KeyOps K} {h h' : Heap (Entry K D)} {ht ht' : HTab} {t : Tab K D} {A} {k : K} {d : D} {x : Int} (r : HRep h ht t A)
    (cnt : t.entries = (Tab.all t).length) (e : hinsert ops h ht k d = .ok ((h', ht'), x)) :
    ∃ h1 t1, Grown h ht h1 t1 ∧ ht'.prime = t1.prime ∧ ht'.resizings = t1.resizings ∧
      ((x = 0 ∧ ht'.entries = t1.entries + 1 ∧ h'.clock = h1.clock + 1) ∨ (x ≠ 0 ∧ ht'.entries = t1.entries ∧ h'.clock = h1.clock)) := by
  unfold hinsert at e
  simp only at e
  split at e
  · simp at e
  · simp only [Res.bind_ok_iff] at e
    obtain ⟨⟨h1, t1⟩, g, e⟩ := e
    refine ⟨h1, t1, hgrow_grown r cnt g, ?_⟩
    split at e
    · simp at e
    · simp only [Res.bind_ok_iff] at e
      obtain ⟨f, -, e⟩ := e
      cases f with
      | some c =>
        simp only [Res.ok.injEq, Prod.mk.injEq] at e
        obtain ⟨⟨rfl, rfl⟩, rfl⟩ := e
        exact ⟨rfl, rfl, Or.inr ⟨by decide, rfl, rfl⟩⟩
      | none =>
        simp only [hpush, Heap.alloc, Res.ok.injEq, Prod.mk.injEq] at e
        obtain ⟨⟨rfl, rfl⟩, rfl⟩ := e
        exact ⟨rfl, rfl, Or.inl ⟨rfl, rfl, rfl⟩⟩

theorem hdelete_cost {ops : KeyOps K} {h : Heap (Entry K D)} {t : HTab} {k : K} {r : (Heap (Entry K D) × HTab) × Int}
    (e : hdelete ops h t k = .ok r) : r.1.1.clock = h.clock ∧ r.1.2.resizings = t.resizings ∧ r.1.2.prime = t.prime ∧ r.1.2.entries ≤ t.entries := by
  obtain ⟨h1, h2⟩ := Oom.hdelete_same e
  refine ⟨h1, h2, ?_⟩
  unfold hdelete at e
  simp only at e
  split at e
  · simp at e
  · split at e
    · simp at e
    · simp only [Res.bind_ok_iff] at e
      obtain ⟨f, -, e⟩ := e
      cases f with
      | none => simp only [Res.ok.injEq] at e; rw [← e]; exact ⟨rfl, Nat.le_refl _⟩
      | some c =>
        obtain ⟨prev, pt, c⟩ := c
        simp only at e
        split at e
        · simp only [Res.bind_ok_iff, Res.ok.injEq] at e
          obtain ⟨h', -, e⟩ := e
          rw [← e]; exact ⟨rfl, Nat.sub_le _ _⟩
        · simp only [Res.bind_ok_iff, Res.ok.injEq] at e
          obtain ⟨pc, -, h', -, h'', -, e⟩ := e
          rw [← e]; exact ⟨rfl, Nat.sub_le _ _⟩

theorem hretrieve_cost {ops : KeyOps K} {h : Heap (Entry K D)} {t : HTab} {k : K} {r : (Heap (Entry K D) × HTab) × Option D}
    (e : hretrieve ops h t k = .ok r) : r.1.1.clock = h.clock ∧ r.1.2.resizings = t.resizings ∧ r.1.2.prime = t.prime ∧ r.1.2.entries = t.entries := by
  obtain ⟨h1, h2⟩ := Oom.hretrieve_same e
  refine ⟨h1, h2, ?_⟩
  unfold hretrieve at e
  simp only at e
  split at e
  · simp at e
  · simp only [Res.bind_ok_iff] at e
    obtain ⟨f, -, e⟩ := e
    cases f with
    | none => simp only [Res.ok.injEq] at e; rw [← e]; exact ⟨rfl, rfl⟩
    | some c =>
      obtain ⟨prev, pt, c⟩ := c
      simp only at e
      split at e
      · simp only [Res.ok.injEq] at e; rw [← e]; exact ⟨rfl, rfl⟩
      · split at e
        · simp only [Res.bind_ok_iff, Res.ok.injEq] at e
          obtain ⟨pc, -, h', -, h'', -, e⟩ := e
          rw [← e]; exact ⟨rfl, rfl⟩
        · simp only [Res.ok.injEq] at e; rw [← e]; exact ⟨rfl, rfl⟩

/-- the potential argument: `i` keys added, `c` cells asked for, `e` entries, size `p`, `r` resizings -/
structure Num (i c e p r : Nat) : Prop where
  few : e ≤ i
  half : e * 2 ≤ p + 2
  pos : 1 ≤ p
  pot : 2 * c + 4 * e ≤ 6 * i + p
  cells : c ≤ 3 * i
  pow : 3 ^ r ≤ p
  first : (r = 0 ∧ p = 1) ∨ (3 ^ r < 6 * i ∧ p < 12 * i)

theorem Num.fewer {i c e e' p r : Nat} (h : Num i c e p r) (he : e' ≤ e) : Num i c e' p r :=
  ⟨by have := h.few; omega, by have := h.half; omega, h.pos, by have := h.pot; omega, h.cells, h.pow, h.first⟩

theorem Num.add {i c e p r : Nat} (h : Num i c e p r) (he : e * 2 ≤ p) : Num (i + 1) (c + 1) (e + 1) p r :=
  ⟨by have := h.few; omega, by omega, h.pos, by have := h.pot; omega, by have := h.cells; omega, h.pow,
    h.first.imp id fun h => ⟨by omega, by omega⟩⟩

theorem Num.grow {i c e p p' r : Nat} (h : Num i c e p r) (hi : i ≤ Tab.many) (hc : e * 2 > p) (hp : Prime.prmNextPrime (p * 3) = some p') :
    Num i (c + e) e p' (r + 1) ∧ e * 2 ≤ p' := by
  have h1 := h.few
  have h2 := h.half
  have h3 := h.pos
  have h4 := h.pot
  have h5 := h.pow
  simp only [Tab.many] at hi
  obtain ⟨q, q1, q2, -⟩ := Prime.C02_next_prime_least_partial (p * 3) (by omega) (by omega)
  rw [hp] at q1
  cases q1
  have hsz : p' < 12 * i := by
    by_cases hb : p * 3 ≤ 2147483643
    · obtain ⟨q, q1, -, q3⟩ := Prime.C02_next_prime_bertrand (p * 3) (by omega) hb
      rw [hp] at q1
      cases q1
      omega
    · obtain ⟨q, q1, -, -, q4, -⟩ := Prime.C02_next_prime_terminates (p * 3)
      rw [hp] at q1
      cases q1
      omega
  have hpow : 3 ^ (r + 1) = 3 * 3 ^ r := by rw [Nat.pow_succ, Nat.mul_comm]
  refine ⟨⟨h1, by omega, by omega, ?_, by omega, by omega, Or.inr ⟨by omega, hsz⟩⟩, by omega⟩
  by_cases hp1 : p = 1
  · subst hp1; omega
  · omega

theorem Num.grown {h h' : Heap (Entry K D)} {t t' : HTab} {i b : Nat} (hb : b ≤ h.clock) (hn : Num i (h.clock - b) t.entries t.prime t.resizings)
    (hi : i ≤ Tab.many) (g : Grown h t h' t') : b ≤ h'.clock ∧ Num i (h'.clock - b) t'.entries t'.prime t'.resizings ∧ t'.entries * 2 ≤ t'.prime := by
  obtain ⟨g0, g⟩ := g
  rcases g with ⟨g1, g2, g3, g4⟩ | ⟨g1, g2, g3, g4⟩
  · obtain ⟨n1, n2⟩ := hn.grow hi g1 g2
    rw [g3, g4, g0]
    refine ⟨by omega, ?_, n2⟩
    rw [show h.clock + t.entries - b = h.clock - b + t.entries by omega]
    exact n1
  · rw [g2, g3, g4, g0]
    exact ⟨hb, hn, g1⟩

/-- counting over a history what calls return -/
theorem _root_.Maa.Spec.run_countOut {S O X : Type} (I : Nat → S → Prop) (p : O × X → Bool) (step : S → O → Res (S × X))
    (h : ∀ n s o s' x, I n s → step s o = .ok (s', x) → I (n + if p (o, x) then 1 else 0) s') (hist : List O) :
    ∀ n s s' xs, I n s → Spec.run step s hist = .ok (s', xs) → I (n + (hist.zip xs).countP p) s' := by
  induction hist with
  | nil => intro n s s' xs h0 hr; simp only [Spec.run, Res.ok.injEq, Prod.mk.injEq] at hr; rw [← hr.1]; exact h0
  | cons o os ih =>
    intro n s s' xs h0 hr
    simp only [Spec.run, Res.bind_ok_iff, Res.ok.injEq, Prod.mk.injEq] at hr
    obtain ⟨⟨s1, x⟩, e1, ⟨s2, xs'⟩, e2, e3, e4⟩ := hr
    have := ih _ _ _ _ (h n s o s1 x h0 e1) e2
    rw [← e4, ← e3]
    simp only [List.zip_cons_cons, List.countP_cons]
    rw [show n + ((os.zip xs').countP p + if p (o, x) = true then 1 else 0) = (n + if p (o, x) = true then 1 else 0) + (os.zip xs').countP p by omega]
    exact this

end Maa.HashHeap
