import Verif.Model.HashHeap
import Verif.Lemmas.Heap
import Verif.Lemmas.Tab

set_option linter.unusedSimpArgs false
set_option linter.unusedTactic false
set_option linter.unreachableTactic false

namespace Maa.HashHeap

open Tab (Entry Tab)
open Heap (Seg Chain)

variable {K D : Type}

/-- addresses of a list of cells -/
abbrev addrs (l : List (Nat × Entry K D)) : List Nat := l.map Prod.fst

/-- The pointer-level table `ht` in memory `h` stores the chains of `t`; `A i` lists the cells of chain
`i`. -/
structure HRep (h : Heap (Entry K D)) (ht : HTab) (t : Tab K D) (A : Nat → List (Nat × Entry K D)) :
    Prop where
  ok : h.Ok
  prime : ht.prime = t.prime
  entries : ht.entries = t.entries
  resizings : ht.resizings = t.resizings
  retrievals : ht.retrievals = t.retrievals
  hits : ht.hits = t.hits
  misses : ht.misses = t.misses
  ro : ht.readonly = t.readonly
  chain : ∀ i < t.prime, Chain h.mem (ht.buckets i) (A i)
  ents : ∀ i < t.prime, (A i).map Prod.snd = t.buckets i
  disj : ∀ i < t.prime, ∀ j < t.prime, i ≠ j → ∀ a ∈ addrs (A i), a ∉ addrs (A j)

/-- cells owned by the table -/
def Foot (n : Nat) (A : Nat → List (Nat × Entry K D)) (a : Nat) : Prop := ∃ i < n, a ∈ addrs (A i)

theorem HRep.foot_live {h : Heap (Entry K D)} {ht : HTab} {t : Tab K D} {A} (r : HRep h ht t A) {a : Nat}
    (ha : Foot t.prime A a) : (h.mem a).isSome := by
  obtain ⟨i, hi, ha⟩ := ha
  exact (Seg.live (r.chain i hi) a ha).1

/-- What a call may do to memory: live cells of others are untouched, cells given up are freed, and
addresses that become live were not live before and belong to the table. -/
structure Eff (h h' : Heap (Entry K D)) (F F' : Nat → Prop) : Prop where
  mono : h.clock ≤ h'.clock
  frame : ∀ a, (h.mem a).isSome → ¬ F a → h'.mem a = h.mem a
  freed : ∀ a, F a → ¬ F' a → h'.mem a = none
  grow : ∀ a, F' a → F a ∨ h.mem a = none
  owned : ∀ a, h.mem a = none → (h'.mem a).isSome → F' a

theorem Eff.refl (h : Heap (Entry K D)) (F : Nat → Prop) : Eff h h F F :=
  ⟨Nat.le_refl _, fun _ _ _ => rfl, fun _ h1 h2 => absurd h1 h2, fun _ h => Or.inl h,
    fun a h1 h2 => by rw [h1] at h2; simp at h2⟩

theorem Eff.congr {h h' : Heap (Entry K D)} {F F' G G' : Nat → Prop} (e : Eff h h' F F')
    (h1 : ∀ a, F a ↔ G a) (h2 : ∀ a, F' a ↔ G' a) : Eff h h' G G' :=
  ⟨e.mono, fun a ha hg => e.frame a ha (fun hf => hg ((h1 a).1 hf)),
    fun a ha hg => e.freed a ((h1 a).2 ha) (fun hf => hg ((h2 a).1 hf)),
    fun a ha => (e.grow a ((h2 a).2 ha)).imp (fun x => (h1 a).1 x) id,
    fun a h3 h4 => (h2 a).1 (e.owned a h3 h4)⟩

/-! push -/

/-- cells after pushing `e` -/
def pushA (A : Nat → List (Nat × Entry K D)) (s a : Nat) (e : Entry K D) :
    Nat → List (Nat × Entry K D) := fun i => if i = s then (a, e) :: A i else A i

theorem push_hrep {h : Heap (Entry K D)} {ht : HTab} {t : Tab K D} {A} (r : HRep h ht t A)
    (hp : 0 < t.prime) (e : Entry K D) :
    HRep (hpush h ht e).1 (hpush h ht e).2 (Tab.push t e) (pushA A (e.hash % t.prime) h.addr e) ∧
      (hpush h ht e).1.clock = h.clock + 1 ∧
      (∀ a, a ≠ h.addr → (hpush h ht e).1.mem a = h.mem a) := by
  have hs : e.hash % t.prime < t.prime := Nat.mod_lt _ hp
  have hnext : (if ht.buckets (e.hash % ht.prime) ≠ 0 then ht.buckets (e.hash % ht.prime) else 0) =
      ht.buckets (e.hash % t.prime) := by
    rw [r.prime]; split
    · rfl
    · rename_i hc; simpa using (not_not.1 hc).symm
  have hmem : ∀ a, a ≠ h.addr → (hpush h ht e).1.mem a = h.mem a := by
    intro a ha
    simp [hpush, Heap.alloc, ha]
  have hlt : ∀ i < t.prime, ∀ a ∈ addrs (A i), a ≠ h.addr := by
    intro i hi a ha
    exact r.ok.ne (r.foot_live ⟨i, hi, ha⟩)
  refine ⟨⟨r.ok.alloc _, r.prime, by simp [hpush, Tab.push, r.entries], r.resizings, r.retrievals,
    r.hits, r.misses, r.ro, ?_, ?_, ?_⟩, rfl, hmem⟩
  · intro i hi
    simp only [Tab.push] at hi
    unfold pushA
    by_cases his : i = e.hash % t.prime
    · rw [if_pos his]
      have hb : (hpush h ht e).2.buckets i = h.addr := by
        simp [hpush, setSlot, Heap.alloc, r.prime, his]
      rw [hb]
      refine ⟨rfl, r.ok.addr.2, ht.buckets (e.hash % t.prime), ?_, ?_⟩
      · simp only [hpush]
        rw [hnext]
        simp [Heap.alloc]
      · rw [his]
        exact (r.chain _ hs).frame (fun a ha => hmem a (hlt _ hs a ha))
    · rw [if_neg his]
      have hb : (hpush h ht e).2.buckets i = ht.buckets i := by
        simp [hpush, setSlot, r.prime, his]
      rw [hb]
      exact (r.chain i hi).frame (fun a ha => hmem a (hlt i hi a ha))
  · intro i hi
    simp only [Tab.push] at hi ⊢
    unfold pushA Tab.setBucket
    by_cases his : i = e.hash % t.prime
    · rw [if_pos his, if_pos his, List.map_cons, r.ents i hi, his]
    · rw [if_neg his, if_neg his, r.ents i hi]
  · intro i hi j hj hij a ha hb
    simp only [Tab.push] at hi hj
    unfold pushA at ha hb
    by_cases his : i = e.hash % t.prime
    · rw [if_pos his] at ha
      rw [if_neg (fun h => hij (his.trans h.symm))] at hb
      simp only [addrs, List.map_cons, List.mem_cons] at ha
      rcases ha with rfl | ha
      · exact hlt j hj _ hb rfl
      · exact r.disj i hi j hj hij a ha hb
    · rw [if_neg his] at ha
      by_cases hjs : j = e.hash % t.prime
      · rw [if_pos hjs] at hb
        simp only [addrs, List.map_cons, List.mem_cons] at hb
        rcases hb with rfl | hb
        · exact hlt i hi _ ha rfl
        · exact r.disj i hi j hj hij a ha hb
      · rw [if_neg hjs] at hb
        exact r.disj i hi j hj hij a ha hb

theorem foot_push {A : Nat → List (Nat × Entry K D)} {n b a : Nat} {e : Entry K D} (hp : 0 < n)
    (h : a ≠ b → Foot n A a) : Foot n (pushA A (e.hash % n) b e) a := by
  by_cases hab : a = b
  · refine ⟨e.hash % n, Nat.mod_lt _ hp, ?_⟩
    simp [pushA, hab]
  · obtain ⟨i, hi, hai⟩ := h hab
    refine ⟨i, hi, ?_⟩
    unfold pushA
    split
    · simp only [addrs, List.map_cons, List.mem_cons]; exact Or.inr hai
    · exact hai

/-- memory `m0` is still there, and the cells of the table are exactly those that have become live since -/
structure Above (m0 : Nat → Option (Entry K D × Nat)) (h : Heap (Entry K D)) (n : Nat)
    (A : Nat → List (Nat × Entry K D)) : Prop where
  old : ∀ a, (m0 a).isSome → h.mem a = m0 a
  new : ∀ a, Foot n A a → m0 a = none
  all : ∀ a, m0 a = none → (h.mem a).isSome → Foot n A a

theorem copyChain_ok (m0 : Nat → Option (Entry K D × Nat)) (l : List (Nat × Entry K D)) : ∀ (n : Nat) (h : Heap (Entry K D))
    (ht : HTab) (t : Tab K D) (A) (p : Nat), l.length < n → HRep h ht t A → 0 < t.prime → Chain m0 p l →
    Above m0 h t.prime A →
    ∃ h' ht' A', copyChain n h ht p = .ok (h', ht') ∧
      HRep h' ht' ((l.map Prod.snd).foldl Tab.push t) A' ∧ Above m0 h' t.prime A' ∧ h.clock ≤ h'.clock := by
  induction l with
  | nil =>
    intro n h ht t A p hn r hp hc ha
    cases n with
    | zero => omega
    | succ n =>
      have : p = 0 := hc
      subst this
      exact ⟨h, ht, A, by simp [copyChain], r, ha, Nat.le_refl _⟩
  | cons c l ih =>
    intro n h ht t A p hn r hp hc ha
    cases n with
    | zero => omega
    | succ n =>
      obtain ⟨h1, h2, nx, h3, h4⟩ := hc
      subst h1
      obtain ⟨q1, q2, q3⟩ := push_hrep r hp c.2
      have hnone : m0 h.addr = none := by
        by_contra hn
        have h5 := ha.old h.addr (Option.isSome_iff_ne_none.2 hn)
        rw [r.ok.addr.1] at h5
        exact hn h5.symm
      have hfr : ∀ a, (m0 a).isSome → (hpush h ht c.2).1.mem a = m0 a := fun a hab => by
        rw [q3 a (by rintro rfl; rw [hnone] at hab; simp at hab)]
        exact ha.old a hab
      have hread0 : h.mem c.1 = some (c.2, nx) := by rw [ha.old _ (by rw [h3]; rfl), h3]
      have hread : (hpush h ht c.2).1.mem c.1 = some (c.2, nx) := by rw [hfr _ (by rw [h3]; rfl), h3]
      obtain ⟨h', ht', A', i1, i2, i3, i4⟩ := ih n (hpush h ht c.2).1 (hpush h ht c.2).2 _ _ nx
        (by simp at hn; omega) q1 hp h4
        ⟨hfr, by
            rintro a ⟨i, hi, hai⟩
            unfold pushA at hai
            split at hai
            · simp only [addrs, List.map_cons, List.mem_cons] at hai
              rcases hai with rfl | hai
              · exact hnone
              · exact ha.new a ⟨i, hi, hai⟩
            · exact ha.new a ⟨i, hi, hai⟩,
          fun a hab hs => foot_push hp (fun hne => ha.all a hab (by rw [q3 a hne] at hs; exact hs))⟩
      refine ⟨h', ht', A', ?_, i2, i3, by omega⟩
      simp only [copyChain, h2, if_false, Heap.read_ok hread0, Res.bind, Heap.read_ok hread, i1]

theorem copyAll_ok (m0 : Nat → Option (Entry K D × Nat)) (B : Nat → Nat) (C : Nat → List (Nat × Entry K D)) (n : Nat)
    (is : List Nat) :
    ∀ (h : Heap (Entry K D)) (ht : HTab) (t : Tab K D) (A), HRep h ht t A → 0 < t.prime →
    (∀ i ∈ is, (C i).length < n ∧ Chain m0 (B i) (C i)) → Above m0 h t.prime A →
    ∃ h' ht' A', copyAll n B is h ht = .ok (h', ht') ∧
      HRep h' ht' ((is.flatMap fun i => (C i).map Prod.snd).foldl Tab.push t) A' ∧ Above m0 h' t.prime A' ∧
      h.clock ≤ h'.clock := by
  induction is with
  | nil =>
    intro h ht t A r hp hc ha
    exact ⟨h, ht, A, rfl, r, ha, Nat.le_refl _⟩
  | cons i is ih =>
    intro h ht t A r hp hc ha
    obtain ⟨c1, c2⟩ := hc i (by simp)
    obtain ⟨h1, ht1, A1, i1, i2, i3, i4⟩ := copyChain_ok m0 (C i) n h ht t A (B i) c1 r hp c2 ha
    have hpr := Tab.foldl_push_prime ((C i).map Prod.snd) t
    obtain ⟨h', ht', A', j1, j2, j3, j4⟩ := ih h1 ht1 _ A1 i2 (by rw [hpr]; exact hp)
      (fun j hj => hc j (by simp [hj])) (by rw [hpr]; exact i3)
    refine ⟨h', ht', A', by simp [copyAll, i1, Res.bind, j1], ?_, by rw [hpr] at j3; exact j3, by omega⟩
    simpa [List.flatMap_cons, List.foldl_append] using j2

theorem freeChain_ok (l : List (Nat × Entry K D)) : ∀ (n : Nat) (h : Heap (Entry K D)) (p : Nat),
    l.length < n → Chain h.mem p l → (h.Ok) →
    ∃ h', freeChain n h p = .ok h' ∧ h'.clock = h.clock ∧ h'.Ok ∧
      ∀ a, h'.mem a = if a ∈ addrs l then none else h.mem a := by
  induction l with
  | nil =>
    intro n h p hn hc ok
    cases n with
    | zero => omega
    | succ n =>
      have : p = 0 := hc
      subst this
      exact ⟨h, by simp [freeChain], rfl, ok, by simp [addrs]⟩
  | cons c l ih =>
    intro n h p hn hc ok
    have hnd := Heap.Chain.nodup hc
    cases n with
    | zero => omega
    | succ n =>
      obtain ⟨h1, h2, nx, h3, h4⟩ := hc
      subst h1
      simp only [List.map_cons, List.nodup_cons] at hnd
      obtain ⟨h', i1, i2, i3, i4⟩ := ih n { h with mem := fun a => if a = c.1 then none else h.mem a } nx
        (by simp at hn; omega) (h4.frame (fun a ha => by
          have : a ≠ c.1 := by rintro rfl; exact hnd.1 ha
          simp [this])) (ok.free (Heap.free_ok h3))
      refine ⟨h', by simp only [freeChain, h2, if_false, Heap.read_ok h3, Heap.free_ok h3, Res.bind, i1],
        i2, i3, ?_⟩
      intro a
      rw [i4 a]
      simp only [addrs, List.map_cons, List.mem_cons]
      by_cases h5 : a = c.1
      · simp [h5]
      · simp only [h5, if_false, false_or]

theorem freeAll_ok (B : Nat → Nat) (C : Nat → List (Nat × Entry K D)) (n : Nat) (is : List Nat) :
    ∀ (h : Heap (Entry K D)), h.Ok → is.Nodup →
    (∀ i ∈ is, (C i).length < n ∧ Chain h.mem (B i) (C i)) →
    (∀ i ∈ is, ∀ j ∈ is, i ≠ j → ∀ a ∈ addrs (C i), a ∉ addrs (C j)) →
    ∃ h', freeAll n B is h = .ok h' ∧ h'.clock = h.clock ∧ h'.Ok ∧
      (∀ a, (∃ i ∈ is, a ∈ addrs (C i)) → h'.mem a = none) ∧
      (∀ a, (¬ ∃ i ∈ is, a ∈ addrs (C i)) → h'.mem a = h.mem a) := by
  induction is with
  | nil => intro h ok _ _ _; exact ⟨h, rfl, rfl, ok, by simp, fun _ _ => rfl⟩
  | cons i is ih =>
    intro h ok hnd hc hd
    rw [List.nodup_cons] at hnd
    obtain ⟨c1, c2⟩ := hc i (by simp)
    obtain ⟨h1, e1, e2, e3, e4⟩ := freeChain_ok (C i) n h (B i) c1 c2 ok
    obtain ⟨h', f1, f2, f3, f4, f5⟩ := ih h1 e3 hnd.2
      (fun j hj => by
        obtain ⟨d1, d2⟩ := hc j (by simp [hj])
        refine ⟨d1, d2.frame (fun a ha => ?_)⟩
        rw [e4 a, if_neg]
        exact hd j (by simp [hj]) i (by simp) (by rintro rfl; exact hnd.1 hj) a ha)
      (fun j hj k hk => hd j (by simp [hj]) k (by simp [hk]))
    refine ⟨h', by simp [freeAll, e1, Res.bind, f1], f2.trans e2, f3, ?_, ?_⟩
    · rintro a ⟨j, hj, ha⟩
      by_cases hin : ∃ i ∈ is, a ∈ addrs (C i)
      · exact f4 a hin
      · rw [f5 a hin, e4 a, if_pos]
        simp only [List.mem_cons] at hj
        rcases hj with rfl | hj
        · exact ha
        · exact absurd ⟨j, hj, ha⟩ hin
    · intro a ha
      have h2 : ¬ ∃ i ∈ is, a ∈ addrs (C i) := by
        rintro ⟨j, hj, hja⟩; exact ha ⟨j, by simp [hj], hja⟩
      rw [f5 a h2, e4 a, if_neg]
      intro hai; exact ha ⟨i, by simp, hai⟩

theorem hcreate_hrep (h : Heap (Entry K D)) (ok : h.Ok) (seed : Nat) :
    ∃ ht t, hcreate seed = .ok ht ∧ Tab.create (K := K) (D := D) seed = .ok t ∧ 0 < t.prime ∧
      HRep h ht t (fun _ => []) := by
  obtain ⟨t, h1, h2, h3, h4, h5⟩ := Tab.create_ok (K := K) (D := D) seed
  have h6 : Prime.prmNextPrime seed = some t.prime := by
    unfold Tab.create at h1
    cases hp : Prime.prmNextPrime seed with
    | none => rw [hp] at h1; simp at h1
    | some p => rw [hp] at h1; simp at h1; rw [← h1]
  unfold Tab.create at h1
  rw [h6] at h1
  simp only [Res.ok.injEq] at h1
  refine ⟨_, t, by unfold hcreate; rw [h6], by unfold Tab.create; rw [h6]; simp [h1], h2, ?_⟩
  rw [← h1]
  exact ⟨ok, rfl, rfl, rfl, rfl, rfl, rfl, rfl, fun _ _ => rfl, fun _ _ => rfl,
    fun _ _ _ _ _ _ h => by simp at h⟩

theorem hgrow_hrep_frees {h : Heap (Entry K D)} {ht : HTab} {t : Tab K D} {A} (r : HRep h ht t A) :
    ∃ h' ht' t' A', hgrow h ht = .ok (h', ht') ∧ Tab.grow t = .ok t' ∧ HRep h' ht' t' A' ∧
      Eff h h' (Foot t.prime A) (Foot t'.prime A') ∧
      (t.entries * 2 > t.prime → ∀ a, Foot t.prime A a → h'.mem a = none) := by
  unfold hgrow Tab.grow
  rw [r.entries, r.prime]
  by_cases hc : t.entries * 2 > t.prime
  · rw [if_pos hc, if_pos hc]
    obtain ⟨nt, n, c1, c2, c3, c4⟩ := hcreate_hrep h r.ok (t.prime * 3)
    obtain ⟨h1, ht1, A1, i1, i2, i3, i6⟩ := copyAll_ok h.mem ht.buckets A h.clock
      (List.range t.prime) h nt n _ c4 c3
      (fun i hi => by
        have hi := List.mem_range.1 hi
        exact ⟨Heap.Chain.length_lt r.ok (r.chain i hi), r.chain i hi⟩)
      ⟨fun _ _ => rfl, by rintro a ⟨i, hi, ha⟩; simp at ha, fun a h1 h2 => by rw [h1] at h2; simp at h2⟩
    have hall : ((List.range t.prime).flatMap fun i => (A i).map Prod.snd) = Tab.all t := by
      unfold Tab.all
      rw [List.flatMap_def, List.flatMap_def]
      congr 1
      apply List.map_congr_left
      intro i hi
      exact r.ents i (List.mem_range.1 hi)
    rw [hall] at i2
    have hpr := Tab.foldl_push_prime (Tab.all t) n
    obtain ⟨h', f1, f2, f3, f4, f5⟩ := freeAll_ok ht.buckets A h.clock (List.range t.prime) h1 i2.ok
      List.nodup_range
      (fun i hi => by
        have hi := List.mem_range.1 hi
        exact ⟨Heap.Chain.length_lt r.ok (r.chain i hi),
          (r.chain i hi).frame (fun a ha => i3.old a (r.foot_live ⟨i, hi, ha⟩))⟩)
      (fun i hi j hj => r.disj i (List.mem_range.1 hi) j (List.mem_range.1 hj))
    have hout : ∀ a, Foot n.prime A1 a → ¬ ∃ i ∈ List.range t.prime, a ∈ addrs (A i) := by
      rintro a ha ⟨i, hi, hai⟩
      have h1 := i3.new a ha
      have h2 := r.foot_live ⟨i, List.mem_range.1 hi, hai⟩
      rw [h1] at h2; simp at h2
    simp only [c1, Res.bind, i1, f1]
    simp only [Tab.resize, c2, Res.bind_ok, Res.pure_eq]
    refine ⟨h', _, _, A1, rfl, rfl, ?_, ?_, ?_⟩
    · refine ⟨f3, i2.prime, rfl, by simp [r.resizings], r.retrievals, r.hits, r.misses, r.ro, ?_, i2.ents, i2.disj⟩
      intro i hi
      refine (i2.chain i hi).frame (fun a ha => f5 a (hout a ⟨i, ?_, ha⟩))
      simp only at hi; rw [hpr] at hi; exact hi
    · refine ⟨by omega, ?_, ?_, ?_, ?_⟩
      · intro a ha hna
        rw [f5 a, i3.old a ha]
        rintro ⟨i, hi, hai⟩
        exact hna ⟨i, List.mem_range.1 hi, hai⟩
      · rintro a ⟨i, hi, hai⟩ _
        exact f4 a ⟨i, List.mem_range.2 hi, hai⟩
      · rintro a ha
        simp only [hpr] at ha
        exact Or.inr (i3.new a ha)
      · intro a ha hs
        simp only [hpr]
        refine i3.all a ha ?_
        rw [f5 a] at hs
        · exact hs
        · rintro ⟨i, hi, hai⟩
          have := r.foot_live ⟨i, List.mem_range.1 hi, hai⟩
          rw [ha] at this; simp at this
    · rintro - a ⟨i, hi, hai⟩
      exact f4 a ⟨i, List.mem_range.2 hi, hai⟩
  · rw [if_neg hc, if_neg hc]
    exact ⟨h, ht, t, A, rfl, rfl, r, Eff.refl _ _, fun h => absurd h hc⟩

theorem hgrow_hrep {h : Heap (Entry K D)} {ht : HTab} {t : Tab K D} {A} (r : HRep h ht t A) :
    ∃ h' ht' t' A', hgrow h ht = .ok (h', ht') ∧ Tab.grow t = .ok t' ∧ HRep h' ht' t' A' ∧
      Eff h h' (Foot t.prime A) (Foot t'.prime A') := by
  obtain ⟨h', ht', t', A', h1, h2, h3, h4, -⟩ := hgrow_hrep_frees r
  exact ⟨h', ht', t', A', h1, h2, h3, h4⟩

/-! search -/

theorem findLoop_ok (ops : KeyOps K) (key : K) (h : Heap (Entry K D)) (l : List (Nat × Entry K D)) :
    ∀ (n prev p : Nat), l.length < n → Chain h.mem p l →
    (findLoop ops key n h prev p = .ok none ∧ l.all (fun c => !(ops.cmp c.2.key key == 0)) = true) ∨
    (∃ l1 a e l2 nx, l = l1 ++ (a, e) :: l2 ∧ l1.all (fun c => !(ops.cmp c.2.key key == 0)) = true ∧
      (ops.cmp e.key key == 0) = true ∧
      findLoop ops key n h prev p = .ok (some ((l1.getLast?.map Prod.fst).getD prev, a, e, nx)) ∧
      h.mem a = some (e, nx) ∧ Chain h.mem nx l2) := by
  induction l with
  | nil =>
    intro n prev p hn hc
    cases n with
    | zero => omega
    | succ n =>
      have : p = 0 := hc
      subst this
      exact Or.inl ⟨by simp [findLoop], by simp⟩
  | cons c l ih =>
    intro n prev p hn hc
    cases n with
    | zero => omega
    | succ n =>
      obtain ⟨h1, h2, nx, h3, h4⟩ := hc
      subst h1
      simp only [findLoop, h2, if_false, Heap.read_ok h3, Res.bind]
      by_cases hm : (ops.cmp c.2.key key == 0) = true
      · right
        exact ⟨[], c.1, c.2, l, nx, rfl, rfl, hm, by simp [hm], h3, h4⟩
      · rcases ih n c.1 nx (by simp at hn; omega) h4 with ⟨i1, i2⟩ | ⟨l1, a, e, l2, nx', i1, i2, i3, i4, i5⟩
        · left; exact ⟨by simp [hm, i1], by simp [i2]; simpa using hm⟩
        · right
          refine ⟨c :: l1, a, e, l2, nx', by simp [i1], by simp only [List.all_cons, i2]; simp; simpa using hm, i3, ?_, i5⟩
          rw [if_neg (by simpa using hm), i4]
          cases l1 with
          | nil => rfl
          | cons d l1 => rw [List.getLast?_cons_cons]; simp [List.getLast?_cons]

theorem nil_or_snoc (l : List (Nat × Entry K D)) : l = [] ∨ ∃ l0 b x, l = l0 ++ [(b, x)] := by
  rcases List.eq_nil_or_concat l with h | ⟨l0, c, h⟩
  · exact Or.inl h
  · exact Or.inr ⟨l0, c.1, c.2, by rw [h]; simp⟩

/-- change the last link of a segment -/
theorem relink {m : Nat → Option (Entry K D × Nat)} {p q : Nat} {l : List (Nat × Entry K D)} {b : Nat}
    {x : Entry K D} (h : Seg m p (l ++ [(b, x)]) q) (hb : b ∉ addrs l) (q' : Nat) :
    Seg (fun a => if a = b then some (x, q') else m a) p (l ++ [(b, x)]) q' := by
  obtain ⟨r, h1, h2⟩ := Seg.split h
  refine Seg.append (q := r) (h1.frame ?_) ?_
  · intro a ha
    have : a ≠ b := by rintro rfl; exact hb ha
    simp [this]
  · exact ⟨h2.1, h2.2.1, q', by simp, rfl⟩

theorem all_eq_any {ops : KeyOps K} {key : K} {l : List (Nat × Entry K D)} :
    l.all (fun c => !(ops.cmp c.2.key key == 0)) = true ↔
      ∀ e ∈ l.map Prod.snd, (ops.cmp e.key key == 0) = false := by
  simp only [List.all_eq_true, List.mem_map, Bool.not_eq_true']
  constructor
  · rintro h e ⟨c, hc, rfl⟩; exact h c hc
  · intro h c hc; exact h _ ⟨c, hc, rfl⟩

theorem hinsert_hrep {ops : KeyOps K} {h : Heap (Entry K D)} {ht : HTab} {t : Tab K D} {A}
    (r : HRep h ht t A) (key : K) (datum : D) :
    Spec.ResRel (fun c b => c.2 = b.2 ∧ ∃ A', HRep c.1.1 c.1.2 b.1 A' ∧
        Eff h c.1.1 (Foot t.prime A) (Foot b.1.prime A'))
      (hinsert ops h ht key datum) (Tab.insert ops t key datum) := by
  unfold hinsert Tab.insert
  simp only
  rw [r.ro]
  by_cases hro : t.readonly ≠ 0
  · rw [if_pos hro, if_pos hro]; trivial
  · rw [if_neg hro, if_neg hro]
    obtain ⟨h1, ht1, t1, A1, g1, g2, g3, g4⟩ := hgrow_hrep r
    rw [g1, g2]
    simp only [Res.bind]
    rw [g3.prime]
    by_cases hp : t1.prime = 0
    · rw [if_pos hp, if_pos hp]; trivial
    · rw [if_neg hp, if_neg hp]
      have hs : ops.hash key % t1.prime < t1.prime := Nat.mod_lt _ (by omega)
      have hents := g3.ents _ hs
      rcases findLoop_ok ops key h1 (A1 (ops.hash key % t1.prime)) h1.clock 0
        (ht1.buckets (ops.hash key % t1.prime)) (Heap.Chain.length_lt g3.ok (g3.chain _ hs))
        (g3.chain _ hs) with ⟨f1, f2⟩ | ⟨l1, a, e, l2, nx, f1, f2, f3, f4, f5, f6⟩
      · rw [f1]
        rw [all_eq_any, hents] at f2
        rw [if_neg (by simp only [List.any_eq_true, not_exists, not_and]; intro e he; rw [f2 e he]; simp)]
        obtain ⟨p1, p2, p3⟩ := push_hrep g3 (by omega) { key := key, hash := ops.hash key, datum := datum }
        refine ⟨rfl, _, p1, ?_⟩
        have hfoot : ∀ a, Foot t1.prime A1 a → Foot t1.prime (pushA A1 (ops.hash key % t1.prime) h1.addr
            { key := key, hash := ops.hash key, datum := datum }) a := by
          rintro a ⟨i, hi, hai⟩
          refine ⟨i, hi, ?_⟩
          unfold pushA; split
          · simp only [addrs, List.map_cons, List.mem_cons]; exact Or.inr hai
          · exact hai
        have hnew : Foot t1.prime (pushA A1 (ops.hash key % t1.prime) h1.addr
            { key := key, hash := ops.hash key, datum := datum }) h1.addr :=
          foot_push (n := t1.prime) (e := { key := key, hash := ops.hash key, datum := datum }) (by omega) (fun hne => absurd rfl hne)
        refine ⟨by rw [p2]; have := g4.mono; omega, ?_, ?_, ?_, ?_⟩
        · intro a ha hna
          have h5 := g4.frame a ha hna
          rw [p3 a (g3.ok.ne (by rw [h5]; exact ha)), h5]
        · intro a ha hna
          rw [p3 a (by rintro rfl; exact hna hnew)]
          exact g4.freed a ha (fun hf => hna (hfoot a hf))
        · rintro a ⟨i, hi, hai⟩
          unfold pushA at hai
          split at hai
          · simp only [addrs, List.map_cons, List.mem_cons] at hai
            rcases hai with rfl | hai
            · by_cases hf : Foot t.prime A h1.addr
              · exact Or.inl hf
              · right
                by_contra hn
                have h5 := g4.frame h1.addr (Option.isSome_iff_ne_none.2 hn) hf
                rw [g3.ok.addr.1] at h5
                exact hn h5.symm
            · exact g4.grow a ⟨i, hi, hai⟩
          · exact g4.grow a ⟨i, hi, hai⟩
        · intro a ha hs
          exact foot_push (n := t1.prime) (by omega) (fun hne => g4.owned a ha (by rw [p3 a hne] at hs; exact hs))
      · rw [f4, ← hents, f1]
        rw [if_pos (by simp [f3])]
        exact ⟨rfl, A1, g3, g4⟩

/-- replace one chain -/
def setA (A : Nat → List (Nat × Entry K D)) (s : Nat) (l : List (Nat × Entry K D)) :
    Nat → List (Nat × Entry K D) := fun i => if i = s then l else A i

/-- replacing chain `s` by one made of some of the same cells -/
theorem HRep.replace {h h' : Heap (Entry K D)} {ht ht' : HTab} {t t' : Tab K D} {A}
    (r : HRep h ht t A) (s : Nat) (hs : s < t.prime) (l : List (Nat × Entry K D)) (p : Nat)
    (hok : h'.Ok) (hprime : ht'.prime = t'.prime) (hp : t'.prime = t.prime)
    (he : ht'.entries = t'.entries) (hz : ht'.resizings = t'.resizings)
    (hre : ht'.retrievals = t'.retrievals) (hh : ht'.hits = t'.hits) (hm : ht'.misses = t'.misses)
    (hr : ht'.readonly = t'.readonly)
    (hb : ht'.buckets = setSlot ht.buckets s p) (htb : t'.buckets = Tab.setBucket t.buckets s (l.map Prod.snd))
    (hl : ∀ a ∈ addrs l, a ∈ addrs (A s)) (hc : Chain h'.mem p l)
    (hfr : ∀ a, a ∉ addrs (A s) → h'.mem a = h.mem a)
    (hgone : ∀ a ∈ addrs (A s), a ∉ addrs l → h'.mem a = none) (hfresh : h'.clock = h.clock) :
    HRep h' ht' t' (setA A s l) ∧ Eff h h' (Foot t.prime A) (Foot t'.prime (setA A s l)) := by
  constructor
  · refine ⟨hok, hprime, he, hz, hre, hh, hm, hr, ?_, ?_, ?_⟩
    · intro i hi
      rw [hp] at hi
      unfold setA
      rw [hb]; unfold setSlot
      by_cases his : i = s
      · rw [if_pos his, if_pos his]; exact hc
      · rw [if_neg his, if_neg his]
        exact (r.chain i hi).frame (fun a ha => hfr a (fun hb => r.disj i hi s hs his a ha hb))
    · intro i hi
      rw [hp] at hi
      unfold setA
      rw [htb]; unfold Tab.setBucket
      by_cases his : i = s
      · rw [if_pos his, if_pos his]
      · rw [if_neg his, if_neg his]; exact r.ents i hi
    · intro i hi j hj hij a ha hb'
      rw [hp] at hi hj
      unfold setA at ha hb'
      have key : ∀ k, a ∈ addrs (if k = s then l else A k) → a ∈ addrs (A k) := by
        intro k hk
        split at hk
        · rename_i hks; rw [hks]; exact hl a hk
        · exact hk
      exact r.disj i hi j hj hij a (key i ha) (key j hb')
  · refine ⟨by omega, ?_, ?_, ?_, fun a ha hs => by
      by_cases hin : a ∈ addrs (A s)
      · have := (Seg.live (r.chain s (by assumption)) a hin).1
        rw [ha] at this; simp at this
      · rw [hfr a hin, ha] at hs; simp at hs⟩
    · intro a _ hna
      exact hfr a (fun hin => hna ⟨s, hs, hin⟩)
    · rintro a ⟨i, hi, hai⟩ hna
      by_cases his : i = s
      · subst his
        refine hgone a hai (fun hl' => hna ⟨i, by rw [hp]; exact hi, ?_⟩)
        unfold setA; rw [if_pos rfl]; exact hl'
      · exact absurd ⟨i, by rw [hp]; exact hi, by unfold setA; rw [if_neg his]; exact hai⟩ hna
    · rintro a ⟨i, hi, hai⟩
      rw [hp] at hi
      left
      unfold setA at hai
      split at hai
      · rename_i his; exact ⟨s, hs, hl a hai⟩
      · exact ⟨i, hi, hai⟩

theorem eraseP_split {ops : KeyOps K} {key : K} {l1 l2 : List (Entry K D)} {e : Entry K D}
    (h1 : ∀ e ∈ l1, (ops.cmp e.key key == 0) = false) (h2 : (ops.cmp e.key key == 0) = true) :
    (l1 ++ e :: l2).eraseP (fun pt => ops.cmp pt.key key == 0) = l1 ++ l2 := by
  induction l1 with
  | nil => simp [h2]
  | cons c l1 ih =>
    have hc : (ops.cmp c.key key == 0) = false := h1 c (by simp)
    rw [List.cons_append, List.eraseP_cons, hc]
    simp only [cond_false, List.cons_append]
    rw [ih (fun e he => h1 e (by simp [he]))]

theorem find?_split {ops : KeyOps K} {key : K} {l1 l2 : List (Entry K D)} {e : Entry K D}
    (h1 : ∀ e ∈ l1, (ops.cmp e.key key == 0) = false) (h2 : (ops.cmp e.key key == 0) = true) :
    (l1 ++ e :: l2).find? (fun pt => ops.cmp pt.key key == 0) = some e := by
  induction l1 with
  | nil => simp [h2]
  | cons c l1 ih =>
    have hc : (ops.cmp c.key key == 0) = false := h1 c (by simp)
    rw [List.cons_append, List.find?_cons, hc]
    exact ih (fun e he => h1 e (by simp [he]))

theorem setSlot_self (b : Nat → Nat) (s : Nat) : setSlot b s (b s) = b := by
  funext i; unfold setSlot; split
  · rename_i h; rw [h]
  · rfl

theorem setBucket_self (b : Nat → List (Entry K D)) (s : Nat) : Tab.setBucket b s (b s) = b := by
  funext i; unfold Tab.setBucket; split
  · rename_i h; rw [h]
  · rfl

/-- Cells from some point of a chain on are left in place, as long as none of them holds a key comparing
equal to `key`. -/
def Keeps (ops : KeyOps K) (key : K) (A A' : Nat → List (Nat × Entry K D)) : Prop :=
  (∀ i pre rem, A i = pre ++ rem → (∀ c ∈ rem, (ops.cmp c.2.key key == 0) = false) →
    ∃ pre', A' i = pre' ++ rem) ∧
  (∀ i, (∀ c ∈ A i, (ops.cmp c.2.key key == 0) = false) → A' i = A i)

theorem Keeps.refl (ops : KeyOps K) (key : K) (A : Nat → List (Nat × Entry K D)) : Keeps ops key A A :=
  ⟨fun _ pre _ h _ => ⟨pre, h⟩, fun _ _ => rfl⟩

theorem Keeps.split {ops : KeyOps K} {key : K} {A : Nat → List (Nat × Entry K D)} {s a : Nat}
    {e : Entry K D} {l1 l2 p' : List (Nat × Entry K D)} (f1 : A s = l1 ++ (a, e) :: l2)
    (f3 : (ops.cmp e.key key == 0) = true) : Keeps ops key A (setA A s (p' ++ l2)) := by
  constructor
  swap
  · intro i hi
    unfold setA
    by_cases his : i = s
    · subst his
      have := hi (a, e) (by rw [f1]; simp)
      rw [f3] at this; simp at this
    · rw [if_neg his]
  intro i pre rem h hrem
  unfold setA
  by_cases hi : i = s
  · subst hi
    rw [if_pos rfl]
    rw [f1] at h
    have key2 : ∃ x, l2 = x ++ rem := by
      rcases List.append_eq_append_iff.1 h with ⟨x, h1, h2⟩ | ⟨x, h1, h2⟩
      · cases x with
        | nil =>
          rw [List.nil_append] at h2
          have := hrem (a, e) (by rw [← h2]; simp)
          rw [f3] at this; simp at this
        | cons y x =>
          rw [List.cons_append, List.cons.injEq] at h2
          exact ⟨x, h2.2⟩
      · have := hrem (a, e) (by rw [h2]; simp)
        rw [f3] at this; simp at this
    obtain ⟨x, hx⟩ := key2
    exact ⟨p' ++ x, by rw [hx, List.append_assoc]⟩
  · rw [if_neg hi]; exact ⟨pre, h⟩

theorem hdelete_hrep_keeps {ops : KeyOps K} {h : Heap (Entry K D)} {ht : HTab} {t : Tab K D} {A}
    (r : HRep h ht t A) (key : K) :
    Spec.ResRel (fun c b => c.2 = b.2 ∧ ∃ A', HRep c.1.1 c.1.2 b.1 A' ∧
        Eff h c.1.1 (Foot t.prime A) (Foot b.1.prime A') ∧ Keeps ops key A A')
      (hdelete ops h ht key) (Tab.delete ops t key) := by
  unfold hdelete Tab.delete
  simp only
  rw [r.prime, r.ro]
  by_cases hp : t.prime = 0
  · rw [if_pos hp, if_pos hp]; trivial
  rw [if_neg hp, if_neg hp]
  by_cases hro : t.readonly ≠ 0
  · rw [if_pos hro, if_pos hro]; trivial
  rw [if_neg hro, if_neg hro]
  have hs : ops.hash key % t.prime < t.prime := Nat.mod_lt _ (by omega)
  generalize hsd : ops.hash key % t.prime = s at hs
  have hents := r.ents _ hs
  have hchain := r.chain _ hs
  rcases findLoop_ok ops key h (A s) h.clock 0 (ht.buckets s) (Heap.Chain.length_lt r.ok hchain)
    hchain with ⟨f1, f2⟩ | ⟨l1, a, e, l2, nx, f1, f2, f3, f4, f5, f6⟩
  · rw [f1]
    rw [all_eq_any, hents] at f2
    rw [if_neg (by simp only [List.any_eq_true, not_exists, not_and]; intro e he; rw [f2 e he]; simp)]
    exact ⟨rfl, A, r, Eff.refl _ _, Keeps.refl _ _ _⟩
  · rw [f4]
    rw [all_eq_any] at f2
    have hnd := Heap.Chain.nodup hchain
    have hmap : t.buckets s = l1.map Prod.snd ++ e :: l2.map Prod.snd := by rw [← hents, f1]; simp
    rw [hmap, if_pos (by simp [f3]), eraseP_split f2 f3]
    simp only [Res.bind]
    rw [f1] at hchain hnd
    have ha1 : a ∉ addrs l1 ∧ a ∉ addrs l2 := by
      simp only [List.map_append, List.map_cons] at hnd
      rw [List.nodup_append] at hnd
      obtain ⟨n1, n2, n3⟩ := hnd
      rw [List.nodup_cons] at n2
      exact ⟨fun hin => n3 a hin a (by simp) rfl, n2.1⟩
    have hsub : ∀ x ∈ addrs (l1 ++ l2), x ∈ addrs (A s) := by
      intro x hx; rw [f1]; simp at hx ⊢; tauto
    have hrest : ∀ x ∈ addrs (A s), x ∉ addrs (l1 ++ l2) → x = a := by
      intro x hx hnx; rw [f1] at hx; simp at hx hnx; rcases hx with ⟨y, hy⟩ | hy | ⟨y, hy⟩
      · exact absurd hy (hnx.1 y)
      · exact hy
      · exact absurd hy (hnx.2 y)
    rcases nil_or_snoc l1 with rfl | ⟨l0, b, x, rfl⟩
    · -- head of the chain
      simp only [List.getLast?_nil, Option.map_none, Option.getD_none, if_true]
      rw [Heap.free_ok f5]
      simp only [Res.bind]
      refine ⟨rfl, setA A s l2, ?_⟩
      refine and_assoc.1 ⟨?_, Keeps.split (p' := []) f1 f3⟩
      refine r.replace s hs l2 nx (r.ok.free (Heap.free_ok f5)) (by first | rfl | exact r.prime) rfl (by simp [r.entries]) r.resizings
        r.retrievals r.hits r.misses (by first | rfl | exact r.ro) rfl (by simp) (fun y hy => hsub y (by simpa using hy)) ?_ ?_ ?_ rfl
      · exact f6.frame (fun y hy => by
          have : y ≠ a := by rintro rfl; exact ha1.2 hy
          simp [this])
      · intro y hy
        have : y ≠ a := by rintro rfl; exact hy (by rw [f1]; simp)
        simp [this]
      · intro y hy hny
        have : y = a := hrest y hy (by simpa using hny)
        simp [this]
    · have hseg : Seg h.mem (ht.buckets s) (l0 ++ [(b, x)]) a := by
        have h5 := hchain
        obtain ⟨q, q1, q2⟩ := Seg.split h5
        rwa [q2.1] at q1
      have hb0 : b ≠ 0 ∧ h.mem b = some (x, a) := by
        obtain ⟨q, q1, q2⟩ := Seg.split hseg
        obtain ⟨q3, q4, n, q5, q6⟩ := q2
        have : n = a := q6
        exact ⟨q4, by rw [← this]; exact q5⟩
      have hprev : (Option.map Prod.fst (l0 ++ [(b, x)]).getLast?).getD 0 = b := by simp
      rw [hprev, if_neg hb0.1, Heap.read_ok hb0.2]
      have hba : a ≠ b := by
        rintro rfl; exact ha1.1 (by simp)
      have hbl : b ∉ addrs l0 ∧ b ∉ addrs l2 := by
        simp only [List.map_append, List.map_cons, List.map_nil, List.append_assoc] at hnd
        rw [List.nodup_append] at hnd
        obtain ⟨n1, n2, n3⟩ := hnd
        refine ⟨fun hin => n3 b hin b (by simp) rfl, fun hin => ?_⟩
        simp only [List.cons_append, List.nil_append, List.nodup_cons] at n2
        exact n2.1 (by simp at hin ⊢; exact Or.inr hin)
      simp only [Res.bind]
      rw [Heap.write_ok hb0.2]
      simp only [Res.bind]
      have hma : (if a = b then some (x, nx) else h.mem a) = some (e, nx) := by rw [if_neg hba, f5]
      rw [Heap.free_ok (h := { h with mem := fun y => if y = b then some (x, nx) else h.mem y }) hma]
      simp only [Res.bind]
      have hok1 : ({ h with mem := fun y => if y = b then some (x, nx) else h.mem y } : Heap (Entry K D)).Ok :=
        r.ok.write (Heap.write_ok hb0.2)
      refine ⟨rfl, setA A s (l0 ++ [(b, x)] ++ l2), ?_⟩
      refine and_assoc.1 ⟨?_, Keeps.split f1 f3⟩
      refine r.replace s hs (l0 ++ [(b, x)] ++ l2) (ht.buckets s) (hok1.free (Heap.free_ok hma)) (by first | rfl | exact r.prime) rfl
        (by simp [r.entries]) r.resizings r.retrievals r.hits r.misses (by first | rfl | exact r.ro) (by simp [setSlot_self]) (by simp)
        hsub ?_ ?_ ?_ rfl
      · have h7 := relink hseg hbl.1 nx
        refine Seg.append (q := nx) (h7.frame (fun y hy => ?_)) (f6.frame (fun y hy => ?_))
        · have : y ≠ a := by rintro rfl; exact ha1.1 hy
          simp only [this, if_false]
        · have e1 : y ≠ a := by rintro rfl; exact ha1.2 hy
          have e2 : y ≠ b := by rintro rfl; exact hbl.2 hy
          simp only [e1, e2, if_false]
      · intro y hy
        have e1 : y ≠ a := by rintro rfl; exact hy (by rw [f1]; simp)
        have e2 : y ≠ b := by rintro rfl; exact hy (by rw [f1]; simp)
        simp only [e1, e2, if_false]
      · intro y hy hny
        have : y = a := hrest y hy hny
        simp only [this, if_true]

theorem hdelete_hrep {ops : KeyOps K} {h : Heap (Entry K D)} {ht : HTab} {t : Tab K D} {A}
    (r : HRep h ht t A) (key : K) :
    Spec.ResRel (fun c b => c.2 = b.2 ∧ ∃ A', HRep c.1.1 c.1.2 b.1 A' ∧
        Eff h c.1.1 (Foot t.prime A) (Foot b.1.prime A'))
      (hdelete ops h ht key) (Tab.delete ops t key) := by
  have := hdelete_hrep_keeps (ops := ops) r key
  cases hc : hdelete ops h ht key <;> cases hb : Tab.delete ops t key <;> rw [hc, hb] at this <;>
    simp only [Spec.ResRel] at this ⊢
  obtain ⟨h1, A', h2, h3, -⟩ := this
  exact ⟨h1, A', h2, h3⟩

theorem hretrieve_hrep_keeps {ops : KeyOps K} {h : Heap (Entry K D)} {ht : HTab} {t : Tab K D} {A}
    (r : HRep h ht t A) (key : K) :
    Spec.ResRel (fun c b => c.2 = b.2 ∧ ∃ A', HRep c.1.1 c.1.2 b.1 A' ∧
        Eff h c.1.1 (Foot t.prime A) (Foot b.1.prime A') ∧
        (t.readonly ≠ 0 → A' = A ∧ c.1.1 = h ∧ c.1.2.buckets = ht.buckets) ∧ Keeps ops key A A')
      (hretrieve ops h ht key) (Tab.retrieve ops t key) := by
  unfold hretrieve Tab.retrieve
  simp only
  rw [r.prime]
  by_cases hp : t.prime = 0
  · rw [if_pos hp, if_pos hp]; trivial
  rw [if_neg hp, if_neg hp]
  have hs : ops.hash key % t.prime < t.prime := Nat.mod_lt _ (by omega)
  generalize hsd : ops.hash key % t.prime = s at hs
  have hents := r.ents _ hs
  have hchain := r.chain _ hs
  have same : ∀ (ht' : HTab) (t' : Tab K D), ht'.prime = t'.prime → t'.prime = t.prime →
      ht'.entries = t'.entries → ht'.resizings = t'.resizings → ht'.retrievals = t'.retrievals →
      ht'.hits = t'.hits → ht'.misses = t'.misses → ht'.readonly = t'.readonly → ht'.buckets = ht.buckets →
      t'.buckets = t.buckets → HRep h ht' t' A ∧ Eff h h (Foot t.prime A) (Foot t'.prime A) := by
    intro ht' t' e1 e2 e3 e4 e5 e6 e7 e8 e9 e10
    refine ⟨⟨r.ok, e1, e3, e4, e5, e6, e7, e8, ?_, ?_, ?_⟩, by rw [e2]; exact Eff.refl _ _⟩
    · intro i hi; rw [e9]; exact r.chain i (e2 ▸ hi)
    · intro i hi; rw [e10]; exact r.ents i (e2 ▸ hi)
    · intro i hi j hj; exact r.disj i (e2 ▸ hi) j (e2 ▸ hj)
  rcases findLoop_ok ops key h (A s) h.clock 0 (ht.buckets s) (Heap.Chain.length_lt r.ok hchain)
    hchain with ⟨f1, f2⟩ | ⟨l1, a, e, l2, nx, f1, f2, f3, f4, f5, f6⟩
  · rw [f1]
    rw [all_eq_any, hents] at f2
    simp only [Res.bind]
    obtain ⟨g1, g2⟩ := same { ht with prime := t.prime, retrievals := ht.retrievals + 1, misses := ht.misses + 1 }
      { t with retrievals := t.retrievals + 1, misses := t.misses + 1 } rfl rfl r.entries r.resizings
      (by simp [r.retrievals]) r.hits (by simp [r.misses]) r.ro rfl rfl
    cases hb : t.buckets s with
    | nil => exact ⟨rfl, A, g1, g2, fun _ => ⟨rfl, rfl, rfl⟩, Keeps.refl _ _ _⟩
    | cons c rest =>
      rw [hb] at f2
      simp only [f2 c (by simp), Bool.false_eq_true, if_false]
      have : rest.find? (fun pt => ops.cmp pt.key key == 0) = none := by
        rw [List.find?_eq_none]; intro x hx; rw [f2 x (by simp [hx])]; simp
      rw [this]
      exact ⟨rfl, A, g1, g2, fun _ => ⟨rfl, rfl, rfl⟩, Keeps.refl _ _ _⟩
  · rw [f4]
    rw [all_eq_any] at f2
    have hnd := Heap.Chain.nodup hchain
    have hmap : t.buckets s = l1.map Prod.snd ++ e :: l2.map Prod.snd := by rw [← hents, f1]; simp
    rw [hmap]
    simp only [Res.bind]
    rw [f1] at hchain hnd
    rcases nil_or_snoc l1 with rfl | ⟨l0, b, x, rfl⟩
    · simp only [List.getLast?_nil, Option.map_none, Option.getD_none, if_true, List.map_nil, List.nil_append, f3]
      obtain ⟨g1, g2⟩ := same { ht with retrievals := ht.retrievals + 1, hits := ht.hits + 1 }
        { t with retrievals := t.retrievals + 1, hits := t.hits + 1 } r.prime rfl r.entries r.resizings
        (by simp [r.retrievals]) (by simp [r.hits]) r.misses r.ro rfl rfl
      exact ⟨rfl, A, by simpa [r.prime, r.ro] using g1, g2, fun _ => ⟨rfl, rfl, rfl⟩, Keeps.refl _ _ _⟩
    · have hseg : Seg h.mem (ht.buckets s) (l0 ++ [(b, x)]) a := by
        have h5 := hchain
        obtain ⟨q, q1, q2⟩ := Seg.split h5
        rwa [q2.1] at q1
      have hb0 : b ≠ 0 ∧ h.mem b = some (x, a) := by
        obtain ⟨q, q1, q2⟩ := Seg.split hseg
        obtain ⟨q3, q4, n, q5, q6⟩ := q2
        have : n = a := q6
        exact ⟨q4, by rw [← this]; exact q5⟩
      have hprev : (Option.map Prod.fst (l0 ++ [(b, x)]).getLast?).getD 0 = b := by simp
      rw [hprev, if_neg hb0.1, r.ro]
      -- the chain-level search
      obtain ⟨c0, rest, hcr⟩ : ∃ c0 rest, (l0 ++ [(b, x)]).map Prod.snd = c0 :: rest := by
        cases l0 with
        | nil => exact ⟨_, _, rfl⟩
        | cons d l0 => exact ⟨_, _, rfl⟩
      rw [hcr] at f2
      rw [hcr]
      simp only [List.cons_append, f2 c0 (by simp), Bool.false_eq_true, if_false]
      rw [find?_split (fun e he => f2 e (by simp [he])) f3, eraseP_split (fun e he => f2 e (by simp [he])) f3]
      simp only
      by_cases hro : t.readonly = 0
      · rw [if_pos hro, if_pos hro, Heap.read_ok hb0.2]
        have ha1 : a ∉ addrs (l0 ++ [(b, x)]) ∧ a ∉ addrs l2 := by
          simp only [List.map_append, List.map_cons] at hnd
          rw [List.nodup_append] at hnd
          obtain ⟨n1, n2, n3⟩ := hnd
          rw [List.nodup_cons] at n2
          exact ⟨fun hin => n3 a (by simpa using hin) a (by simp) rfl, n2.1⟩
        have hba : a ≠ b := by
          rintro rfl; exact ha1.1 (by simp)
        have hbl : b ∉ addrs l0 ∧ b ∉ addrs l2 := by
          simp only [List.map_append, List.map_cons, List.map_nil, List.append_assoc] at hnd
          rw [List.nodup_append] at hnd
          obtain ⟨n1, n2, n3⟩ := hnd
          refine ⟨fun hin => n3 b hin b (by simp) rfl, fun hin => ?_⟩
          simp only [List.cons_append, List.nil_append, List.nodup_cons] at n2
          exact n2.1 (by simp at hin ⊢; exact Or.inr hin)
        simp only [Res.bind]
        rw [Heap.write_ok hb0.2]
        simp only [Res.bind]
        have hma : (if a = b then some (x, nx) else h.mem a) = some (e, nx) := by rw [if_neg hba, f5]
        rw [Heap.write_ok (h := { h with mem := fun y => if y = b then some (x, nx) else h.mem y }) hma]
        simp only [Res.bind]
        have hok1 : ({ h with mem := fun y => if y = b then some (x, nx) else h.mem y } : Heap (Entry K D)).Ok :=
          r.ok.write (Heap.write_ok hb0.2)
        have ha0 : a ≠ 0 := by
          obtain ⟨q, q1, q2⟩ := Seg.split hchain
          exact q2.2.1
        refine ⟨rfl, setA A s ((a, e) :: (l0 ++ [(b, x)] ++ l2)), ?_⟩
        have := r.replace (h' := { h with mem := fun y => if y = a then some (e, ht.buckets s) else
            (if y = b then some (x, nx) else h.mem y) })
          (ht' := { ht with retrievals := ht.retrievals + 1, buckets := setSlot ht.buckets s a })
          (t' := { t with retrievals := t.retrievals + 1,
                          buckets := Tab.setBucket t.buckets s (e :: c0 :: (rest ++ l2.map Prod.snd)) })
          s hs ((a, e) :: (l0 ++ [(b, x)] ++ l2)) a (hok1.write (Heap.write_ok hma)) (by first | rfl | exact r.prime) rfl
          r.entries r.resizings (by simp [r.retrievals]) r.hits r.misses (by first | rfl | exact r.ro) rfl
          (by
            have : (((a, e) :: (l0 ++ [(b, x)] ++ l2)).map Prod.snd) = e :: c0 :: (rest ++ l2.map Prod.snd) := by
              rw [List.map_cons, List.map_append, hcr]; rfl
            rw [this])
          (by intro y hy; rw [f1]; simp at hy ⊢; tauto)
          (by
            refine ⟨rfl, ha0, ht.buckets s, by simp, ?_⟩
            have h7 := relink hseg hbl.1 nx
            refine Seg.append (q := nx) (h7.frame (fun y hy => ?_)) (f6.frame (fun y hy => ?_))
            · have : y ≠ a := by rintro rfl; exact ha1.1 hy
              simp only [this, if_false]
            · have e1 : y ≠ a := by rintro rfl; exact ha1.2 hy
              have e2 : y ≠ b := by rintro rfl; exact hbl.2 hy
              simp only [e1, e2, if_false])
          (by
            intro y hy
            have e1 : y ≠ a := by rintro rfl; exact hy (by rw [f1]; simp)
            have e2 : y ≠ b := by rintro rfl; exact hy (by rw [f1]; simp)
            simp only [e1, e2, if_false])
          (by
            intro y hy hny
            exfalso
            rw [f1] at hy
            simp at hy hny
            tauto)
          rfl
        exact ⟨by simpa [r.prime, r.ro] using this.1, this.2, fun h => absurd hro h,
          Keeps.split (p' := (a, e) :: (l0 ++ [(b, x)])) f1 f3⟩
      · rw [if_neg hro, if_neg hro]
        obtain ⟨g1, g2⟩ := same { ht with retrievals := ht.retrievals + 1 }
          { t with retrievals := t.retrievals + 1 } r.prime rfl r.entries r.resizings
          (by simp [r.retrievals]) r.hits r.misses (by first | rfl | exact r.ro) rfl rfl
        exact ⟨rfl, A, by simpa [r.prime, r.ro] using g1, g2, fun _ => ⟨rfl, rfl, rfl⟩, Keeps.refl _ _ _⟩

theorem hretrieve_hrep {ops : KeyOps K} {h : Heap (Entry K D)} {ht : HTab} {t : Tab K D} {A}
    (r : HRep h ht t A) (key : K) :
    Spec.ResRel (fun c b => c.2 = b.2 ∧ ∃ A', HRep c.1.1 c.1.2 b.1 A' ∧
        Eff h c.1.1 (Foot t.prime A) (Foot b.1.prime A') ∧
        (t.readonly ≠ 0 → A' = A ∧ c.1.1 = h ∧ c.1.2.buckets = ht.buckets))
      (hretrieve ops h ht key) (Tab.retrieve ops t key) := by
  have := hretrieve_hrep_keeps (ops := ops) r key
  cases hc : hretrieve ops h ht key <;> cases hb : Tab.retrieve ops t key <;> rw [hc, hb] at this <;>
    simp only [Spec.ResRel] at this ⊢
  obtain ⟨h1, A', h2, h3, h4, -⟩ := this
  exact ⟨h1, A', h2, h3, h4⟩

end Maa.HashHeap
