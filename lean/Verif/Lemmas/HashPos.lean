import Verif.Lemmas.HashHeap
import Verif.Lemmas.Hash
import Verif.Model.Hash

namespace Maa.HashHeap

open Tab (Entry Tab)
open Heap (Seg Chain)

variable {K D : Type}

/-- cells of the table in the order of the buckets, from bucket `k` on -/
def cellsFrom (n k : Nat) (A : Nat → List (Nat × Entry K D)) : List (Nat × Entry K D) :=
  ((List.range n).drop k).flatMap A

theorem drop_range (n k : Nat) (h : k < n) : (List.range n).drop k = k :: (List.range n).drop (k + 1) := by
  rw [List.drop_eq_getElem_cons (by simpa using h)]; simp

theorem cellsFrom_lt {n k : Nat} (A : Nat → List (Nat × Entry K D)) (h : k < n) :
    cellsFrom n k A = A k ++ cellsFrom n (k + 1) A := by
  unfold cellsFrom; rw [drop_range n k h, List.flatMap_cons]

theorem cellsFrom_ge {n k : Nat} (A : Nat → List (Nat × Entry K D)) (h : n ≤ k) : cellsFrom n k A = [] := by
  unfold cellsFrom; rw [List.drop_eq_nil_of_le (by simpa using h)]; rfl

/-- `p` is the position of the first of the remaining cells `rem` -/
def At (n : Nat) (A : Nat → List (Nat × Entry K D)) (p : Nat) (rem : List (Nat × Entry K D)) : Prop :=
  ∃ i l1 c l2, i < n ∧ A i = l1 ++ c :: l2 ∧ p = c.1 ∧ rem = c :: l2 ++ cellsFrom n (i + 1) A

theorem firstSlot_ok {h : Heap (Entry K D)} {ht : HTab} {t : Tab K D} {A} (r : HRep h ht t A) (m k : Nat)
    (hm : t.prime - k = m) :
    (cellsFrom t.prime k A = [] ∧ firstSlot ht.buckets ((List.range t.prime).drop k) = 0) ∨
    (firstSlot ht.buckets ((List.range t.prime).drop k) ≠ 0 ∧
      At t.prime A (firstSlot ht.buckets ((List.range t.prime).drop k)) (cellsFrom t.prime k A)) := by
  induction m generalizing k with
  | zero =>
    left
    refine ⟨cellsFrom_ge A (by omega), ?_⟩
    rw [List.drop_eq_nil_of_le (by simp; omega)]; rfl
  | succ m ih =>
    have hk : k < t.prime := by omega
    rw [cellsFrom_lt A hk, drop_range _ _ hk]
    simp only [firstSlot]
    have hc := r.chain k hk
    cases hA : A k with
    | nil =>
      rw [hA] at hc
      have h0 : ht.buckets k = 0 := hc
      simp only [h0, ne_eq, not_true_eq_false, if_false, List.nil_append]
      exact ih (k + 1) (by omega)
    | cons c l =>
      right
      rw [hA] at hc
      have h0 : ht.buckets k = c.1 := hc.1
      have h1 : c.1 ≠ 0 := hc.2.1
      rw [h0, if_pos h1]
      exact ⟨h1, k, [], c, l, hk, by simp [hA], rfl, by simp⟩

theorem At.cell {n : Nat} {A : Nat → List (Nat × Entry K D)} {p : Nat} {rem : List (Nat × Entry K D)}
    (h : At n A p rem) : ∃ e rest, rem = (p, e) :: rest ∧ ∃ i < n, (p, e) ∈ A i := by
  obtain ⟨i, l1, c, l2, h1, h2, h3, h4⟩ := h
  refine ⟨c.2, l2 ++ cellsFrom n (i + 1) A, by rw [h4, h3]; rfl, i, h1, by rw [h2, h3]; simp⟩

theorem cell_mem {h : Heap (Entry K D)} {ht : HTab} {t : Tab K D} {A} (r : HRep h ht t A) {i p : Nat}
    {e : Entry K D} (hi : i < t.prime) (hm : (p, e) ∈ A i) : p ≠ 0 ∧ ∃ nx, h.mem p = some (e, nx) := by
  obtain ⟨l1, l2, h1⟩ := List.append_of_mem hm
  have hc := r.chain i hi
  rw [h1] at hc
  obtain ⟨q, -, q2⟩ := Seg.split hc
  obtain ⟨-, h2, nx, h3, -⟩ := q2
  exact ⟨h2, nx, h3⟩

/-- `hsh_next_position` moves to the next remaining cell -/
theorem nextPosition_ok {h : Heap (Entry K D)} {ht : HTab} {t : Tab K D} {A} (r : HRep h ht t A)
    (slot : ∀ i < t.prime, ∀ e ∈ t.buckets i, e.hash % t.prime = i)
    {p : Nat} {e : Entry K D} {rest : List (Nat × Entry K D)} (hat : At t.prime A p ((p, e) :: rest)) :
    (rest = [] ∧ nextPosition h ht p = .ok ({ ht with readonly := 0 }, 0)) ∨
    (∃ q, q ≠ 0 ∧ nextPosition h ht p = .ok (ht, q) ∧ At t.prime A q rest) := by
  obtain ⟨i, l1, c, l2, h1, h2, h3, h4⟩ := hat
  have hc := r.chain i h1
  rw [h2] at hc
  obtain ⟨q0, -, hq⟩ := Seg.split hc
  obtain ⟨-, hp0, nx, hmem, htail⟩ := hq
  rw [List.cons_append] at h4
  simp only [List.cons.injEq] at h4
  obtain ⟨h5, h6⟩ := h4
  have hpm : h.mem p = some (c.2, nx) := by rw [h3]; exact hmem
  have hp : p ≠ 0 := by rw [h3]; exact hp0
  unfold nextPosition
  rw [if_neg hp, Heap.read_ok hpm]
  simp only [Res.bind]
  have hsl : c.2.hash % ht.prime = i := by
    rw [r.prime]
    exact slot i h1 c.2 (by rw [← r.ents i h1, h2]; simp)
  cases l2 with
  | cons d l2 =>
    right
    have hd : nx = d.1 := htail.1
    have hd0 : d.1 ≠ 0 := htail.2.1
    rw [hd, if_pos hd0]
    refine ⟨d.1, hd0, rfl, i, l1 ++ [c], d, l2, h1, by simp [h2], rfl, h6⟩
  | nil =>
    have hnx : nx = 0 := htail
    rw [if_neg (by simp [hnx]), if_neg (by rw [r.prime]; omega), hsl]
    rw [List.nil_append] at h6
    rw [h6]
    rcases firstSlot_ok r (t.prime - (i + 1)) (i + 1) rfl with ⟨f1, f2⟩ | ⟨f1, f2⟩
    · left
      rw [r.prime, f2]
      exact ⟨f1, by simp⟩
    · right
      rw [r.prime, if_pos f1]
      exact ⟨_, f1, rfl, f2⟩

theorem initPosition_ok {h : Heap (Entry K D)} {ht : HTab} {t : Tab K D} {A} (r : HRep h ht t A) :
    (cellsFrom t.prime 0 A = [] ∧ initPosition ht = (ht, 0)) ∨
    (∃ p, p ≠ 0 ∧ initPosition ht = ({ ht with readonly := 1 }, p) ∧ At t.prime A p (cellsFrom t.prime 0 A)) := by
  unfold initPosition
  simp only
  have := firstSlot_ok r (t.prime - 0) 0 rfl
  rw [List.drop_zero] at this
  rw [r.prime]
  rcases this with ⟨f1, f2⟩ | ⟨f1, f2⟩
  · left; rw [f2]; exact ⟨f1, by simp⟩
  · right; rw [if_pos f1]; exact ⟨_, f1, rfl, f2⟩

/-- lookups while the table is read-only change only counters -/
theorem lookups_ok {ops : KeyOps K} (law : ops.Lawful) (ks : List K) : ∀ {h : Heap (Entry K D)} {ht : HTab}
    {t : Tab K D} {A} {m : List (K × D)}, HRep h ht t A → Tab.Rep ops t m → t.readonly ≠ 0 →
    ∃ ht' t', lookups ops ks (h, ht) = .ok (h, ht') ∧ HRep h ht' t' A ∧ Tab.Rep ops t' m ∧
      t'.readonly = t.readonly ∧ t'.prime = t.prime := by
  induction ks with
  | nil => intro h ht t A m r rep ro; exact ⟨ht, t, rfl, r, rep, rfl, rfl⟩
  | cons k ks ih =>
    intro h ht t A m r rep ro
    have h1 := hretrieve_hrep (ops := ops) r k
    obtain ⟨t1, h2, h3, h4⟩ := Tab.retrieve_rep law rep k
    rw [h2] at h1
    cases hr : hretrieve ops h ht k <;> rw [hr] at h1 <;> simp only [Spec.ResRel] at h1
    rename_i c
    obtain ⟨-, A', h5, -, h6⟩ := h1
    obtain ⟨e1, e2, -⟩ := h6 ro
    subst e1
    rw [e2] at h5
    obtain ⟨ht', t', i1, i2, i3, i4, i5⟩ := ih h5 h3 (by rw [h4.readonly]; exact ro)
    refine ⟨ht', t', ?_, i2, i3, i4.trans h4.readonly, i5.trans h4.prime⟩
    simp only [lookups, hr, Res.bind]
    have : c.1 = (h, c.1.2) := by rw [← e2]
    rw [this]; exact i1

theorem HRep.withRo {h : Heap (Entry K D)} {ht : HTab} {t : Tab K D} {A} (r : HRep h ht t A) (f : Int) :
    HRep h { ht with readonly := f } { t with readonly := f } A :=
  ⟨r.ok, r.prime, r.entries, r.resizings, r.retrievals, r.hits, r.misses, rfl, r.chain, r.ents, r.disj⟩

theorem positionLoop_ok {ops : KeyOps K} (law : ops.Lawful) (body : Nat → List K) {h : Heap (Entry K D)} {A}
    {m : List (K × D)} (rem : List (Nat × Entry K D)) : ∀ (n : Nat) (ht : HTab) (t : Tab K D) (p : Nat)
    (acc : List ((K × D) × Int)), rem.length < n → HRep h ht t A → Tab.Rep ops t m → t.readonly = 1 →
    At t.prime A p rem →
    ∃ ht' t', positionLoop ops body n (h, ht) p acc =
        .ok ((h, ht'), acc ++ rem.map fun c => ((c.2.key, c.2.datum), 1)) ∧
      HRep h ht' t' A ∧ Tab.Rep ops t' m ∧ t'.readonly = 0 ∧ t'.prime = t.prime := by
  induction rem with
  | nil =>
    intro n ht t p acc hn r rep ro hat
    obtain ⟨e, rest, h1, -⟩ := hat.cell
    simp at h1
  | cons c rest ih =>
    intro n ht t p acc hn r rep ro hat
    cases n with
    | zero => omega
    | succ n =>
      obtain ⟨e, rest', h1, i, hi, hmem⟩ := hat.cell
      simp only [List.cons.injEq] at h1
      obtain ⟨h1, h1'⟩ := h1
      subst h1'
      rw [h1] at hat ⊢
      obtain ⟨hp0, nx, hm⟩ := cell_mem r hi hmem
      have hro : t.readonly ≠ 0 := by rw [ro]; decide
      obtain ⟨ht1, t1, l1, l2, l3, l4, l5⟩ := lookups_ok law (body p) r rep hro
      rw [← l5] at hat
      have hread : ht.readonly = 1 := r.ro.trans ro
      simp only [positionLoop, if_neg hp0, getPosition, Heap.read_ok hm, Res.bind, l1]
      rcases nextPosition_ok l2 (fun i hi e he => (l3.inv.slot i hi e he).2) hat with ⟨f1, f2⟩ | ⟨q, f1, f2, f3⟩
      · rw [f2]
        simp only
        cases n with
        | zero => simp at hn
        | succ n =>
          refine ⟨{ ht1 with readonly := 0 }, { t1 with readonly := 0 }, ?_, l2.withRo 0,
            l3.congr rfl rfl rfl, rfl, l5⟩
          simp [positionLoop, f1, hread]
      · rw [f2]
        simp only
        obtain ⟨ht', t', j1, j2, j3, j4, j5⟩ := ih n ht1 t1 q (acc ++ [((e.key, e.datum), ht.readonly)])
          (by simp at hn; omega) l2 l3 (l4.trans ro) f3
        refine ⟨ht', t', ?_, j2, j3, j4, j5.trans l5⟩
        rw [j1]
        simp [hread]

theorem cells_map {h : Heap (Entry K D)} {ht : HTab} {t : Tab K D} {A} (r : HRep h ht t A) :
    (cellsFrom t.prime 0 A).map Prod.snd = Tab.all t := by
  unfold cellsFrom Tab.all
  rw [List.drop_zero, List.map_flatMap, List.flatMap_def, List.flatMap_def]
  congr 1
  apply List.map_congr_left
  intro i hi
  exact r.ents i (List.mem_range.1 hi)

/-- the whole loop, from `hsh_init_position` on -/
theorem positions_ok {ops : KeyOps K} (law : ops.Lawful) (body : Nat → List K) {h : Heap (Entry K D)}
    {ht : HTab} {t : Tab K D} {A} {m : List (K × D)} (r : HRep h ht t A) (rep : Tab.Rep ops t m) (n : Nat)
    (hn : m.length < n) :
    ∃ ht' t' log, positionLoop ops body n (h, (initPosition ht).1) (initPosition ht).2 [] = .ok ((h, ht'), log) ∧
      (log.map Prod.fst).Perm m ∧ (∀ x ∈ log, x.2 = 1) ∧
      (m ≠ [] → ht'.readonly = 0) ∧ (m = [] → ht' = ht) ∧ HRep h ht' t' A ∧ Tab.Rep ops t' m ∧
      t'.prime = t.prime := by
  have hperm : ((cellsFrom t.prime 0 A).map fun c => (c.2.key, c.2.datum)).Perm m := by
    have := rep.perm
    unfold Tab.pairsOf at this
    rw [← cells_map r, List.map_map] at this
    exact this
  have hlen : (cellsFrom t.prime 0 A).length = m.length := by
    rw [← hperm.length_eq, List.length_map]
  rcases initPosition_ok r with ⟨i1, i2⟩ | ⟨p, i0, i1, i2⟩
  · have hm : m = [] := by
      rw [i1] at hlen
      exact List.length_eq_zero_iff.1 hlen.symm
    rw [i2]
    cases n with
    | zero => omega
    | succ n =>
      exact ⟨ht, t, [], by simp [positionLoop], by simp [hm], by simp, fun h => absurd hm h, fun _ => rfl, r, rep, rfl⟩
  · rw [i1]
    have hm : m ≠ [] := by
      intro hm
      obtain ⟨e, rest, h1, -⟩ := i2.cell
      rw [h1, hm] at hlen
      simp at hlen
    obtain ⟨ht', t', j1, j2, j3, j4, j5⟩ := positionLoop_ok law body (cellsFrom t.prime 0 A) n
      { ht with readonly := 1 } { t with readonly := 1 } p [] (by omega) (r.withRo 1) (rep.congr rfl rfl rfl) rfl i2
    refine ⟨ht', t', _, j1, ?_, ?_, fun _ => j2.ro.trans j4, fun h => absurd h hm, j2, j3, j5⟩
    · rw [List.nil_append, List.map_map]; exact hperm
    · intro x hx
      rw [List.nil_append] at hx
      obtain ⟨c, -, rfl⟩ := List.mem_map.1 hx
      rfl

/-- memory of a table living in a program that started with memory `h0` -/
structure Owns (h0 h : Heap (Entry K D)) (n : Nat) (A : Nat → List (Nat × Entry K D)) : Prop where
  mono : h0.clock ≤ h.clock
  old : ∀ a, (h0.mem a).isSome → h.mem a = h0.mem a
  live : ∀ a, h0.mem a = none → ((h.mem a).isSome ↔ Foot n A a)
  new : ∀ a, Foot n A a → h0.mem a = none

theorem Owns.step {h0 h h' : Heap (Entry K D)} {ht' : HTab} {t t' : Tab K D} {A A'}
    (o : Owns h0 h t.prime A) (r' : HRep h' ht' t' A')
    (e : Eff h h' (Foot t.prime A) (Foot t'.prime A')) : Owns h0 h' t'.prime A' := by
  have hold : ∀ a, (h0.mem a).isSome → ¬ Foot t.prime A a := fun a ha hf => by
    rw [o.new a hf] at ha; simp at ha
  have hnew : ∀ a, Foot t'.prime A' a → h0.mem a = none := by
    intro a ha
    rcases e.grow a ha with h1 | h1
    · exact o.new a h1
    · by_contra hn
      have := o.old a (Option.isSome_iff_ne_none.2 hn)
      rw [h1] at this
      exact hn this.symm
  refine ⟨Nat.le_trans o.mono e.mono, ?_, ?_, hnew⟩
  · intro a ha
    rw [e.frame a (by rw [o.old a ha]; exact ha) (hold a ha), o.old a ha]
  · intro a ha
    constructor
    · intro hs
      by_contra hnf
      by_cases hf : Foot t.prime A a
      · rw [e.freed a hf hnf] at hs; simp at hs
      · cases hm : h.mem a with
        | none => exact hnf (e.owned a hm hs)
        | some c => exact hf ((o.live a ha).1 (by rw [hm]; rfl))
    · rintro ⟨i, hi, hai⟩
      exact (Seg.live (r'.chain i hi) a hai).1

theorem Owns.refl (h : Heap (Entry K D)) (n : Nat) : Owns h h n (fun _ => []) :=
  ⟨Nat.le_refl _, fun _ _ => rfl,
    fun a ha => ⟨fun hs => by rw [ha] at hs; simp at hs, by rintro ⟨i, -, hi⟩; simp at hi⟩,
    by rintro a ⟨i, -, hi⟩; simp at hi⟩

/-- a writable table can be destroyed, and memory is then as it was before the table existed -/
theorem destroy_ok {h0 h : Heap (Entry K D)} {ht : HTab} {t : Tab K D} {A} (r : HRep h ht t A)
    (o : Owns h0 h t.prime A) (ro : ht.readonly = 0) : ∃ h', hdestroy h ht = .ok h' ∧ h'.mem = h0.mem ∧ h'.Ok := by
  obtain ⟨h', f1, f2, f3, f4, f5⟩ := freeAll_ok ht.buckets A h.clock (List.range t.prime) h r.ok
    List.nodup_range
    (fun i hi => by
      have hi := List.mem_range.1 hi
      exact ⟨Heap.Chain.length_lt r.ok (r.chain i hi), r.chain i hi⟩)
    (fun i hi j hj => r.disj i (List.mem_range.1 hi) j (List.mem_range.1 hj))
  refine ⟨h', by unfold hdestroy; rw [if_neg (by simp [ro]), r.prime, f1], ?_, f3⟩
  funext a
  by_cases hf : Foot t.prime A a
  · obtain ⟨i, hi, ha⟩ := hf
    rw [f4 a ⟨i, List.mem_range.2 hi, ha⟩, o.new a ⟨i, hi, ha⟩]
  · rw [f5 a (by rintro ⟨i, hi, ha⟩; exact hf ⟨i, List.mem_range.1 hi, ha⟩)]
    cases hm : h0.mem a with
    | some c => rw [← hm]; exact o.old a (by rw [hm]; rfl)
    | none =>
      by_contra hn
      exact hf ((o.live a hm).1 (Option.isSome_iff_ne_none.2 hn))

/-- pointer-level table, chain-level table and map agree -/
def PSim (ops : KeyOps K) (h0 : Heap (Entry K Ptr)) (s : Heap (Entry K Ptr) × HTab) (m : Spec.MapState K) : Prop :=
  ∃ t A, HRep s.1 s.2 t A ∧ Hash.Sim ops t m ∧ Owns h0 s.1 t.prime A

theorem heapStep_ref {ops : KeyOps K} {h : Heap (Entry K Ptr)} {ht : HTab} {t : Tab K Ptr} {A}
    (r : HRep h ht t A) (o : Spec.HashOp K) :
    Spec.ResRel (fun c b => c.2 = b.2 ∧ ∃ A', HRep c.1.1 c.1.2 b.1 A' ∧
        Eff h c.1.1 (Foot t.prime A) (Foot b.1.prime A'))
      (heapStep ops (h, ht) o) (Hash.hshStep ops t o) := by
  cases o with
  | insert k d =>
    simp only [heapStep, Hash.hshStep, Hash.hshInsert]
    refine Spec.ResRel.bind (hinsert_hrep r k d) ?_
    rintro c b ⟨h1, h2⟩
    exact ⟨by rw [h1], h2⟩
  | delete k =>
    simp only [heapStep, Hash.hshStep, Hash.hshDelete]
    refine Spec.ResRel.bind (hdelete_hrep r k) ?_
    rintro c b ⟨h1, h2⟩
    exact ⟨by rw [h1], h2⟩
  | retrieve k =>
    simp only [heapStep, Hash.hshStep, Hash.hshRetrieve]
    have := hretrieve_hrep (ops := ops) r k
    cases hc : hretrieve ops h ht k <;> cases hb : Tab.retrieve ops t k <;> rw [hc, hb] at this <;>
      simp only [Spec.ResRel] at this <;> try trivial
    obtain ⟨h1, A', h2, h3, -⟩ := this
    rename_i c b
    obtain ⟨c1, c2⟩ := c
    obtain ⟨b1, b2⟩ := b
    simp only at h1
    subst h1
    cases c2 <;> exact ⟨rfl, A', h2, h3⟩
  | readonly f =>
    simp only [heapStep, Hash.hshStep, Hash.hshReadonly, Tab.setReadonly]
    exact ⟨by simp [r.ro], A, r.withRo f, Eff.refl _ _⟩

theorem heapStep_sim {ops : KeyOps K} (law : ops.Lawful) (h0 : Heap (Entry K Ptr))
    (s : Heap (Entry K Ptr) × HTab) (m : Spec.MapState K) (o : Spec.HashOp K) (hs : PSim ops h0 s m) :
    Spec.ResRel (fun c b => c.2 = b.2 ∧ PSim ops h0 c.1 b.1) (heapStep ops s o)
      (Spec.hashStep (eqv ops) m o) := by
  obtain ⟨t, A, r, sim, ow⟩ := hs
  have h1 := heapStep_ref (ops := ops) (h := s.1) (ht := s.2) r o
  have h2 := Hash.step_sim law t m o sim
  cases hc : heapStep ops s o <;> cases hb : Hash.hshStep ops t o <;> rw [hc, hb] at h1 <;>
    simp only [Spec.ResRel] at h1 <;> cases ha : Spec.hashStep (eqv ops) m o <;> rw [hb, ha] at h2 <;>
    simp only [Spec.ResRel] at h2 <;> try trivial
  obtain ⟨e1, A', r', ef⟩ := h1
  exact ⟨e1.trans h2.1, _, A', r', h2.2, ow.step r' ef⟩

theorem heap_history {ops : KeyOps K} (law : ops.Lawful) (h0 : Heap (Entry K Ptr)) (ok0 : h0.Ok)
    (hist : List (Spec.HashOp K)) :
    ∃ ht, hcreate 0 = .ok ht ∧
      Spec.ResRel (fun c b => c.2 = b.2 ∧ PSim ops h0 c.1 b.1)
        (Spec.run (heapStep ops) (h0, ht) hist) (Spec.run (Spec.hashStep (eqv ops)) {} hist) := by
  obtain ⟨ht, t, h1, h2, h3, h4⟩ := hcreate_hrep (D := Ptr) h0 ok0 0
  obtain ⟨t', h5, h6⟩ := Hash.create_sim ops
  have : t' = t := by
    have h7 : Tab.create (K := K) (D := Ptr) 0 = .ok t' := h5
    rw [h2] at h7; simpa using h7.symm
  subst this
  exact ⟨ht, h1, Spec.run_sim (PSim ops h0) _ _ (heapStep_sim law h0) (h0, ht) {} hist
    ⟨t', _, h4, h6, Owns.refl h0 _⟩⟩

/-- the same for one set -/
def SSim (ops : KeyOps K) (h0 : Heap (Entry K Unit)) (s : Heap (Entry K Unit) × HTab) (m : Spec.OneSet K) : Prop :=
  ∃ t A, HRep s.1 s.2 t A ∧ Tab.Rep ops t m.elems ∧ t.readonly = m.readonly ∧ Owns h0 s.1 t.prime A

theorem setHeapStep_sim {ops : KeyOps K} (law : ops.Lawful) (h0 : Heap (Entry K Unit))
    (s : Heap (Entry K Unit) × HTab) (m : Spec.OneSet K) (o : Spec.OneSetOp K) (hs : SSim ops h0 s m) :
    Spec.ResRel (fun c b => c.2 = b.2 ∧ SSim ops h0 c.1 b.1) (setHeapStep ops s o)
      (Spec.oneSetStep (eqv ops) m o) := by
  obtain ⟨t, A, r, rep, ro, ow⟩ := hs
  cases o with
  | insert k =>
    have h1 := hinsert_hrep (ops := ops) r k ()
    simp only [setHeapStep, Spec.oneSetStep]
    by_cases hro : m.readonly ≠ 0
    · rw [if_pos hro]
      have : Tab.insert ops t k () = .abort := by simp [Tab.insert, ro, hro]
      rw [this] at h1
      cases hc : hinsert ops s.1 s.2 k () <;> rw [hc] at h1 <;> simp only [Spec.ResRel] at h1 ⊢
    · rw [if_neg hro]
      obtain ⟨t', i1, i2, i3, -⟩ := Tab.insert_rep law rep (by rw [ro]; simpa using hro) k ()
      rw [i1] at h1
      cases hc : hinsert ops s.1 s.2 k () <;> rw [hc] at h1 <;> simp only [Spec.ResRel] at h1 ⊢
      obtain ⟨e1, A', r', ef⟩ := h1
      exact ⟨e1, t', A', r', i2, i3.trans ro, ow.step r' ef⟩
  | delete k =>
    have h1 := hdelete_hrep (ops := ops) r k
    simp only [setHeapStep, Spec.oneSetStep]
    by_cases hro : m.readonly ≠ 0
    · rw [if_pos hro]
      have : Tab.delete ops t k = .abort := by
        have := rep.inv.pos
        simp [Tab.delete, ro, hro, show t.prime ≠ 0 by omega]
      rw [this] at h1
      cases hc : hdelete ops s.1 s.2 k <;> rw [hc] at h1 <;> simp only [Spec.ResRel] at h1 ⊢
    · rw [if_neg hro]
      obtain ⟨t', i1, i2, i3, -⟩ := Tab.delete_rep law rep (by rw [ro]; simpa using hro) k
      rw [i1] at h1
      cases hc : hdelete ops s.1 s.2 k <;> rw [hc] at h1 <;> simp only [Spec.ResRel] at h1 ⊢
      obtain ⟨e1, A', r', ef⟩ := h1
      exact ⟨e1, t', A', r', i2, i3.trans ro, ow.step r' ef⟩
  | member k =>
    have h1 := hretrieve_hrep (ops := ops) r k
    simp only [setHeapStep, Spec.oneSetStep]
    obtain ⟨t', i1, i2, i3⟩ := Tab.retrieve_rep law rep k
    rw [i1] at h1
    cases hc : hretrieve ops s.1 s.2 k <;> rw [hc] at h1 <;> simp only [Spec.ResRel, Res.bind] at h1 ⊢
    obtain ⟨e1, A', r', ef, -⟩ := h1
    refine ⟨?_, t', A', r', i2, i3.readonly.trans ro, ow.step r' ef⟩
    rw [e1]
    cases Spec.find (eqv ops) m.elems k <;> rfl
  | readonly f =>
    simp only [setHeapStep, Spec.oneSetStep]
    exact ⟨by rw [← ro]; exact r.ro, _, A, r.withRo f, rep.congr rfl rfl rfl, rfl, ow⟩

theorem set_history {ops : KeyOps K} (law : ops.Lawful) (h0 : Heap (Entry K Unit)) (ok0 : h0.Ok)
    (hist : List (Spec.OneSetOp K)) :
    ∃ ht, hcreate 0 = .ok ht ∧
      Spec.ResRel (fun c b => c.2 = b.2 ∧ SSim ops h0 c.1 b.1)
        (Spec.run (setHeapStep ops) (h0, ht) hist) (Spec.run (Spec.oneSetStep (eqv ops)) {} hist) := by
  obtain ⟨ht, t, h1, h2, h3, h4⟩ := hcreate_hrep (D := Unit) h0 ok0 0
  obtain ⟨t', h5, h6, -, h7, h8, h9, -⟩ := Tab.create_ok (K := K) (D := Unit) 0
  have : t' = t := by rw [h2] at h5; simpa using h5.symm
  subst this
  exact ⟨ht, h1, Spec.run_sim (SSim ops h0) _ _ (setHeapStep_sim law h0) (h0, ht) {} hist
    ⟨t', _, h4, Tab.create_rep ops t' h6 h8 h7, h9, Owns.refl h0 _⟩⟩

/-- agreement up to the call counters -/
def PSim0 (ops : KeyOps K) (s : Heap (Entry K Ptr) × HTab) (m : Spec.MapState K) : Prop :=
  ∃ t A, HRep s.1 s.2 t A ∧ Tab.Rep ops t m.map ∧ t.readonly = m.readonly

theorem step_sim0 {ops : KeyOps K} (law : ops.Lawful) (t : Tab K Ptr) (s : Spec.MapState K)
    (o : Spec.HashOp K) (rep : Tab.Rep ops t s.map) (ro : t.readonly = s.readonly) :
    Spec.ResRel (fun c b => c.2 = b.2 ∧ Tab.Rep ops c.1 b.1.map ∧ c.1.readonly = b.1.readonly)
      (Hash.hshStep ops t o) (Spec.hashStep (eqv ops) s o) := by
  cases o with
  | insert k d =>
    simp only [Hash.hshStep, Spec.hashStep, Hash.hshInsert]
    by_cases hro : s.readonly = 0
    · obtain ⟨t', h1, h2, h3, -⟩ := Tab.insert_rep law rep (ro.trans hro) k d
      rw [h1, if_neg (by simp [hro])]
      exact ⟨rfl, h2, h3.trans ro⟩
    · rw [if_pos hro]
      have : t.readonly ≠ 0 := by rw [ro]; exact hro
      simp [Tab.insert, this, Res.bind, Spec.ResRel]
  | delete k =>
    simp only [Hash.hshStep, Spec.hashStep, Hash.hshDelete]
    by_cases hro : s.readonly = 0
    · obtain ⟨t', h1, h2, h3, -⟩ := Tab.delete_rep law rep (ro.trans hro) k
      rw [h1, if_neg (by simp [hro])]
      exact ⟨rfl, h2, h3.trans ro⟩
    · rw [if_pos hro]
      have : t.readonly ≠ 0 := by rw [ro]; exact hro
      have hp : t.prime ≠ 0 := by have := rep.inv.pos; omega
      simp [Tab.delete, this, hp, Res.bind, Spec.ResRel]
  | retrieve k =>
    simp only [Hash.hshStep, Spec.hashStep, Hash.hshRetrieve]
    obtain ⟨t', h1, h2, h3⟩ := Tab.retrieve_rep law rep k
    rw [h1]
    cases hf : Spec.find (eqv ops) s.map k <;> exact ⟨rfl, h2, h3.readonly.trans ro⟩
  | readonly f =>
    simp only [Hash.hshStep, Spec.hashStep, Hash.hshReadonly, Tab.setReadonly]
    exact ⟨by simp [ro], rep.congr rfl rfl rfl, rfl⟩

theorem heapStep_sim0 {ops : KeyOps K} (law : ops.Lawful)
    (s : Heap (Entry K Ptr) × HTab) (m : Spec.MapState K) (o : Spec.HashOp K) (hs : PSim0 ops s m) :
    Spec.ResRel (fun c b => c.2 = b.2 ∧ PSim0 ops c.1 b.1) (heapStep ops s o)
      (Spec.hashStep (eqv ops) m o) := by
  obtain ⟨t, A, r, rep, ro⟩ := hs
  have h1 := heapStep_ref (ops := ops) (h := s.1) (ht := s.2) r o
  have h2 := step_sim0 law t m o rep ro
  cases hc : heapStep ops s o <;> cases hb : Hash.hshStep ops t o <;> rw [hc, hb] at h1 <;>
    simp only [Spec.ResRel] at h1 <;> cases ha : Spec.hashStep (eqv ops) m o <;> rw [hb, ha] at h2 <;>
    simp only [Spec.ResRel] at h2 <;> try trivial
  obtain ⟨e1, A', r', ef⟩ := h1
  exact ⟨e1.trans h2.1, _, A', r', h2.2.1, h2.2.2⟩

end Maa.HashHeap
