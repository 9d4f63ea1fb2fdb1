import Verif.Model.Watch
import Verif.Lemmas.TabLoose
import Verif.Lemmas.HashStats
import Verif.Lemmas.HashIter
import Verif.Lemmas.SetIter
import Verif.Props.Hash

/-! # C99: what a program sees of a hash table or set does not depend on addresses -/

namespace Maa.HashHeap

open Tab (Entry Tab Kept stored)
open Heap (Seg Chain)
open Spec (ResRel observe)

variable {K D : Type}

/-- two pointer-level tables in different memories storing the same chains, in the cells `A1` and `A2` -/
structure TwinAt (s1 s2 : HState K D) (t : Tab K D) (A1 A2 : Nat → List (Nat × Entry K D)) : Prop where
  rep1 : HRep s1.1 s1.2 t A1
  rep2 : HRep s2.1 s2.2 t A2
  kept : ∃ L, Kept t L

/-- the same, for some chains -/
def Twin (s1 s2 : HState K D) : Prop := ∃ t A1 A2, TwinAt s1 s2 t A1 A2

theorem join {α β γ : Type} {P : α → γ → Prop} {Q : β → γ → Prop} {x : Res α} {y : Res β} {b : Res γ} (h1 : ResRel P x b) (h2 : ResRel Q y b) :
    ResRel (fun c d => ∃ v, b = .ok v ∧ P c v ∧ Q d v) x y := by
  cases x <;> cases y <;> cases b <;> simp only [ResRel] at h1 h2 ⊢
  exact ⟨_, rfl, h1, h2⟩

theorem ResRel.imp {α β : Type} {R Q : α → β → Prop} {x : Res α} {y : Res β} (h : ResRel R x y) (i : ∀ a b, R a b → Q a b) : ResRel Q x y := by
  cases x <;> cases y <;> simp only [ResRel] at h ⊢
  exact i _ _ h

theorem twin_insert (ops : KeyOps K) {s1 s2 : HState K D} (w : Twin s1 s2) (k : K) (d : D) :
    ResRel (fun c b => c.2 = b.2 ∧ Twin c.1 b.1) (hinsert ops s1.1 s1.2 k d) (hinsert ops s2.1 s2.2 k d) := by
  obtain ⟨t, A1, A2, r1, r2, L, hL⟩ := w
  refine ResRel.imp (join (hinsert_hrep (ops := ops) r1 k d) (hinsert_hrep (ops := ops) r2 k d)) ?_
  rintro c b ⟨v, hv, ⟨e1, B1, f1, -⟩, e2, B2, f2, -⟩
  refine ⟨e1.trans e2.symm, v.1, B1, B2, f1, f2, ?_⟩
  by_cases ro : t.readonly = 0
  · obtain ⟨t', x, L', h1, -, h3, -⟩ := Tab.insert_kept ops hL ro k d
    rw [h1, Res.ok.injEq] at hv
    subst hv
    exact ⟨L', h3⟩
  · unfold Tab.insert at hv
    simp only [if_pos ro, reduceCtorEq] at hv

theorem twin_delete (ops : KeyOps K) {s1 s2 : HState K D} (w : Twin s1 s2) (k : K) :
    ResRel (fun c b => c.2 = b.2 ∧ Twin c.1 b.1) (hdelete ops s1.1 s1.2 k) (hdelete ops s2.1 s2.2 k) := by
  obtain ⟨t, A1, A2, r1, r2, L, hL⟩ := w
  refine ResRel.imp (join (hdelete_hrep (ops := ops) r1 k) (hdelete_hrep (ops := ops) r2 k)) ?_
  rintro c b ⟨v, hv, ⟨e1, B1, f1, -⟩, e2, B2, f2, -⟩
  refine ⟨e1.trans e2.symm, v.1, B1, B2, f1, f2, ?_⟩
  by_cases ro : t.readonly = 0
  · obtain ⟨t', x, L', h1, -, h3, -⟩ := Tab.delete_kept ops hL ro k
    rw [h1, Res.ok.injEq] at hv
    subst hv
    exact ⟨L', h3⟩
  · unfold Tab.delete at hv
    have := hL.pos
    simp only [if_pos ro, if_neg (show ¬ t.prime = 0 by omega), reduceCtorEq] at hv

theorem twin_retrieve_at (ops : KeyOps K) {s1 s2 : HState K D} {t : Tab K D} {A1 A2} (w : TwinAt s1 s2 t A1 A2) (k : K) :
    ∃ q1 q2 t' B1 B2, hretrieve ops s1.1 s1.2 k = .ok q1 ∧ hretrieve ops s2.1 s2.2 k = .ok q2 ∧ q1.2 = q2.2 ∧ TwinAt q1.1 q2.1 t' B1 B2 ∧
      t'.readonly = t.readonly ∧ t'.prime = t.prime ∧ (t.readonly ≠ 0 → B1 = A1 ∧ B2 = A2 ∧ q1.1.1 = s1.1 ∧ q2.1.1 = s2.1) := by
  obtain ⟨r1, r2, L, hL⟩ := w
  obtain ⟨t', x, h1, -, h3, h4, -, -, h7⟩ := Tab.retrieve_kept ops hL k
  have e1 := hretrieve_hrep (ops := ops) r1 k
  have e2 := hretrieve_hrep (ops := ops) r2 k
  rw [h1] at e1 e2
  cases c1 : hretrieve ops s1.1 s1.2 k <;> rw [c1] at e1 <;> simp only [ResRel] at e1
  cases c2 : hretrieve ops s2.1 s2.2 k <;> rw [c2] at e2 <;> simp only [ResRel] at e2
  obtain ⟨a1, B1, b1, -, d1⟩ := e1
  obtain ⟨a2, B2, b2, -, d2⟩ := e2
  exact ⟨_, _, t', B1, B2, rfl, rfl, a1.trans a2.symm, ⟨b1, b2, L, h3⟩, h4, h7,
    fun ro => ⟨(d1 ro).1, (d2 ro).1, (d1 ro).2.1, (d2 ro).2.1⟩⟩

theorem TwinAt.withRo {s1 s2 : HState K D} {t : Tab K D} {A1 A2} (w : TwinAt s1 s2 t A1 A2) (f : Int) :
    TwinAt (s1.1, { s1.2 with readonly := f }) (s2.1, { s2.2 with readonly := f }) { t with readonly := f } A1 A2 :=
  ⟨w.rep1.withRo f, w.rep2.withRo f, w.kept.imp fun _ h => h.congr rfl rfl rfl⟩

theorem twin_call {s1 s2 : HState K Ptr} (w : Twin s1 s2) (ops : KeyOps K) (o : Spec.HashOp K) :
    ResRel (fun c b => c.2 = b.2 ∧ Twin c.1 b.1) (heapStep ops s1 o) (heapStep ops s2 o) := by
  cases o with
  | insert k d =>
    exact Spec.ResRel.bind (twin_insert ops w k d) fun c b h => ⟨by rw [h.1], h.2⟩
  | delete k =>
    exact Spec.ResRel.bind (twin_delete ops w k) fun c b h => ⟨by rw [h.1], h.2⟩
  | retrieve k =>
    obtain ⟨t, A1, A2, w⟩ := w
    obtain ⟨q1, q2, t', B1, B2, e1, e2, e3, e4, -⟩ := twin_retrieve_at ops w k
    simp only [heapStep, e1, e2, Res.bind, ResRel, e3]
    exact ⟨trivial, t', B1, B2, e4⟩
  | readonly f =>
    obtain ⟨t, A1, A2, w⟩ := w
    exact ⟨by rw [w.rep1.ro, w.rep2.ro], _, A1, A2, w.withRo f⟩

theorem twin_set_call {s1 s2 : HState K Unit} (w : Twin s1 s2) (ops : KeyOps K) (o : Spec.OneSetOp K) :
    ResRel (fun c b => c.2 = b.2 ∧ Twin c.1 b.1) (setHeapStep ops s1 o) (setHeapStep ops s2 o) := by
  cases o with
  | insert k => exact twin_insert ops w k ()
  | delete k => exact twin_delete ops w k
  | member k =>
    obtain ⟨t, A1, A2, w⟩ := w
    obtain ⟨q1, q2, t', B1, B2, e1, e2, e3, e4, -⟩ := twin_retrieve_at ops w k
    simp only [setHeapStep, e1, e2, Res.bind, ResRel, e3]
    exact ⟨trivial, t', B1, B2, e4⟩
  | readonly f =>
    obtain ⟨t, A1, A2, w⟩ := w
    exact ⟨by rw [w.rep1.ro, w.rep2.ro], _, A1, A2, w.withRo f⟩

theorem twin_lookups (ops : KeyOps K) (ks : List K) : ∀ {s1 s2 : HState K D} {t : Tab K D} {A1 A2}, TwinAt s1 s2 t A1 A2 → t.readonly ≠ 0 →
    ∃ q1 q2 t', lookups ops ks s1 = .ok q1 ∧ lookups ops ks s2 = .ok q2 ∧ TwinAt q1 q2 t' A1 A2 ∧ t'.readonly = t.readonly ∧
      t'.prime = t.prime ∧ q1.1 = s1.1 ∧ q2.1 = s2.1 := by
  induction ks with
  | nil => intro s1 s2 t A1 A2 w _; exact ⟨s1, s2, t, rfl, rfl, w, rfl, rfl, rfl, rfl⟩
  | cons k ks ih =>
    intro s1 s2 t A1 A2 w ro
    obtain ⟨q1, q2, t1, B1, B2, e1, e2, -, e4, e5, e6, e7⟩ := twin_retrieve_at ops w k
    obtain ⟨rfl, rfl, f1, f2⟩ := e7 ro
    obtain ⟨p1, p2, t', g1, g2, g3, g4, g5, g6, g7⟩ := ih e4 (by rw [e5]; exact ro)
    exact ⟨p1, p2, t', by simp only [lookups, e1, Res.bind, g1], by simp only [lookups, e2, Res.bind, g2], g3, g4.trans e5, g5.trans e6,
      g6.trans f1, g7.trans f2⟩

/-- the pairs in cells -/
def pairs (l : List (Nat × Entry K D)) : List (K × D) := l.map fun c => (c.2.key, c.2.datum)

theorem cells_eq {s1 s2 : HState K D} {t : Tab K D} {A1 A2} (w : TwinAt s1 s2 t A1 A2) :
    (cellsFrom t.prime 0 A1).map Prod.snd = (cellsFrom t.prime 0 A2).map Prod.snd :=
  (cells_map w.rep1).trans (cells_map w.rep2).symm

theorem pairs_eq {l1 l2 : List (Nat × Entry K D)} (h : l1.map Prod.snd = l2.map Prod.snd) : pairs l1 = pairs l2 := by
  have : ∀ l : List (Nat × Entry K D), pairs l = (l.map Prod.snd).map fun e => (e.key, e.datum) := fun l => by simp [pairs]
  rw [this, this, h]

theorem twin_loop (ops : KeyOps K) (keys : List K) (rem1 : List (Nat × Entry K D)) : ∀ (rem2 : List (Nat × Entry K D)) (n : Nat)
    (s1 s2 : HState K D) (t : Tab K D) (A1 A2 : Nat → List (Nat × Entry K D)) (p1 p2 : Nat) (acc : List ((K × D) × Int)), rem1.length < n →
    rem1.map Prod.snd = rem2.map Prod.snd → TwinAt s1 s2 t A1 A2 → t.readonly = 1 → At t.prime A1 p1 rem1 → At t.prime A2 p2 rem2 →
    ∃ q1 q2 t', positionLoop ops (fun _ => keys) n s1 p1 acc = .ok (q1, acc ++ (pairs rem1).map fun x => (x, 1)) ∧
      positionLoop ops (fun _ => keys) n s2 p2 acc = .ok (q2, acc ++ (pairs rem1).map fun x => (x, 1)) ∧ TwinAt q1 q2 t' A1 A2 := by
  induction rem1 with
  | nil =>
    intro rem2 n s1 s2 t A1 A2 p1 p2 acc hn hr w ro a1 a2
    obtain ⟨e, rest, h1, -⟩ := a1.cell
    simp at h1
  | cons c rest1 ih =>
    intro rem2 n s1 s2 t A1 A2 p1 p2 acc hn hr w ro a1 a2
    cases n with
    | zero => omega
    | succ n =>
      obtain ⟨e1, rest1', h1, i1, hi1, m1⟩ := a1.cell
      obtain ⟨e2, rest2, h2, i2, hi2, m2⟩ := a2.cell
      simp only [List.cons.injEq] at h1
      obtain ⟨h1, h1'⟩ := h1
      subst h1'
      subst h1
      subst h2
      simp only [List.map_cons, List.cons.injEq] at hr
      obtain ⟨hr1, hr2⟩ := hr
      subst hr1
      obtain ⟨z1, nx1, v1⟩ := cell_mem w.rep1 hi1 m1
      obtain ⟨z2, nx2, v2⟩ := cell_mem w.rep2 hi2 m2
      have hro : t.readonly ≠ 0 := by rw [ro]; decide
      obtain ⟨⟨g1, u1⟩, ⟨g2, u2⟩, t1, l1, l2, l3, l4, l5, l6, l7⟩ := twin_lookups ops keys w hro
      simp only at l6 l7
      subst l6
      subst l7
      rw [← l5] at a1 a2
      have x1 : s1.2.readonly = 1 := w.rep1.ro.trans ro
      have x2 : s2.2.readonly = 1 := w.rep2.ro.trans ro
      obtain ⟨L, hL⟩ := l3.kept
      simp only [positionLoop, if_neg z1, if_neg z2, getPosition, Heap.read_ok v1, Heap.read_ok v2, Res.bind, l1, l2]
      rcases nextPosition_ok l3.rep1 hL.slot a1 with ⟨f1, f2⟩ | ⟨q, f1, f2, f3⟩
      · have hr3 : rest2 = [] := by rw [f1] at hr2; simpa using hr2.symm
        rcases nextPosition_ok l3.rep2 hL.slot a2 with ⟨f4, f5⟩ | ⟨q, f4, f5, f6⟩
        · simp only at f2 f5
          rw [f2, f5]
          simp only
          cases n with
          | zero => simp at hn
          | succ n =>
            refine ⟨_, _, _, ?_, ?_, l3.withRo 0⟩
            · simp [positionLoop, f1, x1, pairs]
            · simp [positionLoop, f1, x2, pairs]
        · obtain ⟨e, rest, h1, -⟩ := f6.cell
          rw [hr3] at h1
          simp at h1
      · rcases nextPosition_ok l3.rep2 hL.slot a2 with ⟨f4, f5⟩ | ⟨q', f4, f5, f6⟩
        · obtain ⟨e, rest, h1, -⟩ := f3.cell
          rw [f4, h1] at hr2
          simp at hr2
        · simp only at f2 f5
          rw [f2, f5]
          simp only
          obtain ⟨q1, q2, t', j1, j2, j3⟩ := ih rest2 n (s1.1, u1) (s2.1, u2) t1 A1 A2 q q' (acc ++ [((e1.key, e1.datum), 1)])
            (by simp at hn; omega) hr2 l3 (l4.trans ro) f3 f6
          refine ⟨q1, q2, t', ?_, ?_, j3⟩
          · rw [x1, j1]; simp [pairs]
          · rw [x2, j2]; simp [pairs]

theorem twin_positions (ops : KeyOps K) (keys : List K) {s1 s2 : HState K D} {t : Tab K D} {A1 A2} (w : TwinAt s1 s2 t A1 A2) :
    ∃ q1 q2 t' log, positionLoop ops (fun _ => keys) (s1.2.entries + 1) (s1.1, (initPosition s1.2).1) (initPosition s1.2).2 [] = .ok (q1, log) ∧
      positionLoop ops (fun _ => keys) (s2.2.entries + 1) (s2.1, (initPosition s2.2).1) (initPosition s2.2).2 [] = .ok (q2, log) ∧
      TwinAt q1 q2 t' A1 A2 := by
  obtain ⟨L, hL⟩ := w.kept
  have hc := cells_eq w
  have hlen : (cellsFrom t.prime 0 A1).length = t.entries := by
    rw [hL.count, ← cells_map w.rep1, List.length_map]
  rw [w.rep1.entries, w.rep2.entries]
  rcases initPosition_ok w.rep1 with ⟨i1, i2⟩ | ⟨p, i0, i1, i2⟩
  · rcases initPosition_ok w.rep2 with ⟨k1, k2⟩ | ⟨p', k0, k1, k2⟩
    · rw [i2, k2]
      exact ⟨s1, s2, t, [], by simp [positionLoop], by simp [positionLoop], w⟩
    · obtain ⟨e, rest, h1, -⟩ := k2.cell
      rw [i1, h1] at hc
      simp at hc
  · rcases initPosition_ok w.rep2 with ⟨k1, k2⟩ | ⟨p', k0, k1, k2⟩
    · obtain ⟨e, rest, h1, -⟩ := i2.cell
      rw [k1, h1] at hc
      simp at hc
    · rw [i1, k1]
      obtain ⟨q1, q2, t', j1, j2, j3⟩ := twin_loop ops keys _ _ (t.entries + 1) _ _ _ A1 A2 p p' [] (by omega) hc (w.withRo 1) rfl i2 k2
      exact ⟨q1, q2, t', _, j1, j2, j3⟩

/-- hash tables -/
theorem twin_watch {s1 s2 : HState K Ptr} (w : Twin s1 s2) (o : WatchOp K Ptr (Spec.HashOp K)) :
    ResRel (fun c b => c.2 = b.2 ∧ Twin c.1 b.1) (watchHash s1 o) (watchHash s2 o) := by
  cases o with
  | call ops o => exact Spec.ResRel.bind (twin_call w ops o) fun c b h => ⟨by rw [h.1], h.2⟩
  | walk ops f =>
    obtain ⟨t, A1, A2, w⟩ := w
    have p1 : s1.2.prime = t.prime := w.rep1.prime
    have p2 : s2.2.prime = t.prime := w.rep2.prime
    have h1 := hiterate_still ops (fun (st : List (K × Ptr)) p => (st ++ [p], f (st ++ [p]))) w.rep1 (s1.2.prime + 1) 0 [] (by omega)
    have h2 := hiterate_still ops (fun (st : List (K × Ptr)) p => (st ++ [p], f (st ++ [p]))) w.rep2 (s2.2.prime + 1) 0 [] (by omega)
    have hp : (cellsFrom t.prime 0 A1).map (fun c => (c.2.key, c.2.datum)) = (cellsFrom t.prime 0 A2).map (fun c => (c.2.key, c.2.datum)) :=
      pairs_eq (cells_eq w)
    rw [hp] at h1
    simp only at h1 h2
    simp only [watchHash, h1, h2, Res.bind]
    exact ⟨rfl, t, A1, A2, w⟩
  | loop ops keys =>
    obtain ⟨t, A1, A2, w⟩ := w
    obtain ⟨q1, q2, t', log, j1, j2, j3⟩ := twin_positions ops keys w
    simp only [watchHash, j1, j2, Res.bind]
    exact ⟨rfl, t', A1, A2, j3⟩
  | stats =>
    obtain ⟨t, A1, A2, w⟩ := w
    simp only [watchHash, hgetStats_ok w.rep1, hgetStats_ok w.rep2]
    cases Tab.getStats t <;> simp only [Res.bind, ResRel]
    exact ⟨trivial, t, A1, A2, w⟩

/-- sets -/
theorem twin_watch_set {s1 s2 : HState K Unit} (w : Twin s1 s2) (o : WatchOp K Unit (Spec.OneSetOp K)) :
    ResRel (fun c b => c.2 = b.2 ∧ Twin c.1 b.1) (watchSet s1 o) (watchSet s2 o) := by
  cases o with
  | call ops o => exact Spec.ResRel.bind (twin_set_call w ops o) fun c b h => ⟨by rw [h.1], h.2⟩
  | walk ops f =>
    obtain ⟨t, A1, A2, w⟩ := w
    have w1 := w.withRo 1
    have p1 : s1.2.prime = t.prime := w.rep1.prime
    have p2 : s2.2.prime = t.prime := w.rep2.prime
    have h1 := siterLoop_still ops (fun (st : List (K × Unit)) p => (st ++ [p], f (st ++ [p]))) w1.rep1 (s1.2.prime + 1) 0 [] (by simp only; omega)
    have h2 := siterLoop_still ops (fun (st : List (K × Unit)) p => (st ++ [p], f (st ++ [p]))) w1.rep2 (s2.2.prime + 1) 0 [] (by simp only; omega)
    have hp : (cellsFrom t.prime 0 A1).map (fun c => (c.2.key, c.2.datum)) = (cellsFrom t.prime 0 A2).map (fun c => (c.2.key, c.2.datum)) :=
      pairs_eq (cells_eq w)
    simp only at h1 h2
    rw [hp] at h1
    simp only [watchSet, siterate, h1, h2, Res.bind]
    refine ⟨rfl, t, A1, A2, ?_⟩
    have := w1.withRo t.readonly
    simp only [w.rep1.ro, w.rep2.ro]
    exact this
  | loop ops keys =>
    obtain ⟨t, A1, A2, w⟩ := w
    obtain ⟨q1, q2, t', log, j1, j2, j3⟩ := twin_positions ops keys w
    simp only [watchSet, j1, j2, Res.bind]
    exact ⟨rfl, t', A1, A2, j3⟩
  | stats =>
    obtain ⟨t, A1, A2, w⟩ := w
    simp only [watchSet, hgetStats_ok w.rep1, hgetStats_ok w.rep2]
    cases Tab.getStats t <;> simp only [Res.bind, ResRel]
    exact ⟨trivial, t, A1, A2, w⟩

theorem twin_create (h1 h2 : Heap (Entry K D)) (ok1 : h1.Ok) (ok2 : h2.Ok) :
    ∃ ht, hcreate 0 = .ok ht ∧ Twin (h1, ht) (h2, ht) := by
  obtain ⟨ht, t, A1, e1, l1⟩ := create_loose (K := K) (D := D) h1 ok1
  obtain ⟨ht', t', c1, c2, c3, c4⟩ := hcreate_hrep (K := K) (D := D) h2 ok2 0
  rw [e1, Res.ok.injEq] at c1
  subst c1
  obtain ⟨ht'', t'', d1, d2, d3, d4⟩ := hcreate_hrep (K := K) (D := D) h1 ok1 0
  rw [e1, Res.ok.injEq] at d1
  subst d1
  rw [c2, Res.ok.injEq] at d2
  subst d2
  obtain ⟨t3, b1, b2, -, b3, b4, -⟩ := Tab.create_ok (K := K) (D := D) 0
  rw [c2, Res.ok.injEq] at b1
  subst b1
  exact ⟨ht, e1, t', _, _, d4, c4, _, Tab.create_kept t' b2 b4 b3⟩

/-- **C99**, hash tables: in any two memories, with any two allocators, and whatever else is in them, the same history of calls and walks gives
the same results: the results of the calls, which pairs a walk shows and in which order, what the statistics say, and how the program ends.
The functions may answer anything, and something else in every call. -/
theorem C99_hash_tables (h1 h2 : Heap (Entry K Ptr)) (ok1 : h1.Ok) (ok2 : h2.Ok) (hist : List (WatchOp K Ptr (Spec.HashOp K))) :
    ∃ t, hcreate 0 = .ok t ∧ observe (Spec.run watchHash (h1, t) hist) = observe (Spec.run watchHash (h2, t) hist) := by
  obtain ⟨t, e, w⟩ := twin_create h1 h2 ok1 ok2
  exact ⟨t, e, Spec.ResRel.observe (R := Twin) (Spec.run_sim Twin watchHash watchHash (fun s a o h => twin_watch h o) _ _ hist w)⟩

/-- **C99**, sets. -/
theorem C99_sets (h1 h2 : Heap (Entry K Unit)) (ok1 : h1.Ok) (ok2 : h2.Ok) (hist : List (WatchOp K Unit (Spec.OneSetOp K))) :
    ∃ t, hcreate 0 = .ok t ∧ observe (Spec.run watchSet (h1, t) hist) = observe (Spec.run watchSet (h2, t) hist) := by
  obtain ⟨t, e, w⟩ := twin_create h1 h2 ok1 ok2
  exact ⟨t, e, Spec.ResRel.observe (R := Twin) (Spec.run_sim Twin watchSet watchSet (fun s a o h => twin_watch_set h o) _ _ hist w)⟩

theorem cells_same {s1 : HState K D} {t t' : Tab K D} {A A'} (r : HRep s1.1 s1.2 t A) (r' : HRep s1.1 s1.2 t' A') :
    cellsFrom t.prime 0 A = cellsFrom t'.prime 0 A' := by
  have hp : t'.prime = t.prime := r'.prime.symm.trans r.prime
  unfold cellsFrom
  rw [hp, List.drop_zero, List.flatMap_def, List.flatMap_def]
  congr 1
  refine List.map_congr_left fun i hi => ?_
  have hi := List.mem_range.1 hi
  exact Heap.Chain.unique (r.chain i hi) (r'.chain i (by omega))

/-- **C99**, walks whose functions call the library: after the same history in any two memories, `hsh_iterate` with any function that calls the
library (and inserts nothing and touches no key still to come: C64 shows what happens otherwise) has the same outcome in both, and whatever calls
follow give the same results. -/
theorem C99_walk_with_calls {σ : Type} (ops : KeyOps K) (law : ops.Lawful) (h1 h2 : Heap (Entry K Ptr)) (ok1 : h1.Ok) (ok2 : h2.Ok)
    (hist : List (Spec.HashOp K)) (t0 : HTab) (s1 : HState K Ptr) (outs : List Spec.Ret) (m : Spec.MapState K) (hc : hcreate 0 = .ok t0)
    (hr : Spec.run (heapStep ops) (h1, t0) hist = .ok (s1, outs)) (hm : Spec.run (Spec.hashStep (eqv ops)) {} hist = .ok (m, outs))
    (f : σ → K × Ptr → Spec.Calls (Spec.HashOp K) Spec.Ret σ) (st : σ) :
    ∃ s2, Spec.run (heapStep ops) (h2, t0) hist = .ok (s2, outs) ∧ ∃ order, order.Perm m.map ∧
      (Spec.visit (Spec.hashCallStep (eqv ops)) f order m st ≠ .ub → ∀ n, s1.2.prime < n →
        ResRel (fun c b => c.2 = b.2 ∧ ∀ more, observe (Spec.run (heapStep ops) c.1 more) = observe (Spec.run (heapStep ops) b.1 more))
          (hiterate ops f n 0 s1 st) (hiterate ops f n 0 s2 st)) := by
  obtain ⟨t', e, w⟩ := twin_create h1 h2 ok1 ok2
  rw [hc, Res.ok.injEq] at e
  subst e
  have hw := Spec.run_sim Twin (heapStep ops) (heapStep ops) (fun s a o h => twin_call h ops o) _ _ hist w
  rw [hr] at hw
  cases hr2 : Spec.run (heapStep ops) (h2, t0) hist <;> rw [hr2] at hw <;> simp only [ResRel] at hw
  obtain ⟨hw1, t, A1, A2, w⟩ := hw
  rename_i q
  obtain ⟨s2, outs2⟩ := q
  simp only at hw1 w
  subst hw1
  refine ⟨s2, rfl, ?_⟩
  obtain ⟨t1, g1, g2⟩ := heap_history law h1 ok1 hist
  rw [hc] at g1
  cases g1
  rw [hr, hm] at g2
  obtain ⟨-, ta, Aa, ra, sima, owa⟩ := g2
  obtain ⟨t2, g3, g4⟩ := heap_history law h2 ok2 hist
  rw [hc] at g3
  cases g3
  rw [hr2, hm] at g4
  obtain ⟨-, tb, Ab, rb, simb, owb⟩ := g4
  simp only at ra rb
  have ho : (cellsFrom ta.prime 0 Aa).map pairOf = (cellsFrom tb.prime 0 Ab).map pairOf := by
    rw [cells_same ra w.rep1, cells_same rb w.rep2]
    exact pairs_eq (cells_eq w)
  refine ⟨(cellsFrom ta.prime 0 Aa).map pairOf, ?_, fun hne n hn => ?_⟩
  · have := sima.rep.perm
    unfold Tab.pairsOf at this
    rw [← cells_map ra, List.map_map] at this
    exact this
  · have p1 : s1.2.prime = ta.prime := ra.prime
    have p2 : s2.2.prime = tb.prime := rb.prime
    have p3 : s1.2.prime = s2.2.prime := w.rep1.prime.trans w.rep2.prime.symm
    have i1 := hiterate_sim law h1 f n 0 s1 m ta Aa st (by omega) ⟨ra, sima, owa⟩ hne
    have i2 := hiterate_sim law h2 f n 0 s2 m tb Ab st (by omega) ⟨rb, simb, owb⟩ (by rw [← ho]; exact hne)
    rw [← ho] at i2
    refine ResRel.imp (join i1 i2) ?_
    rintro c b ⟨v, -, ⟨a1, a2⟩, b1, b2⟩
    refine ⟨a1.trans b1.symm, fun more => ?_⟩
    rw [(Spec.run_sim (PSim ops h1) _ _ (heapStep_sim law h1) _ _ more a2).observe,
      (Spec.run_sim (PSim ops h2) _ _ (heapStep_sim law h2) _ _ more b2).observe]

theorem siterate_at {σ : Type} {ops : KeyOps K} (law : ops.Lawful) (h0 : Heap (Entry K Unit))
    (f : σ → K × Unit → Spec.Calls (Spec.OneSetOp K) Int σ) (m : Spec.OneSet K) (s : HState K Unit) {t : Tab K Unit}
    {A : Nat → List (Nat × Entry K Unit)} (r : HRep s.1 s.2 t A) (rep : Tab.Rep ops t m.elems) (ro : t.readonly = m.readonly)
    (ow : Owns h0 s.1 t.prime A) (st : σ)
    (hne : Spec.visit (Spec.setCallStep (eqv ops)) f ((cellsFrom t.prime 0 A).map pairOf) m st ≠ .ub) (n : Nat) (hn : s.2.prime < n) :
    ResRel (fun c b => c.2 = b.2 ∧ SSim ops h0 c.1 m) (siterate ops f n s st)
      (Spec.visit (Spec.setCallStep (eqv ops)) f ((cellsFrom t.prime 0 A).map pairOf) m st) := by
  have hs1 : SSimR ops h0 (s.1, { s.2 with readonly := 1 }) m.elems { t with readonly := 1 } A :=
    ⟨r.withRo 1, rep.congr rfl rfl rfl, by simp, ow⟩
  have := siterLoop_sim law h0 f m A n 0 _ _ st (by simp only; rw [← r.prime]; omega) hs1 hne
  unfold siterate
  simp only
  cases hc : siterLoop ops f n 0 (s.1, { s.2 with readonly := 1 }) st <;>
    cases hb : Spec.visit (Spec.setCallStep (eqv ops)) f ((cellsFrom t.prime 0 A).map pairOf) m st <;>
    rw [hc, hb] at this <;> simp only [ResRel] at this <;> simp only [Res.bind, ResRel]
  obtain ⟨e1, e2, e3, t', e4⟩ := this
  refine ⟨e1, { t' with readonly := s.2.readonly }, A, e4.rep.withRo _, e4.tab.congr rfl rfl rfl, ?_, e4.owns⟩
  simp only
  rw [r.ro, ro]

/-- **C99**, the same for `set_iterate`. -/
theorem C99_set_walk_with_calls {σ : Type} (ops : KeyOps K) (law : ops.Lawful) (h1 h2 : Heap (Entry K Unit)) (ok1 : h1.Ok) (ok2 : h2.Ok)
    (hist : List (Spec.OneSetOp K)) (t0 : HTab) (s1 : HState K Unit) (outs : List Int) (m : Spec.OneSet K) (hc : hcreate 0 = .ok t0)
    (hr : Spec.run (setHeapStep ops) (h1, t0) hist = .ok (s1, outs)) (hm : Spec.run (Spec.oneSetStep (eqv ops)) {} hist = .ok (m, outs))
    (f : σ → K × Unit → Spec.Calls (Spec.OneSetOp K) Int σ) (st : σ) :
    ∃ s2, Spec.run (setHeapStep ops) (h2, t0) hist = .ok (s2, outs) ∧ ∃ order, order.Perm m.elems ∧
      (Spec.visit (Spec.setCallStep (eqv ops)) f order m st ≠ .ub → ∀ n, s1.2.prime < n →
        ResRel (fun c b => c.2 = b.2 ∧ ∀ more, observe (Spec.run (setHeapStep ops) c.1 more) = observe (Spec.run (setHeapStep ops) b.1 more))
          (siterate ops f n s1 st) (siterate ops f n s2 st)) := by
  obtain ⟨t', e, w⟩ := twin_create h1 h2 ok1 ok2
  rw [hc, Res.ok.injEq] at e
  subst e
  have hw := Spec.run_sim Twin (setHeapStep ops) (setHeapStep ops) (fun s a o h => twin_set_call h ops o) _ _ hist w
  rw [hr] at hw
  cases hr2 : Spec.run (setHeapStep ops) (h2, t0) hist <;> rw [hr2] at hw <;> simp only [ResRel] at hw
  obtain ⟨hw1, t, A1, A2, w⟩ := hw
  rename_i q
  obtain ⟨s2, outs2⟩ := q
  simp only at hw1 w
  subst hw1
  refine ⟨s2, rfl, ?_⟩
  obtain ⟨t1, g1, g2⟩ := set_history law h1 ok1 hist
  rw [hc] at g1
  cases g1
  rw [hr, hm] at g2
  obtain ⟨-, ta, Aa, ra, sima, roa, owa⟩ := g2
  obtain ⟨t2, g3, g4⟩ := set_history law h2 ok2 hist
  rw [hc] at g3
  cases g3
  rw [hr2, hm] at g4
  obtain ⟨-, tb, Ab, rb, simb, rob, owb⟩ := g4
  simp only at ra rb
  have ho : (cellsFrom ta.prime 0 Aa).map pairOf = (cellsFrom tb.prime 0 Ab).map pairOf := by
    rw [cells_same ra w.rep1, cells_same rb w.rep2]
    exact pairs_eq (cells_eq w)
  refine ⟨(cellsFrom ta.prime 0 Aa).map pairOf, ?_, fun hne n hn => ?_⟩
  · have := sima.perm
    unfold Tab.pairsOf at this
    rw [← cells_map ra, List.map_map] at this
    exact this
  · have p3 : s1.2.prime = s2.2.prime := w.rep1.prime.trans w.rep2.prime.symm
    have i1 := siterate_at law h1 f m s1 ra sima roa owa st hne n hn
    have i2 := siterate_at law h2 f m s2 rb simb rob owb st (by rw [← ho]; exact hne) n (by omega)
    rw [← ho] at i2
    refine ResRel.imp (join i1 i2) ?_
    rintro c b ⟨v, -, ⟨a1, a2⟩, b1, b2⟩
    refine ⟨a1.trans b1.symm, fun more => ?_⟩
    rw [(Spec.run_sim (SSim ops h1) _ _ (setHeapStep_sim law h1) _ _ more a2).observe,
      (Spec.run_sim (SSim ops h2) _ _ (setHeapStep_sim law h2) _ _ more b2).observe]

/-- A history: insertions into one slot, a removal (so that the next cell may get its address), a walk that is stopped after two pairs, a loop with
look-ups, one of them of a missing key, a comparison that says nothing is equal, and the statistics. -/
def watched : List (WatchOp Nat Ptr (Spec.HashOp Nat)) :=
  [.call Hash.exOps (.insert 1 10), .call Hash.exOps (.insert 3 30), .call Hash.exOps (.insert 2 20), .call Hash.exOps (.delete 1),
   .call Hash.exOps (.insert 5 50), .walk Hash.exOps (fun seen => if seen.length = 2 then 7 else 0), .loop Hash.exOps [3, 9],
   .call { hash := fun k => k, cmp := fun _ _ => 1 } (.retrieve 3), .stats]

/-- Non-vacuity for `C99_hash_tables`: two allocators, the second of which hands out the freed address at once; the second memory is not empty. -/
example : let r1 := (hcreate 0).bind fun t => Spec.run watchHash (Heap.init Heap.neverAgain, t) watched
    let r2 := (hcreate 0).bind fun t => Spec.run watchHash (((Heap.init Heap.atOnce).alloc ({ hash := 9, key := 9, datum := 9 }, 0)).1, t) watched
    observe r1 = observe r2 ∧
    observe r1 = .ok [.ret (.int 0), .ret (.int 0), .ret (.int 0), .ret (.int 0), .ret (.int 0), .pairs [(2, 20), (5, 50)] 1,
      .round [((2, 20), 1), ((5, 50), 1), ((3, 30), 1)], .ret (.ptr 0), .numbers
        { size := 11, resizings := 2, entries := 3, buckets_used := 2, singletons := 1, maximum_length := 2, retrievals := 7, hits := 0,
          misses := 4 }] ∧
    r1.bind (fun r => .ok (r.1.1.mem 7).isSome) = .ok true ∧ r2.bind (fun r => .ok (r.1.1.mem 7).isSome) = .ok false := by decide +kernel

/-- Non-vacuity for `C99_sets`, the same way. -/
example : let hist : List (WatchOp Nat Unit (Spec.OneSetOp Nat)) := [.call Hash.exOps (.insert 1), .call Hash.exOps (.insert 3),
      .call Hash.exOps (.insert 2), .call Hash.exOps (.delete 1), .call Hash.exOps (.insert 5), .walk Hash.exOps (fun _ => 0),
      .loop Hash.exOps [3, 9], .call { hash := fun k => k, cmp := fun _ _ => 1 } (.member 3), .call Hash.exOps (.readonly 1), .stats,
      .call Hash.exOps (.insert 7)]
    let r1 := (hcreate 0).bind fun t => Spec.run watchSet (Heap.init Heap.neverAgain, t) (hist.take 10)
    let r2 := (hcreate 0).bind fun t => Spec.run watchSet (Heap.init Heap.atOnce, t) (hist.take 10)
    observe r1 = observe r2 ∧ (observe r1).bind (fun l => .ok (l.take 8)) = .ok [.ret 0, .ret 0, .ret 0, .ret 0, .ret 0,
      .pairs [(2, ()), (5, ()), (3, ())] 0, .round [((2, ()), 1), ((5, ()), 1), ((3, ()), 1)], .ret 0] ∧
    observe ((hcreate 0).bind fun t => Spec.run watchSet (Heap.init Heap.atOnce, t) hist) = .abort := by decide +kernel

/-- Non-vacuity for `C99_walk_with_calls`: the function deletes what it is shown when the datum is 30 or more. -/
example : let hist : List (Spec.HashOp Nat) := [.insert 1 10, .insert 3 30, .insert 2 20, .delete 1, .insert 5 50]
    let f : List (Nat × Ptr) → Nat × Ptr → Spec.Calls (Spec.HashOp Nat) Spec.Ret (List (Nat × Ptr)) := fun st p =>
      if 30 ≤ p.2 then .call (.delete p.1) fun _ => .ret (st ++ [p]) 0 else .ret (st ++ [p]) 0
    let walk (p : Policy) := (hcreate 0).bind fun t => (Spec.run (heapStep Hash.exOps) (Heap.init p, t) hist).bind fun r =>
      (hiterate Hash.exOps f 12 0 r.1 []).bind fun q => (Spec.run (heapStep Hash.exOps) q.1 [.retrieve 3, .retrieve 2]).bind fun z =>
      .ok (q.2, z.2)
    walk Heap.neverAgain = .ok (([(2, 20), (5, 50), (3, 30)], 0), [.ptr 0, .ptr 20]) ∧ walk Heap.atOnce = walk Heap.neverAgain := by decide +kernel

/-- Non-vacuity for `C99_set_walk_with_calls`: membership tests from the function. -/
example : let hist : List (Spec.OneSetOp Nat) := [.insert 1, .insert 3, .insert 2, .delete 1, .insert 5]
    let f : List (Nat × Int) → Nat × Unit → Spec.Calls (Spec.OneSetOp Nat) Int (List (Nat × Int)) := fun st p =>
      .call (.member (p.1 + 2)) fun r => .ret (st ++ [(p.1, r)]) 0
    let walk (p : Policy) := (hcreate 0).bind fun t => (Spec.run (setHeapStep Hash.exOps) (Heap.init p, t) hist).bind fun r =>
      (siterate Hash.exOps f 12 r.1 []).bind fun q => (Spec.run (setHeapStep Hash.exOps) q.1 [.member 3, .delete 5]).bind fun z => .ok (q.2, z.2)
    walk Heap.neverAgain = .ok (([(2, 0), (5, 0), (3, 1)], 0), [1, 0]) ∧ walk Heap.atOnce = walk Heap.neverAgain := by decide +kernel

/-- The hypotheses are met by both memories of the first example. -/
example : (Heap.init Heap.neverAgain : Heap (Entry Nat Ptr)).Ok ∧
    ((Heap.init Heap.atOnce : Heap (Entry Nat Ptr)).alloc ({ hash := 9, key := 9, datum := 9 }, 0)).1.Ok :=
  ⟨Heap.Ok.init Heap.neverAgain_ok, Heap.Ok.alloc (Heap.Ok.init Heap.atOnce_ok) _⟩

end Maa.HashHeap
