import Verif.Model.SlAsked
import Verif.Props.Sl
import Verif.Props.Counters

/-! # Property C96: which calls to its functions a skip list makes -/

namespace Maa.Sl

open Spec (SlOp SlAsked Coll Colls TotalOrder ResRel run observe)

/-! the record changes nothing -/

theorem bindAssoc {α β γ : Type} (x : Res α) (f : α → Res β) (g : β → Res γ) : (x.bind f).bind g = x.bind fun a => (f a).bind g := by
  cases x <;> rfl

theorem advanceA_erase (s : SList) (h : Heap) (key i : Nat) : ∀ (n p : Nat),
    ((advanceA s h key i n p).bind fun r => Res.ok r.1) = advance s h key i n p := by
  intro n
  induction n with
  | zero => intros; rfl
  | succ n ih =>
    intro p
    simp only [advanceA, advance, bindAssoc]
    cases h.fwd p i with
    | ok q =>
      simp only [okBind]
      split
      · rfl
      · cases h.datum q with
        | ok d =>
          simp only [okBind]
          split
          · rw [← ih, bindAssoc]; simp only [okBind]
          · rfl
        | _ => rfl
    | _ => rfl

theorem locateLoopA_erase (s : SList) (h : Heap) (key : Nat) : ∀ (k p : Nat) (u : List (Option Nat)),
    ((locateLoopA s h key k p u).bind fun r => Res.ok r.1) = locateLoop s h key k p u := by
  intro k
  induction k with
  | zero => intros; rfl
  | succ k ih =>
    intro p u
    simp only [locateLoopA, locateLoop, bindAssoc, ← ih, ← advanceA_erase, okBind]

theorem locateA_erase (s : SList) (h : Heap) (key : Nat) : ((locateA s h key).bind fun r => Res.ok r.1) = locate s h key := by
  simp only [locateA, locate, bindAssoc, ← locateLoopA_erase, okBind]

theorem insertA_erase (σ : State) (l d : Nat) (rnd : Nat → Nat) : ((insertA σ l d rnd).bind fun r => Res.ok r.1) = insert σ l d rnd := by
  simp only [insertA, insert, bindAssoc, ← locateA_erase, okBind]
  congr 1; funext s
  congr 1; funext r
  split
  · rfl
  · simp only [bindAssoc]
    congr 1; funext e
    split <;> rfl

theorem deleteA_erase (σ : State) (l d : Nat) : ((deleteA σ l d).bind fun r => Res.ok r.1) = delete σ l d := by
  simp only [deleteA, delete, bindAssoc, ← locateA_erase, okBind]
  congr 1; funext s
  congr 1; funext r
  split
  · rfl
  · simp only [bindAssoc]
    congr 1; funext e
    split <;> rfl

theorem findA_erase (σ : State) (l k : Nat) : ((findA σ l k).bind fun r => Res.ok r.1) = find σ l k := by
  simp only [findA, find, bindAssoc, ← locateA_erase, okBind]
  congr 1; funext s
  congr 1; funext r
  split
  · rfl
  · simp only [bindAssoc]
    congr 1; funext e
    split <;> rfl

/-- C96: the record does not change what the call does. -/
theorem C96_same_call (σ : State) (o : SlOp) : ((stepA σ o).bind fun r => Res.ok r.1) = step σ o := by
  cases o with
  | create cmp key => simp only [stepA, step, bindAssoc, okBind]; cases create σ cmp key <;> rfl
  | destroy l => simp only [stepA, step, bindAssoc, okBind]
  | insert l d rnd => simp only [stepA, step, bindAssoc, okBind, ← insertA_erase]
  | delete l d => simp only [stepA, step, bindAssoc, okBind, ← deleteA_erase]
  | find l k => simp only [stepA, step, bindAssoc, okBind, ← findA_erase]

/-! what a search looks at -/

/-- the datum a walk on level `i` stops at -/
def stopAt (i : Nat) : List Node → List Nat
  | [] => []
  | n :: ns => if i ≤ n.lev then [n.datum] else stopAt i ns

theorem stopAt_mem {i : Nat} {ge : List Node} : ∀ d ∈ stopAt i ge, ∃ n ∈ ge, d = n.datum := by
  induction ge with
  | nil => simp [stopAt]
  | cons n ge ih =>
    intro d hd
    simp only [stopAt] at hd
    split at hd
    · exact ⟨n, by simp, by simpa using hd⟩
    · obtain ⟨m, hm, e⟩ := ih d hd
      exact ⟨m, by simp [hm], e⟩

theorem stopAt_length (i : Nat) (ge : List Node) : (stopAt i ge).length ≤ 1 := by
  induction ge with
  | nil => simp [stopAt]
  | cons n ge ih => simp only [stopAt]; split <;> simp [ih]

theorem advanceA_ok {s : SList} {h : Heap} {key i : Nat} (ge : List Node) (hge : ∀ n ∈ ge, ¬ s.compare (s.key n.datum) key < 0) :
    ∀ (c : List Node) (fuel p : Nat), c.length < fuel → Linked h (c ++ ge) → (∀ n ∈ c ++ ge, n.id ≠ 0) →
    (∀ n ∈ c, s.compare (s.key n.datum) key < 0) → h.fwd p i = .ok (nxt i (c ++ ge)) →
    advanceA s h key i fuel p = .ok (pred i p c, (c.filter fun n => i ≤ n.lev).map Node.datum ++ stopAt i ge) := by
  intro c
  induction c with
  | nil =>
    intro fuel p hf hl h0 hc hp
    cases fuel with
    | zero => simp at hf
    | succ fuel =>
      simp only [advanceA, hp, Res.bind, List.nil_append, pred]
      have main : ∀ (xs : List Node), (∀ m ∈ xs, m ∈ ge) → (nxt i xs = 0 ∧ stopAt i xs = []) ∨ ∃ m ∈ ge, nxt i xs = m.id ∧ stopAt i xs = [m.datum] := by
        intro xs
        induction xs with
        | nil => intro _; left; exact ⟨rfl, rfl⟩
        | cons n xs ih =>
          intro hx
          simp only [nxt, stopAt]
          split
          · right; exact ⟨n, hx n (by simp), rfl, rfl⟩
          · exact ih fun m hm => hx m (by simp [hm])
      rcases main ge (fun _ h => h) with ⟨e, e'⟩ | ⟨m, hm, h2, h3⟩
      · rw [if_pos e, e']; rfl
      · rw [h2, if_neg (h0 m (by simpa using hm)), hl.datum (by simpa using hm)]
        simp only
        rw [if_neg (hge m hm), h3]; rfl
  | cons m c ih =>
    intro fuel p hf hl h0 hc hp
    by_cases hm : i ≤ m.lev
    · cases fuel with
      | zero => simp at hf
      | succ fuel =>
        have e : nxt i (m :: c ++ ge) = m.id := by simp [nxt, hm]
        simp only [advanceA, hp, Res.bind, e, pred, hm, if_true]
        rw [if_neg (h0 m (by simp)), hl.datum (by simp)]
        simp only
        rw [if_pos (hc m (by simp))]
        rw [ih fuel m.id (by simpa using hf) (Linked.suffix (a := [m]) hl) (fun n hn => h0 n (by simp at hn ⊢; tauto)) (fun n hn => hc n (by simp [hn]))
          (NodeOk.fwd (Linked.node (a := []) hl) hm)]
        simp [hm]
    · have e : nxt i (m :: c ++ ge) = nxt i (c ++ ge) := by simp [nxt, hm]
      rw [e] at hp
      simp only [pred, hm, if_false]
      rw [ih fuel p (by simp at hf; omega) (Linked.suffix (a := [m]) hl) (fun n hn => h0 n (by simp at hn ⊢; tauto))
        (fun n hn => hc n (by simp [hn])) hp]
      simp [hm]

theorem locateLoopA_ok {h : Heap} {s : SList} {key : Nat} {lt ge : List Node} (r : Rep h s (lt ++ ge))
    (hlt : ∀ n ∈ lt, s.compare (s.key n.datum) key < 0) (hge : ∀ n ∈ ge, ¬ s.compare (s.key n.datum) key < 0) :
    ∀ (k : Nat) (a : List Node) (n : Node) (c : List Node) (u : List (Option Nat)), k ≤ 17 → hd s :: lt = a ++ n :: c → (a = [] ∨ k ≤ n.lev) → u.length = 17 →
    ∃ x looked, locateLoopA s h key k n.id u = .ok (x, looked) ∧
      (looked.filter fun d => s.compare (s.key d) key < 0).Sublist (c.map Node.datum) ∧
      (looked.filter fun d => ¬ s.compare (s.key d) key < 0).length ≤ k ∧ ∀ d ∈ looked, ∃ m ∈ lt ++ ge, d = m.datum := by
  intro k
  induction k with
  | zero => intro a n c u _ _ _ _; exact ⟨(n.id, u), [], rfl, by simp, by simp, by simp⟩
  | succ i ih =>
    intro a n c u hk h1 ha hu
    have h5 : hd s :: (lt ++ ge) = a ++ n :: (c ++ ge) := by
      rw [← List.cons_append, h1]; simp
    have hi : i ≤ n.lev := by
      rcases ha with rfl | ha
      · simp only [List.nil_append, List.cons.injEq] at h1
        rw [← h1.1]; simp [hd]; omega
      · omega
    have hcl : ∀ x ∈ c, x ∈ lt := by
      intro x hx
      cases a with
      | nil => simp only [List.nil_append, List.cons.injEq] at h1; rw [h1.2]; exact hx
      | cons y a => simp only [List.cons_append, List.cons.injEq] at h1; rw [h1.2]; simp [hx]
    have hlen : c.length ≤ lt.length := by
      have := congrArg List.length h1
      simp at this; omega
    have hfew : lt.length < h.clock := by have := r.few; simp at this; omega
    have hsub : ∀ x ∈ c ++ ge, x ∈ hd s :: (lt ++ ge) := by
      intro x hx; rw [h5]; simp at hx ⊢; tauto
    have hadv := advanceA_ok (i := i) ge hge c h.clock n.id (by omega) (by
      have := r.linked
      rw [h5] at this
      exact Linked.suffix (a := a ++ [n]) (by simpa using this)) (fun x hx => Nat.ne_of_gt (r.pos x (hsub x hx))) (fun x hx => hlt x (hcl x hx))
      (NodeOk.fwd (r.linked _ _ _ h5) hi)
    obtain ⟨a', n', c', g1, g2, g3, g4⟩ := pred_split i n c
    obtain ⟨x, looked, l1, l2, l3, l4⟩ := ih (a ++ a') n' c' (u.set i (some n'.id)) (by omega) (by rw [h1, g1]; simp)
      (by
        cases a' with
        | nil =>
          simp only [List.nil_append, List.cons.injEq] at g1
          rw [← g1.1]
          rcases ha with rfl | ha
          · exact Or.inl rfl
          · exact Or.inr hi
        | cons y a' => exact Or.inr (by simpa using g3)) (by simpa using hu)
    have hless : ((c.filter fun n => decide (i ≤ n.lev)).map Node.datum).filter (fun d => decide (s.compare (s.key d) key < 0)) =
        (c.filter fun n => decide (i ≤ n.lev)).map Node.datum := by
      rw [List.filter_eq_self]
      intro d hd
      simp only [List.mem_map, List.mem_filter] at hd
      obtain ⟨m, ⟨hm, -⟩, rfl⟩ := hd
      simpa using hlt m (hcl m hm)
    have hnot : ((c.filter fun n => decide (i ≤ n.lev)).map Node.datum).filter (fun d => decide (¬ s.compare (s.key d) key < 0)) = [] := by
      rw [List.filter_eq_nil_iff]
      intro d hd
      simp only [List.mem_map, List.mem_filter] at hd
      obtain ⟨m, ⟨hm, -⟩, rfl⟩ := hd
      simpa using hlt m (hcl m hm)
    have hstop : (stopAt i ge).filter (fun d => decide (s.compare (s.key d) key < 0)) = [] := by
      rw [List.filter_eq_nil_iff]
      intro d hd
      obtain ⟨m, hm, rfl⟩ := stopAt_mem d hd
      simpa using hge m hm
    refine ⟨x, (c.filter fun n => i ≤ n.lev).map Node.datum ++ stopAt i ge ++ looked, ?_, ?_, ?_, ?_⟩
    · simp only [locateLoopA, hadv, okBind, setUpdate]
      rw [if_pos (by omega)]
      simp only [okBind]
      rw [g2, l1]
      rfl
    · simp only [List.filter_append, hless, hstop, List.append_nil]
      cases a' with
      | nil =>
        simp only [List.nil_append, List.cons.injEq] at g1
        rw [show c.filter (fun n => decide (i ≤ n.lev)) = [] from by
          rw [List.filter_eq_nil_iff]
          intro m hm
          simpa using g4 m (by rw [← g1.2]; exact hm)]
        rw [g1.2]
        simpa using l2
      | cons y a' =>
        simp only [List.cons_append, List.cons.injEq] at g1
        have e : c.filter (fun n => decide (i ≤ n.lev)) = (a' ++ [n']).filter (fun n => decide (i ≤ n.lev)) := by
          rw [g1.2]
          have : c'.filter (fun n => decide (i ≤ n.lev)) = [] := by
            rw [List.filter_eq_nil_iff]
            intro m hm
            simpa using g4 m hm
          rw [show a' ++ n' :: c' = (a' ++ [n']) ++ c' by simp, List.filter_append, this, List.append_nil]
        rw [e, show c = (a' ++ [n']) ++ c' by rw [g1.2]; simp, List.map_append]
        exact List.Sublist.append (List.filter_sublist.map _) l2
    · simp only [List.filter_append, hnot, List.nil_append, List.length_append]
      have h6 : ((stopAt i ge).filter (fun d => decide (¬ s.compare (s.key d) key < 0))).length ≤ (stopAt i ge).length := List.length_filter_le _ _
      have h7 := stopAt_length i ge
      omega
    · intro d hd
      simp only [List.mem_append, List.mem_map, List.mem_filter] at hd
      rcases hd with (⟨m, ⟨hm, -⟩, rfl⟩ | hd) | hd
      · exact ⟨m, by simp [hcl m hm], rfl⟩
      · obtain ⟨m, hm, rfl⟩ := stopAt_mem d hd
        exact ⟨m, by simp [hm], rfl⟩
      · exact l4 d hd

/-- a search, and the look at the entry it ends at -/
theorem search_asks {c : Coll} {s : SList} {h : Heap} {ns : List Node} (m : Match c s ns) (r : Rep h s ns) (key : Nat) :
    ∃ x looked last, locateA s h key = .ok (x, looked) ∧
      ((x.1 = 0 ∧ last = []) ∨ ∃ d, x.1 ≠ 0 ∧ h.datum x.1 = .ok d ∧ last = [d]) ∧
      c.SearchAsks key (record s key (looked ++ last)) := by
  obtain ⟨m1, m2, m3, m4, m5⟩ := m
  obtain ⟨cmp, keyf, data⟩ := c
  simp only at m1 m2 m3 m4
  subst m1
  subst m2
  have t : TotalOrder s.compare := m3
  obtain ⟨lt, ge, e1, h2, h3, h4⟩ := split_key (keyf := s.key) t key ns m5
  rw [e1] at r
  obtain ⟨u, g1, -, -⟩ := locate_ok r h2 h3
  obtain ⟨x, looked, l1, l2, l3, l4⟩ := locateLoopA_ok r h2 h3 (s.level + 1) [] (hd s) lt noUpdate (by have := r.top; omega) rfl (Or.inl rfl) rfl
  have ex := locateA_erase s h key
  rw [g1] at ex
  have hloc : ∃ q, locateA s h key = .ok (q, looked) := by
    unfold locateA at ex ⊢
    rw [show s.head = (hd s).id from rfl, l1] at ex ⊢
    simp only [okBind] at ex ⊢
    cases hf : h.fwd x.1 0 <;> rw [hf] at ex <;> simp only [Res.bind, reduceCtorEq] at ex
    exact ⟨_, rfl⟩
  obtain ⟨q, hq⟩ := hloc
  rw [hq] at ex
  simp only [okBind, Res.ok.injEq] at ex
  have hdata : ∀ d, d ∈ data ↔ ∃ n ∈ lt ++ ge, n.datum = d := by
    intro d
    rw [m4.mem_iff, e1, List.mem_map]
  have hsorted : (looked.filter fun d => s.compare (s.key d) key < 0).Pairwise (fun a b => s.compare (s.key a) (s.key b) < 0) := by
    have : (lt.map Node.datum).Pairwise (fun a b => s.compare (s.key a) (s.key b) < 0) := by
      rw [List.pairwise_map]
      rw [e1, List.pairwise_append] at m5
      exact m5.1
    exact this.sublist l2
  have htop := r.top
  cases ge with
  | nil =>
    refine ⟨q, looked, [], hq, Or.inl ⟨by rw [ex]; rfl, rfl⟩, looked, ?_, ?_, ?_, ?_, Or.inl ?_⟩
    all_goals try simp only
    · simp only [record, List.append_nil]
    · intro d hd
      obtain ⟨n, hn, rfl⟩ := l4 d hd
      exact (hdata _).2 ⟨n, hn, rfl⟩
    · exact hsorted
    · omega
    · intro d hd
      obtain ⟨n, hn, rfl⟩ := (hdata d).1 hd
      exact h2 n (by simpa using hn)
  | cons g ge =>
    have hg : ¬ s.compare (s.key g.datum) key < 0 := h3 g (by simp)
    refine ⟨q, looked, [g.datum], hq, Or.inr ⟨g.datum, ?_, ?_, rfl⟩, looked ++ [g.datum], ?_, ?_, ?_, ?_, Or.inr ⟨g.datum, by simp, ?_, ?_, ?_⟩⟩
    all_goals try simp only
    · rw [ex, nxt_zero_cons]; exact Nat.ne_of_gt (r.pos g (by simp))
    · rw [ex, nxt_zero_cons]; exact r.linked.datum (n := g) (by simp)
    · rfl
    · intro d hd
      rcases List.mem_append.1 hd with hd | hd
      · obtain ⟨n, hn, rfl⟩ := l4 d hd
        exact (hdata _).2 ⟨n, hn, rfl⟩
      · simp only [List.mem_singleton] at hd
        exact (hdata _).2 ⟨g, by simp, hd.symm⟩
    · rw [List.filter_append]
      simp only [List.filter_cons, List.filter_nil]
      rw [if_neg (by simpa using hg), List.append_nil]
      exact hsorted
    · rw [List.filter_append, List.length_append]
      have : ([g.datum].filter fun d => decide ¬ s.compare (s.key d) key < 0).length ≤ 1 := List.length_filter_le _ _
      omega
    · exact (hdata _).2 ⟨g, by simp, rfl⟩
    · omega
    · intro d hd hk
      obtain ⟨n, hn, rfl⟩ := (hdata d).1 hd
      rcases List.mem_append.1 hn with hn | hn
      · exact absurd (h2 n hn) (by omega)
      · rcases List.mem_cons.1 hn with rfl | hn
        · have := t.antisymm (s.key n.datum) (s.key n.datum)
          omega
        · rw [e1, List.pairwise_append, List.pairwise_cons] at m5
          exact Int.le_of_lt (m5.2.1.1 n hn)

/-- C96: after any history of lists with total orders, a call that returns has asked the functions of its list what `Asks` allows, and nothing else. -/
theorem C96_asked (place : Policy) (hp : Maa.Heap.Allocator place) (ops : List SlOp) (h : ∀ o ∈ ops, o.Ok) (s : State) (outs : List Nat)
    (hr : run step (State.init place) ops = .ok (s, outs)) (o : SlOp) (s' : State) (ret : Nat) (asked : List SlAsked)
    (ho : stepA s o = .ok ((s', ret), asked)) :
    ∃ S xs, run Colls.step Colls.empty ops = .ok (S, xs) ∧ S.Asks asked o := by
  have hs := runs_sim hp ops h
  rw [hr] at hs
  cases hS : run Colls.step Colls.empty ops <;> rw [hS] at hs <;> simp only [ResRel] at hs
  rename_i b
  obtain ⟨S, xs⟩ := b
  obtain ⟨-, N, I⟩ := hs
  refine ⟨S, xs, rfl, ?_⟩
  cases o with
  | create cmp key =>
    simp only [stepA] at ho
    cases hx : create s cmp key <;> rw [hx] at ho <;> simp only [Res.bind, reduceCtorEq, Res.ok.injEq, Prod.mk.injEq] at ho
    exact ho.2.symm
  | destroy l =>
    simp only [stepA] at ho
    cases hx : destroy s l <;> rw [hx] at ho <;> simp only [Res.bind, reduceCtorEq, Res.ok.injEq, Prod.mk.injEq] at ho
    exact ho.2.symm
  | find l k =>
    simp only [stepA, findA] at ho
    rcases I.check l with ⟨-, hc⟩ | ⟨-, hc, -⟩ | ⟨t, c, -, hl, hc, hS', m, r⟩ <;> simp only [hc, Res.bind, reduceCtorEq] at ho
    obtain ⟨x, looked, last, e1, e2, e3⟩ := search_asks m r k
    simp only [e1] at ho
    refine ⟨c, hS', ?_⟩
    rcases e2 with ⟨z, rfl⟩ | ⟨d, z, e4, rfl⟩
    · simp only [z, if_true, Res.ok.injEq, Prod.mk.injEq] at ho
      rw [← ho.2]
      simpa using e3
    · simp only [if_neg z, e4] at ho
      split at ho
      all_goals
        rename_i hx
        split at hx <;> cases hx
        all_goals (cases ho; exact e3)
  | insert l d rnd =>
    simp only [stepA, insertA] at ho
    rcases I.check l with ⟨-, hc⟩ | ⟨-, hc, -⟩ | ⟨t, c, -, hl, hc, hS', m, r⟩ <;> simp only [hc, okBind, bindAssoc] at ho
    · cases ho
    · cases ho
    obtain ⟨x, looked, last, e1, e2, e3⟩ := search_asks m r (t.key d)
    have hlast : ∀ q : Res (List Nat), (q = (if x.1 = 0 then Res.ok [] else (s.heap.datum x.1).bind fun d' =>
        if t.compare (t.key d') (t.key d) = 0 then .abort else .ok [d'])) → ∀ y, q = .ok y → y = last := by
      rintro q rfl y hy
      rcases e2 with ⟨z, rfl⟩ | ⟨d', z, e4, rfl⟩
      · rw [if_pos z] at hy; cases hy; rfl
      · rw [if_neg z, e4, okBind] at hy
        split at hy <;> cases hy
        rfl
    rw [e1, okBind] at ho
    simp only at ho
    generalize hq : (if x.1 = 0 then Res.ok [] else (s.heap.datum x.1).bind fun d' =>
        if t.compare (t.key d') (t.key d) = 0 then .abort else .ok [d']) = q at ho
    simp only [Res.bind_ok_iff, Res.ok.injEq, Prod.mk.injEq] at ho
    obtain ⟨y, hy, -, -, -, -, -, -, -, e⟩ := ho
    have := hlast q hq.symm y hy
    subst this
    refine ⟨c, _, hS', e.symm, ?_⟩
    rw [← m.2.1]
    exact e3
  | delete l d =>
    simp only [stepA, deleteA] at ho
    rcases I.check l with ⟨-, hc⟩ | ⟨-, hc, -⟩ | ⟨t, c, -, hl, hc, hS', m, r⟩ <;> simp only [hc, okBind, bindAssoc] at ho
    · cases ho
    · cases ho
    obtain ⟨x, looked, last, e1, e2, e3⟩ := search_asks m r (t.key d)
    have hlast : ∀ q : Res (List Nat), (q = (if x.1 = 0 then .abort else (s.heap.datum x.1).bind fun d' =>
        if t.compare (t.key d') (t.key d) ≠ 0 then .abort else .ok [d'])) → ∀ y, q = .ok y → y = last := by
      rintro q rfl y hy
      rcases e2 with ⟨z, rfl⟩ | ⟨d', z, e4, rfl⟩
      · rw [if_pos z] at hy; cases hy
      · rw [if_neg z, e4, okBind] at hy
        split at hy <;> cases hy
        rfl
    rw [e1, okBind] at ho
    simp only at ho
    generalize hq : (if x.1 = 0 then Res.abort else (s.heap.datum x.1).bind fun d' =>
        if t.compare (t.key d') (t.key d) ≠ 0 then .abort else .ok [d']) = q at ho
    simp only [Res.bind_ok_iff, Res.ok.injEq, Prod.mk.injEq] at ho
    obtain ⟨y, hy, -, -, -, -, -, -, -, e⟩ := ho
    have := hlast q hq.symm y hy
    subst this
    refine ⟨c, _, hS', e.symm, ?_⟩
    rw [← m.2.1]
    exact e3

/-- a list in strict order that lies in another is not longer -/
theorem ordered_length {cmp : Nat → Nat → Int} (t : TotalOrder cmp) (keyf : Nat → Nat) {l m : List Nat}
    (hl : l.Pairwise fun a b => cmp (keyf a) (keyf b) < 0) (hs : ∀ d ∈ l, d ∈ m) : l.length ≤ m.length := by
  have hn : l.Nodup := hl.imp fun {a b} h e => by
    subst e
    have := t.antisymm (keyf a) (keyf a)
    omega
  exact (List.subperm_of_subset hn hs).length_le

/-- C96: a search compares at most 18 times more than there are data before its key, always the key of a datum that is in the list with its own key. -/
theorem C96_at_most (c : Coll) (t : TotalOrder c.cmp) (k : Nat) (asked : List SlAsked) (h : c.SearchAsks k asked) :
    asked.countP (fun a => match a with | .compare _ _ => true | .key _ => false) ≤ (c.data.filter fun d => c.cmp (c.key d) k < 0).length + 18 ∧
    (∀ a b, SlAsked.compare a b ∈ asked → b = k ∧ ∃ d ∈ c.data, a = c.key d) ∧ ∀ d, SlAsked.key d ∈ asked → d ∈ c.data := by
  obtain ⟨looked, rfl, h2, h3, h4, -⟩ := h
  refine ⟨?_, ?_, ?_⟩
  · have e : ∀ l : List Nat, (l.flatMap fun d => [SlAsked.key d, .compare (c.key d) k]).countP
        (fun a => match a with | .compare _ _ => true | .key _ => false) = l.length := by
      intro l
      induction l with
      | nil => rfl
      | cons d l ih => simp [List.flatMap_cons, ih]
    rw [e]
    have h5 := ordered_length t c.key h3 (m := c.data.filter fun d => c.cmp (c.key d) k < 0) (by
      intro d hd
      rw [List.mem_filter] at hd ⊢
      exact ⟨h2 d hd.1, hd.2⟩)
    have h6 := List.length_eq_length_filter_add (l := looked) (fun d => decide (c.cmp (c.key d) k < 0))
    simp only [decide_not] at h4
    omega
  · intro a b hab
    simp only [List.mem_flatMap, List.mem_cons, reduceCtorEq, SlAsked.compare.injEq, List.not_mem_nil, or_false, false_or] at hab
    obtain ⟨d, hd, rfl, rfl⟩ := hab
    exact ⟨rfl, d, h2 d hd, rfl⟩
  · intro d hd
    simp only [List.mem_flatMap, List.mem_cons, reduceCtorEq, SlAsked.key.injEq, List.not_mem_nil, or_false] at hd
    obtain ⟨e, he, rfl⟩ := hd
    exact h2 _ he

/-- What each call of a history asks. -/
def traces (ops : List SlOp) : Res (List (List SlAsked)) :=
  (run (fun s o => (stepA s o).bind fun r => Res.ok (r.1.1, r.2)) State.init ops).bind fun r => .ok r.2

/-- with every level drawn as low as can be, a search looks at all data before its key: the bound of `C96_at_most` is not far off -/
example : traces [byNumber, .insert 1 20 fun _ => 0, .insert 1 10 fun _ => 0, .insert 1 30 fun _ => 0, .find 1 30, .find 1 5, .destroy 1] =
    .ok [[], [.key 20], [.key 10, .key 20, .compare 20 10, .key 20, .compare 20 10, .key 20, .compare 20 10],
      [.key 30, .key 10, .compare 10 30, .key 20, .compare 20 30],
      [.key 10, .compare 10 30, .key 20, .compare 20 30, .key 30, .compare 30 30, .key 30, .compare 30 30, .key 30, .compare 30 30],
      [.key 10, .compare 10 5, .key 10, .compare 10 5, .key 10, .compare 10 5], []] := by
  decide +kernel

/-- a datum on a high level is used to pass others by: before 30 is found, neither 10 nor 15 is looked at -/
example : ((traces [byNumber, .insert 1 10 fun _ => 0, .insert 1 15 fun _ => 0, .insert 1 20 fun k => if k = 0 then 128 else 0, .insert 1 30 fun _ => 0,
    .insert 1 40 fun _ => 0, .find 1 30]).bind fun x => .ok x.getLast?) =
    .ok (some [.key 20, .compare 20 30, .key 30, .compare 30 30, .key 30, .compare 30 30, .key 30, .compare 30 30]) := by
  decide +kernel

end Maa.Sl
