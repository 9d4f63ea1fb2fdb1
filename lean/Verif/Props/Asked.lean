import Verif.Model.Asked
import Verif.Lemmas.HashPos
import Verif.Lemmas.HashStats
import Verif.Props.TabLoose

/-! # Property C95: which calls to the hash and compare functions a call on a table or set makes -/

namespace Maa.HashHeap

open Tab (Entry Tab)
open Heap (Chain)
open Spec (Asked SearchAsks)

variable {K D : Type}

theorem okb {α β : Type} (a : α) (f : α → Res β) : (Res.ok a).bind f = f a := rfl

/-! the record changes nothing -/

theorem findLoopA_erase (ops : KeyOps K) (key : K) : ∀ (n : Nat) (h : Heap (Entry K D)) (prev pt : Nat),
    ((findLoopA ops key n h prev pt).bind fun r => Res.ok r.1) = findLoop ops key n h prev pt := by
  intro n
  induction n with
  | zero => intros; rfl
  | succ n ih =>
    intro h prev pt
    simp only [findLoopA, findLoop]
    split
    · rfl
    · cases h.read pt with
      | ok c =>
        simp only [okb]
        split
        · rfl
        · rw [← ih]
          cases findLoopA ops key n h pt c.2 <;> rfl
      | _ => rfl

theorem hinsertA_erase (ops : KeyOps K) (h : Heap (Entry K D)) (t : HTab) (key : K) (d : D) :
    ((hinsertA ops h t key d).bind fun r => Res.ok r.1) = hinsert ops h t key d := by
  unfold hinsertA hinsert
  simp only
  split
  · rfl
  · cases hgrow h t with
    | ok r =>
      simp only [okb]
      split
      · rfl
      · rw [← findLoopA_erase]
        cases findLoopA ops key r.1.clock r.1 0 (r.2.buckets (ops.hash key % r.2.prime)) with
        | ok f =>
          obtain ⟨f, l⟩ := f
          cases f <;> rfl
        | _ => rfl
    | _ => rfl

theorem hdeleteA_erase (ops : KeyOps K) (h : Heap (Entry K D)) (t : HTab) (key : K) :
    ((hdeleteA ops h t key).bind fun r => Res.ok r.1) = hdelete ops h t key := by
  unfold hdeleteA hdelete
  simp only
  split
  · rfl
  · split
    · rfl
    · rw [← findLoopA_erase]
      cases findLoopA ops key h.clock h 0 (t.buckets (ops.hash key % t.prime)) with
      | ok f =>
        obtain ⟨f, l⟩ := f
        cases f with
        | none => rfl
        | some f =>
          simp only [okb]
          split
          · cases h.free f.2.1 <;> rfl
          · cases h.read f.1 with
            | ok pc =>
              simp only [okb]
              cases h.write f.1 (pc.1, f.2.2.2) with
              | ok h1 => simp only [okb]; cases h1.free f.2.1 <;> rfl
              | _ => rfl
            | _ => rfl
      | _ => rfl

theorem hretrieveA_erase (ops : KeyOps K) (h : Heap (Entry K D)) (t : HTab) (key : K) :
    ((hretrieveA ops h t key).bind fun r => Res.ok r.1) = hretrieve ops h t key := by
  unfold hretrieveA hretrieve
  simp only
  split
  · rfl
  · rw [← findLoopA_erase]
    cases findLoopA ops key h.clock h 0 (t.buckets (ops.hash key % t.prime)) with
    | ok f =>
      obtain ⟨f, l⟩ := f
      cases f with
      | none => rfl
      | some f =>
        simp only [okb]
        split
        · rfl
        · split
          · cases h.read f.1 with
            | ok pc =>
              simp only [okb]
              cases h.write f.1 (pc.1, f.2.2.2) with
              | ok h1 => simp only [okb]; cases h1.write f.2.1 (f.2.2.1, t.buckets (ops.hash key % t.prime)) <;> rfl
              | _ => rfl
            | _ => rfl
          · rfl
    | _ => rfl

/-! what a search compares -/

theorem findLoopA_ok (ops : KeyOps K) (key : K) (h : Heap (Entry K D)) (l : List (Nat × Entry K D)) :
    ∀ (n prev p : Nat), l.length < n → Chain h.mem p l →
    ∃ f seen rest, findLoopA ops key n h prev p = .ok (f, seen) ∧ l.map (fun c => c.2.key) = seen ++ rest ∧
      (∀ k ∈ seen.dropLast, ops.cmp k key ≠ 0) ∧
      ((∃ k, seen.getLast? = some k ∧ ops.cmp k key = 0) ∧ f.isSome ∨ (rest = [] ∧ ∀ k ∈ seen, ops.cmp k key ≠ 0) ∧ f = none) := by
  induction l with
  | nil =>
    intro n prev p hn hc
    cases n with
    | zero => omega
    | succ n =>
      have : p = 0 := hc
      subst this
      exact ⟨none, [], [], by simp [findLoopA], rfl, by simp, Or.inr (by simp)⟩
  | cons c l ih =>
    intro n prev p hn hc
    cases n with
    | zero => omega
    | succ n =>
      obtain ⟨h1, h2, nx, h3, h4⟩ := hc
      subst h1
      simp only [findLoopA, h2, if_false, Heap.read_ok h3, Res.bind]
      by_cases hm : (ops.cmp c.2.key key == 0) = true
      · exact ⟨some (prev, c.1, c.2, nx), [c.2.key], l.map (fun c => c.2.key), by simp [hm], by simp, by simp,
          Or.inl ⟨⟨_, rfl, by simpa using hm⟩, rfl⟩⟩
      · obtain ⟨f, seen, rest, i1, i2, i3, i4⟩ := ih n c.1 nx (by simp at hn; omega) h4
        have hm' : ops.cmp c.2.key key ≠ 0 := by simpa using hm
        refine ⟨f, c.2.key :: seen, rest, by simp [hm, i1], by simp [i2], ?_, ?_⟩
        · cases seen with
          | nil => simp
          | cons a s =>
            intro k hk
            rw [List.dropLast_cons_of_ne_nil (by simp)] at hk
            rcases List.mem_cons.1 hk with rfl | hk
            · exact hm'
            · exact i3 k hk
        · rcases i4 with ⟨⟨k, e1, e2⟩, e3⟩ | ⟨⟨e1, e2⟩, e3⟩
          · left
            refine ⟨⟨k, ?_, e2⟩, e3⟩
            rw [List.getLast?_cons, e1]; rfl
          · right
            refine ⟨⟨e1, ?_⟩, e3⟩
            intro k hk
            rcases List.mem_cons.1 hk with rfl | hk
            · exact hm'
            · exact e2 k hk

/-- one slot of a table is what the hash function sends there -/
theorem slot_eq {ops : KeyOps K} {t : Tab K D} (inv : Tab.Inv ops t) {s : Nat} (hs : s < t.prime) :
    (Tab.all t).filter (fun e => ops.hash e.key % t.prime = s) = t.buckets s := by
  have one : ∀ i, i < t.prime → (t.buckets i).filter (fun e => ops.hash e.key % t.prime = s) = if i = s then t.buckets i else [] := by
    intro i hi
    split
    · subst ‹i = s›
      rw [List.filter_eq_self]
      intro e he
      obtain ⟨e1, e2⟩ := inv.slot i hi e he
      simpa [← e1] using e2
    · rename_i hne
      rw [List.filter_eq_nil_iff]
      intro e he
      obtain ⟨e1, e2⟩ := inv.slot i hi e he
      simp only [← e1, e2, decide_eq_true_eq]
      exact hne
  have gen : ∀ (l : List Nat), (∀ i ∈ l, i < t.prime) → l.Nodup → (l.flatMap t.buckets).filter (fun e => ops.hash e.key % t.prime = s) =
      if s ∈ l then t.buckets s else [] := by
    intro l
    induction l with
    | nil => intros; simp
    | cons i l ih =>
      intro hl hn
      rw [List.nodup_cons] at hn
      rw [List.flatMap_cons, List.filter_append, one i (hl i (by simp)), ih (fun j hj => hl j (by simp [hj])) hn.2]
      by_cases h : i = s
      · subst h
        simp [hn.1]
      · rw [if_neg h]
        have : (s ∈ i :: l) = (s ∈ l) := by simp [show ¬ s = i from fun e => h e.symm]
        simp only [this, List.nil_append]
  have := gen (List.range t.prime) (fun i hi => List.mem_range.1 hi) List.nodup_range
  rw [if_pos (List.mem_range.2 hs)] at this
  exact this

/-- the search of a call, in a table that holds `m` -/
theorem search_asks {ops : KeyOps K} {h : Heap (Entry K D)} {ht : HTab} {t : Tab K D} {A} {m : List (K × D)} (r : HRep h ht t A)
    (rep : Tab.Rep ops t m) (key : K) :
    ∃ f seen, findLoopA ops key h.clock h 0 (ht.buckets (ops.hash key % ht.prime)) = .ok (f, seen) ∧
      SearchAsks ops.hash ops.cmp ht.prime (m.map Prod.fst) key (record key seen) := by
  have hs : ops.hash key % ht.prime < t.prime := by rw [r.prime]; exact Nat.mod_lt _ rep.inv.pos
  obtain ⟨f, seen, rest, h1, h2, h3, h4⟩ := findLoopA_ok ops key h (A (ops.hash key % ht.prime)) h.clock 0 _
    (Heap.Chain.length_lt r.ok (r.chain _ hs)) (r.chain _ hs)
  refine ⟨f, seen, h1, seen, rest, rfl, ?_, h3, ?_⟩
  · rw [← h2]
    have e1 : (A (ops.hash key % ht.prime)).map (fun c => c.2.key) = (t.buckets (ops.hash key % ht.prime)).map Entry.key := by
      rw [← r.ents _ hs, List.map_map]; rfl
    rw [e1, ← slot_eq rep.inv hs]
    have e2 : ((Tab.all t).map Entry.key).Perm (m.map Prod.fst) := by
      have := rep.perm.map Prod.fst
      simpa [Tab.pairsOf, List.map_map, Function.comp_def] using this
    refine List.Perm.trans ?_ (e2.filter _)
    rw [List.filter_map, r.prime]
    exact List.Perm.refl _
  · rcases h4 with ⟨h4, -⟩ | ⟨h4, -⟩
    · exact Or.inl h4
    · exact Or.inr h4

theorem grow_rep {ops : KeyOps K} (law : ops.Lawful) {t t' : Tab K D} {m : List (K × D)} (h : Tab.Rep ops t m) (e : Tab.grow t = .ok t') :
    Tab.Rep ops t' m := by
  unfold Tab.grow at e
  split at e
  · obtain ⟨t1, h1, h2, h3, -⟩ := Tab.resize_ok ops law t h.inv
    rw [h1] at e
    cases e
    exact ⟨h2, (h3.map _).trans h.perm⟩
  · cases e
    exact h

/-- one insertion, deletion or look-up in a table that holds `m` -/
theorem hinsertA_asks {ops : KeyOps K} (law : ops.Lawful) {h : Heap (Entry K D)} {ht : HTab} {t : Tab K D} {A} {m : List (K × D)} (r : HRep h ht t A)
    (rep : Tab.Rep ops t m) (key : K) (d : D) {x} (e : hinsertA ops h ht key d = .ok x) :
    SearchAsks ops.hash ops.cmp x.1.1.2.prime (m.map Prod.fst) key x.2 := by
  obtain ⟨h1, ht1, t1, A1, g1, g2, g3, -⟩ := hgrow_hrep r
  obtain ⟨f, seen, f1, f2⟩ := search_asks g3 (grow_rep law rep g2) key
  unfold hinsertA at e
  simp only at e
  split at e
  · cases e
  · simp only [g1, Res.bind] at e
    split at e
    · cases e
    · simp only [f1] at e
      cases f <;> (cases e; exact f2)

theorem hdeleteA_record {ops : KeyOps K} {h : Heap (Entry K D)} {ht : HTab} {key : K} {x} (e : hdeleteA ops h ht key = .ok x) {f seen}
    (f1 : findLoopA ops key h.clock h 0 (ht.buckets (ops.hash key % ht.prime)) = .ok (f, seen)) : x.1.1.2.prime = ht.prime ∧ x.2 = record key seen := by
  unfold hdeleteA at e
  simp only at e
  split at e
  · cases e
  · split at e
    · cases e
    · simp only [f1, Res.bind] at e
      cases f with
      | none => cases e; exact ⟨rfl, rfl⟩
      | some c =>
        simp only at e
        split at e
        · cases hf : h.free c.2.1 <;> rw [hf] at e <;> cases e
          exact ⟨rfl, rfl⟩
        · cases hr : h.read c.1 <;> rw [hr] at e <;> simp only [reduceCtorEq] at e
          rename_i pc
          cases hw : h.write c.1 (pc.1, c.2.2.2) <;> rw [hw] at e <;> simp only [reduceCtorEq] at e
          rename_i g
          cases hf : g.free c.2.1 <;> rw [hf] at e <;> cases e
          exact ⟨rfl, rfl⟩

theorem hretrieveA_record {ops : KeyOps K} {h : Heap (Entry K D)} {ht : HTab} {key : K} {x} (e : hretrieveA ops h ht key = .ok x) {f seen}
    (f1 : findLoopA ops key h.clock h 0 (ht.buckets (ops.hash key % ht.prime)) = .ok (f, seen)) : x.1.1.2.prime = ht.prime ∧ x.2 = record key seen := by
  unfold hretrieveA at e
  simp only at e
  split at e
  · cases e
  · simp only [f1, Res.bind] at e
    cases f with
    | none => cases e; exact ⟨rfl, rfl⟩
    | some c =>
      simp only at e
      split at e
      · cases e; exact ⟨rfl, rfl⟩
      · split at e
        · cases hr : h.read c.1 <;> rw [hr] at e <;> simp only [reduceCtorEq] at e
          rename_i pc
          cases hw : h.write c.1 (pc.1, c.2.2.2) <;> rw [hw] at e <;> simp only [reduceCtorEq] at e
          rename_i g
          cases hf : g.write c.2.1 (c.2.2.1, ht.buckets (ops.hash key % ht.prime)) <;> rw [hf] at e <;> cases e
          exact ⟨rfl, rfl⟩
        · cases e; exact ⟨rfl, rfl⟩

theorem hdeleteA_asks {ops : KeyOps K} {h : Heap (Entry K D)} {ht : HTab} {t : Tab K D} {A} {m : List (K × D)} (r : HRep h ht t A)
    (rep : Tab.Rep ops t m) (key : K) {x} (e : hdeleteA ops h ht key = .ok x) :
    SearchAsks ops.hash ops.cmp x.1.1.2.prime (m.map Prod.fst) key x.2 := by
  obtain ⟨f, seen, f1, f2⟩ := search_asks r rep key
  obtain ⟨e1, e2⟩ := hdeleteA_record e f1
  rw [e1, e2]
  exact f2

theorem hretrieveA_asks {ops : KeyOps K} {h : Heap (Entry K D)} {ht : HTab} {t : Tab K D} {A} {m : List (K × D)} (r : HRep h ht t A)
    (rep : Tab.Rep ops t m) (key : K) {x} (e : hretrieveA ops h ht key = .ok x) :
    SearchAsks ops.hash ops.cmp x.1.1.2.prime (m.map Prod.fst) key x.2 := by
  obtain ⟨f, seen, f1, f2⟩ := search_asks r rep key
  obtain ⟨e1, e2⟩ := hretrieveA_record e f1
  rw [e1, e2]
  exact f2

/-- C95: the record does not change what the call does. -/
theorem C95_same_call (ops : KeyOps K) (s : Heap (Entry K Ptr) × HTab) (o : Spec.HashOp K) :
    ((heapStepA ops s o).bind fun r => Res.ok r.1) = heapStep ops s o := by
  cases o with
  | insert k d =>
    simp only [heapStepA, heapStep, ← hinsertA_erase]
    cases hinsertA ops s.1 s.2 k d <;> rfl
  | delete k =>
    simp only [heapStepA, heapStep, ← hdeleteA_erase]
    cases hdeleteA ops s.1 s.2 k <;> rfl
  | retrieve k =>
    simp only [heapStepA, heapStep, ← hretrieveA_erase]
    cases hretrieveA ops s.1 s.2 k <;> rfl
  | readonly f => rfl

/-- C95: after any history, a call on a hash table that returns has hashed its key once and compared with it keys that are in the table and in the slot of
its key, each once, up to the first that is equal, or all of them.  `size` is the number of slots, as `hsh_get_stats` gives it after the call. -/
theorem C95_hash_table (ops : KeyOps K) (law : ops.Lawful) (h0 : Heap (Entry K Ptr)) (ok0 : h0.Ok) (ht : HTab) (hc : hcreate 0 = .ok ht)
    (hist : List (Spec.HashOp K)) (s : Heap (Entry K Ptr) × HTab) (outs : List Spec.Ret) (hr : Spec.run (heapStep ops) (h0, ht) hist = .ok (s, outs))
    (o : Spec.HashOp K) (s' : Heap (Entry K Ptr) × HTab) (ret : Spec.Ret) (asked : List (Asked K)) (ho : heapStepA ops s o = .ok ((s', ret), asked)) :
    ∃ m ms, Spec.run (Spec.hashStep (eqv ops)) {} hist = .ok (m, ms) ∧
      o.asks ops.hash ops.cmp s'.2.prime (m.map.map Prod.fst) asked := by
  obtain ⟨ht', e1, e2⟩ := heap_history law h0 ok0 hist
  rw [hc] at e1
  cases e1
  rw [hr] at e2
  cases hm : Spec.run (Spec.hashStep (eqv ops)) {} hist <;> rw [hm] at e2 <;> simp only [Spec.ResRel] at e2
  rename_i b
  obtain ⟨m, ms⟩ := b
  obtain ⟨-, t, A, r, sim, -⟩ := e2
  refine ⟨m, ms, rfl, ?_⟩
  cases o with
  | insert k d =>
    simp only [heapStepA] at ho
    cases hx : hinsertA ops s.1 s.2 k d <;> rw [hx] at ho <;> simp only [Res.bind, reduceCtorEq, Res.ok.injEq, Prod.mk.injEq] at ho
    obtain ⟨⟨rfl, -⟩, rfl⟩ := ho
    exact hinsertA_asks law r sim.rep k d hx
  | delete k =>
    simp only [heapStepA] at ho
    cases hx : hdeleteA ops s.1 s.2 k <;> rw [hx] at ho <;> simp only [Res.bind, reduceCtorEq, Res.ok.injEq, Prod.mk.injEq] at ho
    obtain ⟨⟨rfl, -⟩, rfl⟩ := ho
    exact hdeleteA_asks r sim.rep k hx
  | retrieve k =>
    simp only [heapStepA] at ho
    cases hx : hretrieveA ops s.1 s.2 k <;> rw [hx] at ho <;> simp only [Res.bind, reduceCtorEq, Res.ok.injEq, Prod.mk.injEq] at ho
    obtain ⟨⟨rfl, -⟩, rfl⟩ := ho
    exact hretrieveA_asks r sim.rep k hx
  | readonly f =>
    simp only [heapStepA, Res.ok.injEq, Prod.mk.injEq] at ho
    exact ho.2.symm

/-- C95: the same for sets. -/
theorem C95_set (ops : KeyOps K) (law : ops.Lawful) (h0 : Heap (Entry K Unit)) (ok0 : h0.Ok) (ht : HTab) (hc : hcreate 0 = .ok ht)
    (hist : List (Spec.OneSetOp K)) (s : Heap (Entry K Unit) × HTab) (outs : List Int) (hr : Spec.run (setHeapStep ops) (h0, ht) hist = .ok (s, outs))
    (o : Spec.OneSetOp K) :
    ((setHeapStepA ops s o).bind fun r => Res.ok r.1) = setHeapStep ops s o ∧
    ∀ (s' : Heap (Entry K Unit) × HTab) (ret : Int) (asked : List (Asked K)), setHeapStepA ops s o = .ok ((s', ret), asked) →
      ∃ m ms, Spec.run (Spec.oneSetStep (eqv ops)) {} hist = .ok (m, ms) ∧
        o.asks ops.hash ops.cmp s'.2.prime (m.elems.map Prod.fst) asked := by
  constructor
  · cases o with
    | insert k => exact hinsertA_erase ops s.1 s.2 k ()
    | delete k => exact hdeleteA_erase ops s.1 s.2 k
    | member k =>
      simp only [setHeapStepA, setHeapStep, ← hretrieveA_erase]
      cases hretrieveA ops s.1 s.2 k <;> rfl
    | readonly f => rfl
  · intro s' ret asked ho
    obtain ⟨ht', e1, e2⟩ := set_history law h0 ok0 hist
    rw [hc] at e1
    cases e1
    rw [hr] at e2
    cases hm : Spec.run (Spec.oneSetStep (eqv ops)) {} hist <;> rw [hm] at e2 <;> simp only [Spec.ResRel] at e2
    rename_i b
    obtain ⟨m, ms⟩ := b
    obtain ⟨-, t, A, r, rep, -⟩ := e2
    refine ⟨m, ms, rfl, ?_⟩
    cases o with
    | insert k => exact hinsertA_asks law r rep k () ho
    | delete k => exact hdeleteA_asks r rep k ho
    | member k =>
      simp only [setHeapStepA] at ho
      cases hx : hretrieveA ops s.1 s.2 k <;> rw [hx] at ho <;> simp only [Res.bind, reduceCtorEq, Res.ok.injEq, Prod.mk.injEq] at ho
      obtain ⟨⟨rfl, -⟩, rfl⟩ := ho
      exact hretrieveA_asks r rep k hx
    | readonly f =>
      simp only [setHeapStepA, Res.ok.injEq, Prod.mk.injEq] at ho
      exact ho.2.symm

/-! ### Functions that may answer anything -/

theorem loose_slot {t : Tab K D} (sl : Tab.InSlot t) {s : Nat} (hs : s < t.prime) :
    (Tab.all t).filter (fun e => e.hash % t.prime = s) = t.buckets s := by
  have one : ∀ i, i < t.prime → (t.buckets i).filter (fun e => e.hash % t.prime = s) = if i = s then t.buckets i else [] := by
    intro i hi
    split
    · subst ‹i = s›
      rw [List.filter_eq_self]
      intro e he
      simpa using sl i hi e he
    · rename_i hne
      rw [List.filter_eq_nil_iff]
      intro e he
      simp only [sl i hi e he, decide_eq_true_eq]
      exact hne
  have gen : ∀ (l : List Nat), (∀ i ∈ l, i < t.prime) → l.Nodup → (l.flatMap t.buckets).filter (fun e => e.hash % t.prime = s) =
      if s ∈ l then t.buckets s else [] := by
    intro l
    induction l with
    | nil => intros; simp
    | cons i l ih =>
      intro hl hn
      rw [List.nodup_cons] at hn
      rw [List.flatMap_cons, List.filter_append, one i (hl i (by simp)), ih (fun j hj => hl j (by simp [hj])) hn.2]
      by_cases h : i = s
      · subst h
        simp [hn.1]
      · rw [if_neg h]
        have : (s ∈ i :: l) = (s ∈ l) := by simp [show ¬ s = i from fun e => h e.symm]
        simp only [this, List.nil_append]
  have := gen (List.range t.prime) (fun i hi => List.mem_range.1 hi) List.nodup_range
  rw [if_pos (List.mem_range.2 hs)] at this
  exact this

theorem loose_search {ops : KeyOps K} {h : Heap (Entry K D)} {ht : HTab} {t : Tab K D} {A} {L : List (Spec.Stored K D)} (r : HRep h ht t A)
    (kept : Tab.Kept t L) (key : K) :
    ∃ f seen, findLoopA ops key h.clock h 0 (ht.buckets (ops.hash key % ht.prime)) = .ok (f, seen) ∧
      Spec.LooseSearchAsks ops.hash ops.cmp ht.prime L key (record key seen) := by
  have hs : ops.hash key % ht.prime < t.prime := by rw [r.prime]; exact Nat.mod_lt _ kept.pos
  obtain ⟨f, seen, rest, h1, h2, h3, h4⟩ := findLoopA_ok ops key h (A (ops.hash key % ht.prime)) h.clock 0 _
    (Heap.Chain.length_lt r.ok (r.chain _ hs)) (r.chain _ hs)
  have e1 : (A (ops.hash key % ht.prime)).map (fun c => c.2.key) = ((t.buckets (ops.hash key % ht.prime)).map Tab.stored).map Spec.Stored.key := by
    rw [← r.ents _ hs, List.map_map, List.map_map]; rfl
  have e2 : ((t.buckets (ops.hash key % ht.prime)).map Tab.stored).Perm (L.filter fun e => e.hash % ht.prime = ops.hash key % ht.prime) := by
    rw [← loose_slot kept.slot hs, ← r.prime]
    refine List.Perm.trans ?_ (kept.perm.filter _)
    rw [List.filter_map]
    exact List.Perm.refl _
  obtain ⟨s1, s2, e3, e4, e5⟩ := List.map_eq_append_iff.1 (e1.symm.trans h2)
  subst e4
  subst e5
  refine ⟨f, _, h1, s1, s2, by simp [record, List.map_map, Function.comp_def], by rw [← e3]; exact e2, ?_, ?_⟩
  · intro e he
    refine h3 e.key ?_
    rw [← List.map_dropLast]
    exact List.mem_map_of_mem he
  · rcases h4 with ⟨⟨k, g1, g2⟩, -⟩ | ⟨⟨g1, g2⟩, -⟩
    · left
      rw [List.getLast?_map, Option.map_eq_some_iff] at g1
      obtain ⟨e, g3, rfl⟩ := g1
      exact ⟨e, g3, g2⟩
    · right
      exact ⟨by simpa using g1, fun e he => g2 _ (List.mem_map_of_mem he)⟩

theorem hinsertA_loose {ops : KeyOps K} {h : Heap (Entry K D)} {ht : HTab} {t : Tab K D} {A} {L : List (Spec.Stored K D)} (r : HRep h ht t A)
    (kept : Tab.Kept t L) (key : K) (d : D) {x} (e : hinsertA ops h ht key d = .ok x) :
    Spec.LooseSearchAsks ops.hash ops.cmp x.1.1.2.prime L key x.2 := by
  obtain ⟨h1, ht1, t1, A1, g1, g2, g3, -⟩ := hgrow_hrep r
  obtain ⟨t2, k1, k2, -⟩ := Tab.grow_kept kept
  rw [g2] at k1
  cases k1
  obtain ⟨f, seen, f1, f2⟩ := loose_search (ops := ops) g3 k2 key
  unfold hinsertA at e
  simp only at e
  split at e
  · cases e
  · simp only [g1, Res.bind] at e
    split at e
    · cases e
    · simp only [f1] at e
      cases f <;> (cases e; exact f2)

theorem hdeleteA_loose {ops : KeyOps K} {h : Heap (Entry K D)} {ht : HTab} {t : Tab K D} {A} {L : List (Spec.Stored K D)} (r : HRep h ht t A)
    (kept : Tab.Kept t L) (key : K) {x} (e : hdeleteA ops h ht key = .ok x) :
    Spec.LooseSearchAsks ops.hash ops.cmp x.1.1.2.prime L key x.2 := by
  obtain ⟨f, seen, f1, f2⟩ := loose_search (ops := ops) r kept key
  obtain ⟨g1, g2⟩ := hdeleteA_record e f1
  rw [g1, g2]
  exact f2

theorem hretrieveA_loose {ops : KeyOps K} {h : Heap (Entry K D)} {ht : HTab} {t : Tab K D} {A} {L : List (Spec.Stored K D)} (r : HRep h ht t A)
    (kept : Tab.Kept t L) (key : K) {x} (e : hretrieveA ops h ht key = .ok x) :
    Spec.LooseSearchAsks ops.hash ops.cmp x.1.1.2.prime L key x.2 := by
  obtain ⟨f, seen, f1, f2⟩ := loose_search (ops := ops) r kept key
  obtain ⟨g1, g2⟩ := hretrieveA_record e f1
  rw [g1, g2]
  exact f2

/-- C95, with functions that may answer anything and something else during each call (as when keys that are in the table are changed): still the key is
hashed once, and the first of the pairs in its slot that compares equal ends the comparisons. -/
theorem C95_any_functions (h0 : Heap (Entry K Ptr)) (ok0 : h0.Ok) (ht : HTab) (hc : hcreate 0 = .ok ht) (hist : List (KeyOps K × Spec.HashOp K))
    (s : Heap (Entry K Ptr) × HTab) (outs : List Spec.Ret) (hr : Spec.run looseStep (h0, ht) hist = .ok (s, outs))
    (ops : KeyOps K) (o : Spec.HashOp K) (s' : Heap (Entry K Ptr) × HTab) (ret : Spec.Ret) (asked : List (Asked K))
    (ho : heapStepA ops s o = .ok ((s', ret), asked)) :
    ∃ m, Spec.mayRun Spec.hashMay {} hist (.ok (m, outs)) ∧ o.looseAsks ops.hash ops.cmp s'.2.prime m.pairs asked := by
  obtain ⟨ht', e1, r, e2, e3⟩ := hash_history_loose h0 ok0 hist
  rw [hc] at e1
  cases e1
  rw [hr] at e3
  cases r <;> simp only [Spec.ResRel] at e3
  rename_i b
  obtain ⟨m, ms⟩ := b
  obtain ⟨e4, t, A, l⟩ := e3
  have e4 : outs = ms := e4
  subst e4
  refine ⟨m, e2, ?_⟩
  have r := l.rep
  have kept := l.kept
  cases o with
  | insert k d =>
    simp only [heapStepA] at ho
    cases hx : hinsertA ops s.1 s.2 k d <;> rw [hx] at ho <;> simp only [Res.bind, reduceCtorEq, Res.ok.injEq, Prod.mk.injEq] at ho
    obtain ⟨⟨rfl, -⟩, rfl⟩ := ho
    exact hinsertA_loose r kept k d hx
  | delete k =>
    simp only [heapStepA] at ho
    cases hx : hdeleteA ops s.1 s.2 k <;> rw [hx] at ho <;> simp only [Res.bind, reduceCtorEq, Res.ok.injEq, Prod.mk.injEq] at ho
    obtain ⟨⟨rfl, -⟩, rfl⟩ := ho
    exact hdeleteA_loose r kept k hx
  | retrieve k =>
    simp only [heapStepA] at ho
    cases hx : hretrieveA ops s.1 s.2 k <;> rw [hx] at ho <;> simp only [Res.bind, reduceCtorEq, Res.ok.injEq, Prod.mk.injEq] at ho
    obtain ⟨⟨rfl, -⟩, rfl⟩ := ho
    exact hretrieveA_loose r kept k hx
  | readonly f =>
    simp only [heapStepA, Res.ok.injEq, Prod.mk.injEq] at ho
    exact ho.2.symm

/-! ### A key that was just looked up -/

/-- C95: the same for sets. -/
theorem C95_set_any_functions (h0 : Heap (Entry K Unit)) (ok0 : h0.Ok) (ht : HTab) (hc : hcreate 0 = .ok ht)
    (hist : List (KeyOps K × Spec.OneSetOp K)) (s : Heap (Entry K Unit) × HTab) (outs : List Int)
    (hr : Spec.run looseSetStep (h0, ht) hist = .ok (s, outs))
    (ops : KeyOps K) (o : Spec.OneSetOp K) (s' : Heap (Entry K Unit) × HTab) (ret : Int) (asked : List (Asked K))
    (ho : setHeapStepA ops s o = .ok ((s', ret), asked)) :
    ∃ m, Spec.mayRun Spec.setMay {} hist (.ok (m, outs)) ∧ o.looseAsks ops.hash ops.cmp s'.2.prime m.pairs asked := by
  obtain ⟨ht', e1, r, e2, e3⟩ := set_history_loose h0 ok0 hist
  rw [hc] at e1
  cases e1
  rw [hr] at e3
  cases r <;> simp only [Spec.ResRel] at e3
  rename_i b
  obtain ⟨m, ms⟩ := b
  obtain ⟨e4, t, A, l⟩ := e3
  have e4 : outs = ms := e4
  subst e4
  refine ⟨m, e2, ?_⟩
  cases o with
  | insert k => exact hinsertA_loose l.rep l.kept k () ho
  | delete k => exact hdeleteA_loose l.rep l.kept k ho
  | member k =>
    simp only [setHeapStepA] at ho
    cases hx : hretrieveA ops s.1 s.2 k <;> rw [hx] at ho <;> simp only [Res.bind, reduceCtorEq, Res.ok.injEq, Prod.mk.injEq] at ho
    obtain ⟨⟨rfl, -⟩, rfl⟩ := ho
    exact hretrieveA_loose l.rep l.kept k hx
  | readonly f =>
    simp only [setHeapStepA, Res.ok.injEq, Prod.mk.injEq] at ho
    exact ho.2.symm

/-- a look-up that finds leaves the entry at the front -/
theorem retrieve_front {ops : KeyOps K} {t t' : Tab K D} {key : K} {d : D} (ro : t.readonly = 0) (e : Tab.retrieve ops t key = .ok (t', some d)) :
    t'.prime = t.prime ∧ ∃ q rest, t'.buckets (ops.hash key % t.prime) = q :: rest ∧ ops.cmp q.key key = 0 := by
  unfold Tab.retrieve at e
  simp only at e
  split at e
  · cases e
  · split at e
    · cases e
    · rename_i pt rest hb
      split at e
      · rename_i hp
        cases e
        exact ⟨rfl, pt, rest, hb, by simpa using hp⟩
      · split at e
        · rename_i q hq
          cases e
          refine ⟨rfl, q, pt :: rest.eraseP (fun pt => ops.cmp pt.key key == 0), by simp [Tab.setBucket], ?_⟩
          have := List.find?_some hq
          simpa using this
        · cases e

theorem first_hit {ops : KeyOps K} {h : Heap (Entry K D)} {ht : HTab} {t : Tab K D} {A} (r : HRep h ht t A) (pos : 0 < t.prime) (key : K)
    {q : Entry K D} {rest} (hb : t.buckets (ops.hash key % t.prime) = q :: rest) (hq : ops.cmp q.key key = 0) :
    ∃ f, findLoopA ops key h.clock h 0 (ht.buckets (ops.hash key % ht.prime)) = .ok (some f, [q.key]) := by
  have hs : ops.hash key % t.prime < t.prime := Nat.mod_lt _ pos
  rw [r.prime]
  generalize ops.hash key % t.prime = s at hs hb
  have hc := r.chain s hs
  have he := r.ents s hs
  have hl := Heap.Chain.length_lt r.ok hc
  rw [hb] at he
  cases hA : A s with
  | nil => rw [hA] at he; simp at he
  | cons c l =>
    rw [hA] at hc he
    simp only [List.map_cons, List.cons.injEq] at he
    obtain ⟨h1, h2, nx, h3, h4⟩ := hc
    cases hn : h.clock with
    | zero => omega
    | succ n =>
      refine ⟨(0, ht.buckets s, (c.2, nx)), ?_⟩
      have hcmp : (ops.cmp c.2.key key == 0) = true := by rw [he.1]; simpa using hq
      rw [← h1] at h2 h3
      simp only [findLoopA]
      rw [if_neg h2, Heap.read_ok h3]
      rw [he.1] at hcmp
      simp only [Res.bind, he.1, hcmp, if_true]

/-- C95: when a key of a table that is not read-only has been found, the next look-up of the key, or its removal, compares once. -/
theorem C95_found_again (ops : KeyOps K) (law : ops.Lawful) (h0 : Heap (Entry K Ptr)) (ok0 : h0.Ok) (ht : HTab) (hc : hcreate 0 = .ok ht)
    (hist : List (Spec.HashOp K)) (key : K) (m : Spec.MapState K) (ms : List Spec.Ret) (hm : Spec.run (Spec.hashStep (eqv ops)) {} hist = .ok (m, ms))
    (hw : m.readonly = 0) (hin : (Spec.find (eqv ops) m.map key).isSome)
    (s : Heap (Entry K Ptr) × HTab) (outs : List Spec.Ret) (hr : Spec.run (heapStep ops) (h0, ht) (hist ++ [.retrieve key]) = .ok (s, outs))
    (o : Spec.HashOp K) (ho : o = .retrieve key ∨ o = .delete key) :
    ∃ s' ret k, heapStepA ops s o = .ok ((s', ret), [.hash key, .compare k key]) ∧ ops.cmp k key = 0 := by
  obtain ⟨ht', e1, e2⟩ := heap_history law h0 ok0 hist
  rw [hc] at e1
  cases e1
  rw [hm] at e2
  rw [Spec.run_append] at hr
  cases h1 : Spec.run (heapStep ops) (h0, ht) hist <;> rw [h1] at e2 hr <;> simp only [Spec.ResRel] at e2
  rename_i a
  obtain ⟨⟨h, t'⟩, as⟩ := a
  obtain ⟨-, t, A, r, sim, ow⟩ := e2
  simp only [Res.bind, Spec.run, heapStep] at hr
  have ro : t.readonly = 0 := by rw [sim.ro]; exact hw
  obtain ⟨t1, r1, r2, -⟩ := Tab.retrieve_rep law sim.rep key
  obtain ⟨d, hd⟩ := Option.isSome_iff_exists.1 hin
  simp only [hd] at r1
  have hh := hretrieve_hrep (ops := ops) r key
  rw [r1] at hh
  cases h2 : hretrieve ops h t' key <;> rw [h2] at hh hr <;> simp only [Spec.ResRel] at hh
  rename_i b
  obtain ⟨⟨g, gt⟩, bd⟩ := b
  obtain ⟨rfl, A', r', -, -⟩ := hh
  simp only [Res.ok.injEq, Prod.mk.injEq] at hr
  obtain ⟨rfl, -⟩ := hr
  obtain ⟨p1, q, rest, p2, p3⟩ := retrieve_front ro r1
  rw [← p1] at p2
  obtain ⟨f, hf⟩ := first_hit r' r2.inv.pos key p2 p3
  rcases ho with rfl | rfl
  · obtain ⟨t2, c1, -, -⟩ := Tab.retrieve_rep law r2 key
    have hh := hretrieve_hrep (ops := ops) r' key
    rw [c1] at hh
    have e := hretrieveA_erase ops g gt key
    cases h3 : hretrieveA ops g gt key <;> rw [h3] at e <;> simp only [Res.bind] at e <;> rw [← e] at hh <;> simp only [Spec.ResRel] at hh
    have hx : ∃ x, heapStepA ops (g, gt) (.retrieve key) = .ok x ∧ x.2 = record key [q.key] := by
      simp only [heapStepA, h3, Res.bind]
      exact ⟨_, rfl, (hretrieveA_record h3 hf).2⟩
    obtain ⟨⟨⟨s', ret⟩, asked⟩, e1, rfl⟩ := hx
    exact ⟨s', ret, q.key, e1, p3⟩
  · have ro1 : t1.readonly = 0 := by
      have := (Tab.retrieve_rep law sim.rep key)
      obtain ⟨t1', r1', -, r3⟩ := this
      rw [hd, r1] at r1'
      cases r1'
      rw [r3.readonly]; exact ro
    obtain ⟨t2, c1, -⟩ := Tab.delete_rep law r2 ro1 key
    have hh := hdelete_hrep (ops := ops) r' key
    rw [c1] at hh
    have e := hdeleteA_erase ops g gt key
    cases h3 : hdeleteA ops g gt key <;> rw [h3] at e <;> simp only [Res.bind] at e <;> rw [← e] at hh <;> simp only [Spec.ResRel] at hh
    have hx : ∃ x, heapStepA ops (g, gt) (.delete key) = .ok x ∧ x.2 = record key [q.key] := by
      simp only [heapStepA, h3, Res.bind]
      exact ⟨_, rfl, (hdeleteA_record h3 hf).2⟩
    obtain ⟨⟨⟨s', ret⟩, asked⟩, e1, rfl⟩ := hx
    exact ⟨s', ret, q.key, e1, p3⟩

/-- C95: a search never compares more often than there are keys that fall into the slot of its key; with none there, it does not compare at all. -/
theorem C95_at_most (hash : K → Nat) (cmp : K → K → Int) (size : Nat) (keys : List K) (key : K) (asked : List (Asked K))
    (h : SearchAsks hash cmp size keys key asked) :
    asked.length ≤ 1 + (keys.filter fun k => hash k % size = hash key % size).length ∧ asked.length ≤ 1 + keys.length ∧
    (∀ a b, Asked.compare a b ∈ asked → a ∈ keys ∧ b = key) ∧
    ((∀ k ∈ keys, cmp k key ≠ 0) → asked.length = 1 + (keys.filter fun k => hash k % size = hash key % size).length) := by
  obtain ⟨seen, rest, rfl, h2, h3, h4⟩ := h
  have hl := h2.length_eq
  simp only [List.length_append] at hl
  have hk : (keys.filter fun k => hash k % size = hash key % size).length ≤ keys.length := List.length_filter_le _ _
  refine ⟨by simp; omega, by simp; omega, ?_, ?_⟩
  · intro a b hab
    simp only [List.mem_cons, reduceCtorEq, List.mem_map, Asked.compare.injEq, false_or] at hab
    obtain ⟨k, hk, rfl, rfl⟩ := hab
    exact ⟨List.mem_of_mem_filter (h2.mem_iff.1 (List.mem_append_left _ hk)), rfl⟩
  · intro hne
    rcases h4 with ⟨k, e1, e2⟩ | ⟨rfl, -⟩
    · have : k ∈ seen := List.mem_of_getLast? e1
      exact absurd e2 (hne k (List.mem_of_mem_filter (h2.mem_iff.1 (List.mem_append_left _ this))))
    · simp at hl ⊢; omega

/-- Numbers by their residue modulo 3. -/
def mod3 : KeyOps Nat := { hash := fun n => n % 3, cmp := fun a b => (a : Int) - b }

theorem mod3_lawful : mod3.Lawful := by
  constructor <;> intros <;> simp only [mod3] at * <;> omega

/-- What each call of a history asks, in a table that was just created. -/
def traces (ops : KeyOps K) (hist : List (Spec.HashOp K)) : Res (List (List (Asked K))) :=
  (hcreate 0).bind fun ht => (Spec.run (fun s o => (heapStepA ops s o).bind fun r => Res.ok (r.1.1, r.2)) (Heap.init, ht) hist).bind fun r => .ok r.2

example : traces mod3 [.insert 1 10, .insert 4 40, .insert 7 70, .insert 2 20, .retrieve 1, .retrieve 1, .retrieve 3, .insert 10 100, .delete 4] =
    .ok [[.hash 1], [.hash 4, .compare 1 4], [.hash 7, .compare 1 7, .compare 4 7], [.hash 2], [.hash 1, .compare 7 1, .compare 1 1],
      [.hash 1, .compare 1 1], [.hash 3], [.hash 10, .compare 1 10, .compare 7 10, .compare 4 10],
      [.hash 4, .compare 10 4, .compare 1 4, .compare 7 4, .compare 4 4]] := by decide +kernel

/-- the hypotheses of `C95_found_again` are met, in any memory -/
example (h0 : Heap (Entry Nat Ptr)) (ok0 : h0.Ok) (ht : HTab) (hc : hcreate 0 = .ok ht) :
    ∃ s outs s' ret k, Spec.run (heapStep mod3) (h0, ht) [.insert 1 10, .insert 4 40, .insert 7 70, .retrieve 4] = .ok (s, outs) ∧
      heapStepA mod3 s (.delete 4) = .ok ((s', ret), [.hash 4, .compare k 4]) ∧ mod3.cmp k 4 = 0 := by
  obtain ⟨ht', e1, e2⟩ := heap_history mod3_lawful h0 ok0 [.insert 1 10, .insert 4 40, .insert 7 70, .retrieve 4]
  rw [hc] at e1
  cases e1
  cases hr : Spec.run (heapStep mod3) (h0, ht) [.insert 1 10, .insert 4 40, .insert 7 70, .retrieve 4] with
  | ok r =>
    obtain ⟨s', ret, k, h1, h2⟩ := C95_found_again mod3 mod3_lawful h0 ok0 ht hc [.insert 1 10, .insert 4 40, .insert 7 70] 4 _ _ rfl rfl rfl r.1 r.2 hr
      (.delete 4) (Or.inr rfl)
    exact ⟨r.1, r.2, s', ret, k, rfl, h1, h2⟩
  | _ => rw [hr] at e2; exact e2.elim

end Maa.HashHeap
