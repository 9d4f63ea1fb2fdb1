import Verif.Spec.Borrowed
import Verif.Lemmas.Borrowed
import Verif.Props.Flags

/-! # Property C89: names that stay in the caller's memory -/

namespace Maa.Borrowed

open HashHeap (HState HTab PSim)
open Spec (ResRel Loans Honoured Memory stringAt HashOp MapState Ret tabLoans Switches codeGroup)

/-- simulation along a history in which all loans are kept -/
theorem run_loans {S A O O' X : Type} {change : Loans → Memory → O → Loans} {R : Loans → S → A → Prop} {cs : S → Memory × O → Res (S × X)}
    {as : A → O' → Res (A × X)} {spell : Memory → O → Option O'} {P : O' → Prop}
    (h : ∀ B s a m o o', R B s a → B.Kept m → spell m o = some o' → P o' →
      ResRel (fun c b => c.2 = b.2 ∧ R (change B m o) c.1 b.1) (cs s (m, o)) (as a o')) :
    ∀ (hist : List (Memory × O)) (hist' : List O') (B : Loans) (s : S) (a : A), R B s a → Honoured change B hist →
      hist.map (fun x => spell x.1 x.2) = hist'.map some → (∀ o ∈ hist', P o) →
      ResRel (fun c b => c.2 = b.2 ∧ ∃ B', R B' c.1 b.1) (Spec.run cs s hist) (Spec.run as a hist') := by
  intro hist
  induction hist with
  | nil =>
    intro hist' B s a h0 _ he _
    cases hist' with
    | nil => exact ⟨rfl, B, h0⟩
    | cons _ _ => cases he
  | cons x hist ih =>
    intro hist' B s a h0 hh he hP
    obtain ⟨m, o⟩ := x
    cases hist' with
    | nil => cases he
    | cons o' hist' =>
      simp only [List.map_cons, List.cons.injEq] at he
      simp only [Spec.run]
      refine ResRel.bind (h B s a m o o' h0 hh.1 he.1 (hP o' (by simp))) ?_
      rintro c b ⟨e, hR⟩
      refine ResRel.bind (ih hist' _ c.1 b.1 hR hh.2 he.2 fun o ho => hP o (by simp [ho])) ?_
      rintro q r ⟨e2, hR2⟩
      exact ⟨by rw [e, e2], hR2⟩

theorem cstr_eq (buf : List Byte) : CStr.cstr buf = if (0 : Byte) ∈ buf then .ok (buf.takeWhile (· ≠ 0)) else .ub := by
  induction buf with
  | nil => rfl
  | cons b bs ih =>
    simp only [CStr.cstr]
    by_cases hb : b = 0
    · subst hb; simp
    · rw [if_neg hb, ih]
      by_cases h0 : (0 : Byte) ∈ bs
      · rw [if_pos h0, if_pos (List.mem_cons_of_mem _ h0), List.takeWhile_cons_of_pos (by simp [hb])]
        rfl
      · rw [if_neg h0, if_neg (by simp [h0, Ne.symm hb])]
        rfl

theorem text_iff {m : Memory} {p : Nat} {s : List Byte} : text m p = .ok s ↔ stringAt m p = some s := by
  unfold text stringAt
  by_cases e : p = 0
  · rw [if_pos e, if_pos e]; simp
  rw [if_neg e, if_neg e]
  cases hm : m p with
  | none => simp
  | some buf =>
    simp only [Option.bind_some]
    rw [cstr_eq]
    by_cases h0 : (0 : Byte) ∈ buf
    · rw [if_pos h0, if_pos h0]; simp
    · rw [if_neg h0, if_neg h0]; simp

theorem stringAt_nul {m : Memory} {p : Nat} {s : List Byte} (h : stringAt m p = some s) : (0 : Byte) ∉ s := text_nul (text_iff.2 h)

/-- The table keyed by pointers and the table keyed by characters agree as long as the loans are kept. -/
def Agree (B : Loans) (t : Table) (t' : NameTab.Table) : Prop := ∃ g : Ptr → List Byte, Both (fun p => (p, g p) ∈ B) g t t'

/-- what the memory spell -/
def reading (m : Memory) (p : Ptr) : List Byte := (stringAt m p).getD []

theorem Agree.now {B : Loans} {t : Table} {t' : NameTab.Table} (h : Agree B t t') {m : Memory} (hk : B.Kept m) :
    Both (fun p => (p, reading m p) ∈ B) (reading m) t t' := by
  obtain ⟨g, h1, h2⟩ := h
  have e : ∀ p, (p, g p) ∈ B → reading m p = g p := fun p hp => by
    have := hk _ hp
    simp only at this
    rw [reading, this]; rfl
  refine ⟨(h1.congr e).mono ?_, h2⟩
  intro p hp
  rw [e p hp]; exact hp

theorem reads {B : Loans} {m : Memory} (hk : B.Kept m) : Reads m (fun p => (p, reading m p) ∈ B) (reading m) := by
  intro p hp
  exact text_iff.2 (hk _ hp)

theorem reading_eq {m : Memory} {p : Ptr} {s : List Byte} (h : stringAt m p = some s) : reading m p = s := by rw [reading, h]; rfl

/-- inserting in both tables; `fresh`: a name that was inserted was not lent before -/
theorem Agree.insert {B : Loans} {t : Table} {t' : NameTab.Table} (h : Agree B t t') {m : Memory} (hk : B.Kept m) {p : Ptr} {s : List Byte}
    (hp : stringAt m p = some s) (d : Ptr) (fresh : ∀ t₁, NameTab.insertKey t' s d = .ok (t₁, 0) → s ∉ B.map Prod.snd) :
    ResRel (fun c c' => c'.2 = c.2 ∧ Agree (B.lend m p) c.1 c'.1) (Borrowed.insert m t p d) (NameTab.insertKey t' s d) := by
  have h1 := insert_both (reads hk) (text_iff.2 hp) (reading_eq hp) (h.now hk) d
  cases hx : Borrowed.insert m t p d <;> cases hy : NameTab.insertKey t' s d <;> rw [hx, hy] at h1 <;> simp only [ResRel] at h1 ⊢
  rename_i c c'
  obtain ⟨e, s1, e1⟩ := h1
  refine ⟨e, reading m, s1.mono ?_, e1⟩
  intro q hq
  have hB : (q, reading m q) ∈ B → (q, reading m q) ∈ B.lend m p := by
    intro hb
    simp only [Loans.lend, hp]
    split
    · exact hb
    · exact List.mem_cons_of_mem _ hb
  rcases hq with hq | ⟨h0, rfl⟩
  · exact hB hq
  · have hf := fresh c'.1 (by rw [hy]; congr 1; exact Prod.ext rfl (by rw [e, h0]))
    simp only [Loans.lend, hp, if_neg hf, reading_eq hp]
    simp

/-! ## Tables of strings -/

theorem seg_cell {α : Type} {m : Nat → Option (α × Nat)} {p q : Nat} {l : List (Nat × α)} (h : Heap.Seg m p l q) :
    ∀ x ∈ l, ∃ n, m x.1 = some (x.2, n) := by
  induction l generalizing p with
  | nil => simp
  | cons c l ih =>
    obtain ⟨h1, h2, n, h3, h4⟩ := h
    intro x hx
    rcases List.mem_cons.1 hx with rfl | hx
    · exact ⟨n, h3⟩
    · exact ih h4 x hx

/-- every live cell of a table of names holds a key of its map -/
theorem live_key {t' : NameTab.Table} {S : MapState (List Byte)} (h : PSim NameTab.strOps Heap.init t' S) {a : Nat} {c} (hc : t'.1.mem a = some c) :
    c.1.key ∈ S.map.map Prod.fst := by
  obtain ⟨T, A, r, sim, ow⟩ := h
  obtain ⟨i, hi, ha⟩ := (ow.live a rfl).1 (by rw [hc]; rfl)
  obtain ⟨x, hx, rfl⟩ := List.mem_map.1 ha
  obtain ⟨nx, h1⟩ := seg_cell (r.chain i hi) x hx
  rw [hc, Option.some.injEq] at h1
  have h2 : x.2 ∈ Tab.all T := (Tab.mem_all T x.2).2 ⟨i, hi, by rw [← r.ents i hi]; exact List.mem_map.2 ⟨x, hx, rfl⟩⟩
  have h3 := sim.rep.perm.mem_iff.1 (List.mem_map.2 ⟨x.2, h2, rfl⟩)
  rw [h1]
  exact List.mem_map.2 ⟨_, h3, rfl⟩

theorem delete_eqv {m : List (List Byte × Nat)} (h : ∀ p ∈ m, (0 : Byte) ∉ p.1) {s : List Byte} (hs : (0 : Byte) ∉ s) :
    Spec.delete (eqv NameTab.strOps) m s = Spec.delete (· == ·) m s := by
  unfold Spec.delete
  rw [NameTab.find_eqv h hs]
  cases Spec.find (· == ·) m s with
  | none => rfl
  | some d =>
    simp only [Prod.mk.injEq, and_true]
    exact List.filter_congr fun p hp => by rw [NameTab.eqv_strOps (h p hp) hs]

/-- the table, the map by contents, and the loans -/
structure Lent (B : Loans) (t : Table) (S : MapState (List Byte)) : Prop where
  ex : ∃ t', Agree B t t' ∧ PSim NameTab.strOps Heap.init t' S
  nul : ∀ p ∈ S.map, (0 : Byte) ∉ p.1
  loans : B.map Prod.snd = S.map.map Prod.fst

theorem find_none_iff {D : Type} (m : List (List Byte × D)) (s : List Byte) : Spec.find (· == ·) m s = none ↔ s ∉ m.map Prod.fst := by
  induction m with
  | nil => simp [Spec.find]
  | cons p m ih =>
    obtain ⟨k, d⟩ := p
    simp only [Spec.find, List.map_cons, List.mem_cons]
    by_cases e : k = s
    · subst e; simp
    · rw [if_neg (by simpa using e), ih]
      simp [Ne.symm e]

theorem insert_loans {D : Type} {B : Loans} {M : List (List Byte × D)} (hl : B.map Prod.snd = M.map Prod.fst) {m : Memory} {p : Ptr} {s : List Byte}
    (hp : stringAt m p = some s) (d : D) : (B.lend m p).map Prod.snd = (Spec.insert (· == ·) M s d).1.map Prod.fst := by
  simp only [Loans.lend, hp, Spec.insert]
  by_cases hs : s ∈ B.map Prod.snd
  · rw [if_pos hs]
    cases hf : Spec.find (· == ·) M s with
    | some x => exact hl
    | none => rw [find_none_iff, ← hl] at hf; exact absurd hs hf
  · rw [if_neg hs, (find_none_iff M s).2 (by rw [← hl]; exact hs)]
    simp [hl]

theorem insert_zero {D : Type} {M : List (List Byte × D)} {s : List Byte} {d : D} (h : (Spec.insert (· == ·) M s d).2 = 0) : s ∉ M.map Prod.fst := by
  rw [← find_none_iff]
  unfold Spec.insert at h
  cases hf : Spec.find (· == ·) M s with
  | none => rfl
  | some x => rw [hf] at h; simp at h

theorem tabStep_lent {B : Loans} {t : Table} {S : MapState (List Byte)} {m : Memory} {o : HashOp Nat} {o' : HashOp (List Byte)} (h : Lent B t S)
    (hk : B.Kept m) (ho : o.spelled m = some o') :
    ResRel (fun c b => c.2 = b.2 ∧ Lent (tabLoans B m o) c.1 b.1) (tabStep t (m, o)) (Spec.hashStep (· == ·) S o') := by
  obtain ⟨⟨t', ag, ps⟩, nul, hl⟩ := h
  cases o with
  | insert p d =>
    simp only [HashOp.spelled, Option.map_eq_some_iff] at ho
    obtain ⟨s, hs, rfl⟩ := ho
    have hn := stringAt_nul hs
    have h2 := HashHeap.heapStep_sim NameTab.strOps_lawful Heap.init t' _ (.insert s d) ps
    simp only [HashHeap.heapStep, Spec.hashStep] at h2
    simp only [tabStep, Spec.hashStep, tabLoans]
    rw [NameTab.insert_eqv nul hn] at h2
    have h3 := ag.insert hk hs d (by
      intro t₁ ht
      unfold NameTab.insertKey at ht
      rw [ht] at h2
      by_cases ro : S.readonly ≠ 0
      · rw [if_pos ro] at h2; cases h2
      · rw [if_neg ro] at h2
        have h4 := h2.1
        simp only [Ret.int.injEq] at h4
        rw [hl]
        exact insert_zero h4.symm)
    unfold NameTab.insertKey at h3
    cases hx : Borrowed.insert m t p d <;> cases hy : HashHeap.hinsert NameTab.strOps t'.1 t'.2 s d <;> rw [hx, hy] at h3 <;> simp only [ResRel] at h3 <;>
      rw [hy] at h2 <;> by_cases ro : S.readonly ≠ 0 <;> simp only [if_pos ro, if_neg ro, Res.bind, ResRel] at h2 ⊢
    refine ⟨?_, ⟨_, h3.2, h2.2⟩, NameTab.insert_nul nul hn d, insert_loans hl hs d⟩
    rw [← h3.1]; exact h2.1
  | delete p =>
    simp only [HashOp.spelled, Option.map_eq_some_iff] at ho
    obtain ⟨s, hs, rfl⟩ := ho
    have hn := stringAt_nul hs
    have h2 := HashHeap.heapStep_sim NameTab.strOps_lawful Heap.init t' _ (.delete s) ps
    simp only [HashHeap.heapStep, Spec.hashStep] at h2
    simp only [tabStep, Spec.hashStep, tabLoans]
    rw [delete_eqv nul hn] at h2
    have h3 := delete_both (reads hk) (text_iff.2 hs) (ag.now hk)
    cases hx : Borrowed.delete m t p <;> cases hy : HashHeap.hdelete NameTab.strOps t'.1 t'.2 s <;> rw [hx, hy] at h3 <;> simp only [ResRel] at h3 <;>
      rw [hy] at h2 <;> by_cases ro : S.readonly ≠ 0 <;> simp only [if_pos ro, if_neg ro, Res.bind, ResRel] at h2 ⊢
    rename_i c c'
    have hgone : ∀ q ∈ (Spec.delete (· == ·) S.map s).1, q.1 ≠ s ∧ q ∈ S.map := by
      intro q hq
      unfold Spec.delete at hq
      cases hf : Spec.find (· == ·) S.map s with
      | none =>
        rw [hf] at hq
        exact ⟨fun e => (find_none_iff _ _).1 hf (List.mem_map.2 ⟨q, hq, e⟩), hq⟩
      | some d =>
        rw [hf] at hq
        obtain ⟨h5, h6⟩ := List.mem_filter.1 hq
        exact ⟨by simpa using h6, h5⟩
    refine ⟨by rw [← h3.1]; exact h2.1, ⟨c'.1, ⟨reading m, ⟨h3.2.1.mem, h3.2.1.clock, h3.2.1.place, ?_⟩, h3.2.2⟩, h2.2⟩, fun q hq => nul q (hgone q hq).2, ?_⟩
    · intro a e he
      have h5 := h3.2.1.keys a e he
      simp only [Loans.giveBack, hs]
      refine List.mem_filter.2 ⟨h5, ?_⟩
      have h6 := live_key h2.2 (a := a) (c := (entry (reading m) e.1, e.2)) (by rw [h3.2.1.mem a, he]; rfl)
      obtain ⟨q, hq, e1⟩ := List.mem_map.1 h6
      have h7 := (hgone q hq).1
      rw [e1] at h7
      have h8 : reading m e.1.key ≠ s := h7
      simpa using h8
    · have e1 : (B.giveBack m p).map Prod.snd = (S.map.map Prod.fst).filter fun k => decide (k ≠ s) := by
        simp only [Loans.giveBack, hs]
        rw [← hl, List.filter_map]
        rfl
      rw [e1]
      simp only [Spec.delete]
      cases hf : Spec.find (· == ·) S.map s with
      | none =>
        have := (find_none_iff _ _).1 hf
        refine List.filter_eq_self.2 fun k hk => ?_
        simp only [ne_eq, decide_not, Bool.not_eq_eq_eq_not, Bool.not_true, decide_eq_false_iff_not]
        rintro rfl
        exact this hk
      | some d =>
        rw [List.filter_map]
        refine congrArg _ (List.filter_congr fun q _ => ?_)
        simp only [Function.comp_apply]
        by_cases e : q.1 = s <;> simp [e]
  | retrieve p =>
    simp only [HashOp.spelled, Option.map_eq_some_iff] at ho
    obtain ⟨s, hs, rfl⟩ := ho
    have hn := stringAt_nul hs
    have h2 := HashHeap.heapStep_sim NameTab.strOps_lawful Heap.init t' _ (.retrieve s) ps
    simp only [HashHeap.heapStep, Spec.hashStep] at h2
    simp only [tabStep, Spec.hashStep, tabLoans, Borrowed.retrieve, text_iff.2 hs, Res.bind]
    rw [NameTab.find_eqv nul hn] at h2
    have h3 := retrieve_both (reads hk) hn (ag.now hk)
    unfold NameTab.retrieveKey at h3
    cases hx : retrieveKey m t s <;> cases hy : HashHeap.hretrieve NameTab.strOps t'.1 t'.2 s <;> rw [hx, hy] at h3 <;> simp only [ResRel, Res.bind] at h3 <;>
      rw [hy] at h2 <;> cases hf : Spec.find (· == ·) S.map s <;> rw [hf] at h2 <;> simp only [Res.bind, ResRel] at h2 ⊢
    · rename_i c c'
      refine ⟨?_, ⟨_, ⟨_, h3.2⟩, h2.2⟩, nul, hl⟩
      rw [← h2.1, ← h3.1]
      cases c'.2 <;> rfl
    · rename_i c c' d
      refine ⟨?_, ⟨_, ⟨_, h3.2⟩, h2.2⟩, nul, hl⟩
      rw [← h2.1, ← h3.1]
      cases c'.2 <;> rfl
  | readonly f =>
    simp only [HashOp.spelled, Option.some.injEq] at ho
    subst ho
    have h2 := HashHeap.heapStep_sim NameTab.strOps_lawful Heap.init t' _ (.readonly f) ps
    simp only [HashHeap.heapStep, Spec.hashStep, ResRel] at h2
    simp only [tabStep, Spec.hashStep, tabLoans, ResRel]
    obtain ⟨g, s1, e1⟩ := ag
    refine ⟨by rw [← h2.1, e1], ⟨(t'.1, { t'.2 with readonly := f }), ⟨g, s1, by rw [e1]⟩, h2.2⟩, nul, hl⟩

/-- C89, tables of strings (`hsh_create(NULL, NULL)`): a program hands strings to `hsh_insert` by address and may write to its memory between any two
calls, as long as every string it handed over stays as it is while it is in the table.  Then every history of calls returns what it returns on a map from
strings. -/
theorem C89_table (hist : List (Memory × HashOp Nat)) (hist' : List (HashOp (List Byte))) (strings : hist.map (fun x => x.2.spelled x.1) = hist'.map some)
    (kept : Honoured tabLoans [] hist) :
    (create.bind fun t => Spec.observe (Spec.run tabStep t hist)) = Spec.observe (Spec.run (Spec.hashStep (· == ·)) {} hist') := by
  obtain ⟨ht, h1, h2⟩ := HashHeap.heap_history NameTab.strOps_lawful Heap.init Heap.Ok.init0 []
  simp only [Spec.run, ResRel] at h2
  unfold create
  rw [h1]
  simp only [Res.bind]
  refine ResRel.observe (R := fun c b => ∃ B, Lent B c b) (run_loans (R := Lent) (P := fun _ => True) (fun B s a m o o' h hk ho _ => tabStep_lent h hk ho) hist hist' [] _ _ ?_ kept strings
    fun _ _ => trivial)
  exact ⟨⟨_, ⟨fun _ => [], Shadow.init, rfl⟩, h2.2⟩, by simp, rfl⟩

/-! ## flags.c and debug.c -/

/-- the module with pointers and the module with characters -/
structure Lock (B : Loans) (σ : State) (σ' : Flags.State) : Prop where
  hash : (σ.hash = none ∧ σ'.hash = none) ∨ ∃ t t', σ.hash = some t ∧ σ'.hash = some t' ∧ Agree B t t'
  set : σ'.setFlags = σ.setFlags
  used : σ'.usedFlags = σ.usedFlags

theorem Lock.init (B : Loans) : Lock B State.init Flags.State.init := ⟨Or.inl ⟨rfl, rfl⟩, rfl, rfl⟩

theorem Lock.orFlag {B : Loans} {σ : State} {σ' : Flags.State} (h : Lock B σ σ') (f : BitVec 64) : ResRel (Lock B) (orFlag σ f) (Flags.orFlag σ' f) := by
  unfold Borrowed.orFlag Flags.orFlag
  rw [h.set]
  cases Flags.index f with
  | ok i => exact ⟨h.hash, rfl, h.used⟩
  | _ => trivial

theorem Lock.clearFlag {B : Loans} {σ : State} {σ' : Flags.State} (h : Lock B σ σ') (f : BitVec 64) : ResRel (Lock B) (clearFlag σ f) (Flags.clearFlag σ' f) := by
  unfold Borrowed.clearFlag Flags.clearFlag
  rw [h.set]
  cases Flags.index f with
  | ok i => exact ⟨h.hash, rfl, h.used⟩
  | _ => trivial

theorem retrieve_ofStr (t' : NameTab.Table) {s : List Byte} (hs : (0 : Byte) ∉ s) : NameTab.retrieve t' (some (CStr.ofStr s)) = NameTab.retrieveKey t' s := by
  unfold NameTab.retrieve NameTab.argKey
  simp only
  rw [CStr.cstr_ofStr s hs]; rfl

theorem Lock.flgSet {B : Loans} {σ : State} {σ' : Flags.State} (h : Lock B σ σ') {m : Memory} (hk : B.Kept m) {p : Ptr} {s : List Byte}
    (hs : stringAt m p = some s) : ResRel (Lock B) (flgSet m σ p) (Flags.flgSet σ' (some (CStr.ofStr s))) := by
  have hn := stringAt_nul hs
  have hp : p ≠ 0 := by rintro rfl; simp [stringAt] at hs
  unfold Borrowed.flgSet Flags.flgSet
  rw [if_neg hp]
  rcases h.hash with ⟨h1, h2⟩ | ⟨t, t', h1, h2, ag⟩
  · rw [h1, h2]; trivial
  rw [h1, h2]
  simp only
  have e1 : Flags.isLit (CStr.ofStr s) [110, 111, 110, 101] = .ok (s == Spec.noneName) := Flags.isLit_eq hn
  have e2 : Flags.isLit (CStr.ofStr s) [97, 108, 108] = .ok (s == Spec.allName) := Flags.isLit_eq hn
  rw [text_iff.2 hs, e1, e2, retrieve_ofStr t' hn]
  simp only [Flags.okBind]
  by_cases c1 : s = Spec.noneName
  · have d1 : (s == Spec.noneName) = true := by simpa using c1
    rw [if_pos c1, if_pos d1]
    exact ⟨Or.inr ⟨t, t', rfl, rfl, ag⟩, rfl, h.used⟩
  have d1 : ¬ (s == Spec.noneName) = true := by simpa using c1
  rw [if_neg c1, if_neg d1]
  by_cases c2 : s = Spec.allName
  · have d2 : (s == Spec.allName) = true := by simpa using c2
    rw [if_pos c2, if_pos d2]
    exact ⟨Or.inr ⟨t, t', rfl, rfl, ag⟩, rfl, h.used⟩
  have d2 : ¬ (s == Spec.allName) = true := by simpa using c2
  rw [if_neg c2, if_neg d2]
  refine ResRel.bind (retrieve_both (reads hk) hn (ag.now hk)) ?_
  rintro a b ⟨e3, b3⟩
  rw [e3]
  have l3 : Lock B { σ with hash := some a.1 } { σ' with hash := some b.1 } := ⟨Or.inr ⟨_, _, rfl, rfl, _, b3⟩, h.set, h.used⟩
  by_cases c3 : a.2 = 0
  · rw [if_pos c3, if_pos c3]
    cases s with
    | nil => exact trivial
    | cons c rest =>
      have hr : (0 : Byte) ∉ rest := fun hc => hn (by simp [hc])
      have e4 : Flags.first (CStr.ofStr (c :: rest)) = .ok c := rfl
      have e5 : (CStr.ofStr (c :: rest)).drop 1 = CStr.ofStr rest := rfl
      rw [e4, e5]
      simp only [Flags.okBind]
      by_cases c4 : c ≠ 45 ∧ c ≠ 43
      · rw [if_pos c4, if_pos c4]; trivial
      rw [if_neg c4, if_neg c4, retrieve_ofStr b.1 hr]
      refine ResRel.bind (retrieve_both (reads hk) hr b3) ?_
      rintro x y ⟨e6, b6⟩
      rw [e6]
      have l6 : Lock B { σ with hash := some x.1 } { σ' with hash := some y.1 } := ⟨Or.inr ⟨_, _, rfl, rfl, _, b6⟩, h.set, h.used⟩
      by_cases c5 : x.2 = 0
      · rw [if_pos c5, if_pos c5]; trivial
      rw [if_neg c5, if_neg c5]
      by_cases c6 : c = 43
      · rw [if_pos c6, if_pos c6]; exact l6.orFlag _
      · rw [if_neg c6, if_neg c6]; exact l6.clearFlag _
  · rw [if_neg c3, if_neg c3]
    exact l3.orFlag _

theorem Lock.dbgSet {B : Loans} {σ : State} {σ' : Flags.State} (h : Lock B σ σ') {m : Memory} (hk : B.Kept m) {p : Ptr} {s : List Byte}
    (hs : stringAt m p = some s) : ResRel (Lock B) (dbgSet m σ p) (Flags.dbgSet σ' (some (CStr.ofStr s))) := by
  have hn := stringAt_nul hs
  have hp : p ≠ 0 := by rintro rfl; simp [stringAt] at hs
  unfold Borrowed.dbgSet Flags.dbgSet
  rw [if_neg hp]
  rcases h.hash with ⟨h1, h2⟩ | ⟨t, t', h1, h2, ag⟩
  · rw [h1, h2]; trivial
  rw [h1, h2]
  simp only
  have e1 : Flags.isLit (CStr.ofStr s) [110, 111, 110, 101] = .ok (s == Spec.noneName) := Flags.isLit_eq hn
  have e2 : Flags.isLit (CStr.ofStr s) [97, 108, 108] = .ok (s == Spec.allName) := Flags.isLit_eq hn
  rw [text_iff.2 hs, e1, e2, retrieve_ofStr t' hn]
  simp only [Flags.okBind]
  by_cases c1 : s = Spec.noneName
  · have d1 : (s == Spec.noneName) = true := by simpa using c1
    rw [if_pos c1, if_pos d1]
    exact ⟨Or.inr ⟨t, t', rfl, rfl, ag⟩, rfl, h.used⟩
  have d1 : ¬ (s == Spec.noneName) = true := by simpa using c1
  rw [if_neg c1, if_neg d1]
  by_cases c2 : s = Spec.allName
  · have d2 : (s == Spec.allName) = true := by simpa using c2
    rw [if_pos c2, if_pos d2]
    exact ⟨Or.inr ⟨t, t', rfl, rfl, ag⟩, rfl, h.used⟩
  have d2 : ¬ (s == Spec.allName) = true := by simpa using c2
  rw [if_neg c2, if_neg d2]
  refine ResRel.bind (retrieve_both (reads hk) hn (ag.now hk)) ?_
  rintro a b ⟨e3, b3⟩
  rw [e3]
  have l3 : Lock B { σ with hash := some a.1 } { σ' with hash := some b.1 } := ⟨Or.inr ⟨_, _, rfl, rfl, _, b3⟩, h.set, h.used⟩
  by_cases c3 : a.2 = 0
  · rw [if_pos c3, if_pos c3]
    cases s with
    | nil => exact trivial
    | cons c rest =>
      have hr : (0 : Byte) ∉ rest := fun hc => hn (by simp [hc])
      have e4 : Flags.first (CStr.ofStr (c :: rest)) = .ok c := rfl
      have e5 : (CStr.ofStr (c :: rest)).drop 1 = CStr.ofStr rest := rfl
      rw [e4, e5, retrieve_ofStr b.1 hr]
      refine ResRel.bind (retrieve_both (reads hk) hr b3) ?_
      rintro x y ⟨e6, b6⟩
      rw [e6]
      have l6 : Lock B { σ with hash := some x.1 } { σ' with hash := some y.1 } := ⟨Or.inr ⟨_, _, rfl, rfl, _, b6⟩, h.set, h.used⟩
      simp only [Flags.okBind]
      by_cases c5 : x.2 = 0 ∧ c ≠ 45 ∧ c ≠ 43
      · rw [if_pos c5, if_pos c5]; trivial
      rw [if_neg c5, if_neg c5]
      by_cases c6 : c = 43
      · rw [if_pos c6, if_pos c6]; exact l6.orFlag _
      · rw [if_neg c6, if_neg c6]; exact l6.clearFlag _
  · rw [if_neg c3, if_neg c3]
    exact l3.orFlag _

/-- registering the string at `p` in both; `S` gives the names known -/
theorem Lock.register {B : Loans} {σ : State} {σ' : Flags.State} (h : Lock B σ σ') {S : Switches} (sim : Flags.Sim σ' S)
    (hl : B.map Prod.snd = S.names.map Prod.fst) {m : Memory} (hk : B.Kept m) {p : Ptr} {s : List Byte} (hs : stringAt m p = some s) (f : BitVec 64) :
    ResRel (Lock (B.lend m p)) (register m σ f p) (Flags.flgRegister σ' f (some (CStr.ofStr s))) := by
  have hn := stringAt_nul hs
  obtain ⟨t', ht', hr⟩ := Flags.needHash_sim sim
  unfold Borrowed.register Flags.flgRegister
  simp only
  by_cases c1 : Flags.strip 64 (f &&& 0x3fffffff) = 0 ∨ Flags.strip 64 (f &&& 0x3fffffff) >>> 1 ≠ 0
  · rw [if_pos c1, if_pos c1]; trivial
  rw [if_neg c1, if_neg c1, ht']
  have hag : ∃ t, Borrowed.needHash σ = .ok t ∧ Agree B t t' := by
    unfold Borrowed.needHash
    unfold Flags.needHash at ht'
    rcases h.hash with ⟨h1, h2⟩ | ⟨t, t'', h1, h2, ag⟩
    · rw [h1]
      rw [h2] at ht'
      have h3 := create_both (P := fun p => (p, []) ∈ B) (g := fun _ => [])
      simp only at ht'
      rw [ht'] at h3
      cases hc : create <;> rw [hc] at h3 <;> simp only [ResRel] at h3
      exact ⟨_, rfl, _, h3⟩
    · rw [h1]
      rw [h2] at ht'
      simp only [Res.ok.injEq] at ht'
      exact ⟨t, rfl, ht' ▸ ag⟩
  obtain ⟨t, ht, ag⟩ := hag
  rw [ht]
  simp only [Res.bind]
  have e0 : Flags.flgExists σ' f = Flags.test f σ.usedFlags := by unfold Flags.flgExists; rw [h.used]
  rw [e0]
  by_cases c2 : Flags.test f σ.usedFlags ≠ 0
  · rw [if_pos c2, if_pos c2]; trivial
  rw [if_neg c2, if_neg c2]
  have e1 : NameTab.insert t' (some (CStr.ofStr s)) f.toNat = NameTab.insertKey t' s f.toNat := by
    unfold NameTab.insert NameTab.argKey
    simp only
    rw [CStr.cstr_ofStr s hn]; rfl
  rw [e1]
  refine ResRel.bind (ag.insert hk hs f.toNat ?_) ?_
  · intro t₁ h1
    obtain ⟨t₂, h2, -⟩ := hr.insert_key hn f.toNat
    rw [h2] at h1
    simp only [Res.ok.injEq, Prod.mk.injEq] at h1
    have := insert_zero h1.2
    rw [hl]
    simpa [Flags.raw] using this
  · rintro a b ⟨-, h2⟩
    exact ⟨Or.inr ⟨_, _, rfl, rfl, h2⟩, h.set, h.used⟩

theorem Lock.destroy {B : Loans} {σ : State} {σ' : Flags.State} (h : Lock B σ σ') {S : Switches} (sim : Flags.Sim σ' S) :
    destroyAll σ = .ok State.init := by
  have h1 := Flags.flgDestroy_sim sim
  unfold Flags.flgDestroy at h1
  unfold destroyAll
  rcases h.hash with ⟨h2, h3⟩ | ⟨t, t', h2, h3, g, ag⟩
  · rw [h2]; rfl
  · rw [h2]
    rw [h3] at h1
    simp only at h1 ⊢
    have h4 := destroy_both ag
    cases hx : Borrowed.destroy t <;> cases hy : NameTab.destroy t' <;> rw [hx, hy] at h4 <;> simp only [ResRel] at h4 <;> rw [hy] at h1 <;> simp [Res.bind] at h1 ⊢

/-- the module, the switches by name, and the loans -/
def LentFlags (B : Loans) (σ : State) (S : Switches) : Prop :=
  (∃ σ', Lock B σ σ' ∧ Flags.Sim σ' S) ∧ B.map Prod.snd = S.names.map Prod.fst

theorem nameAt_cases {m : Memory} {p : Nat} {n : Option (List Byte)} (h : Spec.nameAt m p = some n) :
    (p = 0 ∧ n = none) ∨ ∃ s, stringAt m p = some s ∧ n = some s := by
  unfold Spec.nameAt at h
  by_cases e : p = 0
  · rw [if_pos e] at h
    exact Or.inl ⟨e, by simpa using h.symm⟩
  · rw [if_neg e] at h
    simp only [Option.map_eq_some_iff] at h
    obtain ⟨s, h1, rfl⟩ := h
    exact Or.inr ⟨s, h1, rfl⟩

theorem flgSet_names {S S' : Switches} {s : List Byte} (h : S.flgSet s = .ok S') : S'.names = S.names := by
  unfold Switches.flgSet Switches.setSpecial at h
  split at h
  · cases h
  split at h
  · rename_i s' hs
    split at hs
    · cases hs; cases h; rfl
    split at hs
    · cases hs; cases h; rfl
    simp only [Option.map_eq_some_iff] at hs
    obtain ⟨f, -, rfl⟩ := hs
    cases h; rfl
  · split at h
    · cases h
    · split at h
      · cases h
      · split at h
        · cases h; rfl
        · split at h
          · cases h; rfl
          · cases h

theorem dbgSet_names {S S' : Switches} {s : List Byte} (h : S.dbgSet s = .ok S') : S'.names = S.names := by
  unfold Switches.dbgSet Switches.setSpecial at h
  split at h
  · cases h
  split at h
  · rename_i s' hs
    split at hs
    · cases hs; cases h; rfl
    split at hs
    · cases hs; cases h; rfl
    simp only [Option.map_eq_some_iff] at hs
    obtain ⟨f, -, rfl⟩ := hs
    cases h; rfl
  · split at h
    · cases h
    · split at h
      · split at h
        · cases h; rfl
        · cases h
      · split at h
        · cases h; rfl
        · cases h; rfl

theorem register_null {B : Loans} {σ : State} {σ' : Flags.State} (h : Lock B σ σ') {S : Switches} (sim : Flags.Sim σ' S) (m : Memory) (f : BitVec 64) :
    ResRel (fun _ _ => False) (register m σ f 0) (S.register f none) := by
  unfold Borrowed.register
  simp only [Switches.register]
  by_cases ho : Spec.OneLowBit f
  · rw [if_neg (fun e => (Flags.malformed_iff f).1 e ho), if_pos ho]
    obtain ⟨t', ht', hr⟩ := Flags.needHash_sim sim
    have : ∃ t, Borrowed.needHash σ = .ok t := by
      unfold Borrowed.needHash
      cases hh : σ.hash with
      | some t => exact ⟨t, rfl⟩
      | none =>
        obtain ⟨t, h1, -⟩ := NameTab.create_rep
        have h3 := create_both (P := fun _ => True) (g := fun _ => [])
        rw [h1] at h3
        cases hc : create <;> rw [hc] at h3 <;> simp only [ResRel] at h3
        exact ⟨_, rfl⟩
    obtain ⟨t, ht⟩ := this
    rw [ht]
    simp only [Res.bind]
    have hz : Flags.test f σ.usedFlags = 0 := by rw [← h.used]; exact Flags.test_used sim f
    rw [hz, if_neg (fun e => e rfl)]
    exact trivial
  · rw [if_pos ((Flags.malformed_iff f).2 ho), if_neg ho]; trivial

theorem ResRel.trans_lock {α β γ : Type} {R : α → β → Prop} {Q : β → γ → Prop} {x : Res α} {y : Res β} {z : Res γ} (h1 : ResRel R x y)
    (h2 : ResRel Q y z) : ResRel (fun a c => ∃ b, R a b ∧ Q b c) x z := by
  cases x <;> cases y <;> simp only [ResRel] at h1 <;> cases z <;> simp only [ResRel] at h2 ⊢
  exact ⟨_, h1, h2⟩

theorem register_lent {B : Loans} {σ : State} {S : Switches} (h : LentFlags B σ S) {m : Memory} (hk : B.Kept m) {p : Nat} {n : Option (List Byte)}
    (hn : Spec.nameAt m p = some n) (f : BitVec 64) (hf : f.toNat < 2 ^ 32) :
    ResRel (LentFlags (B.lend m p)) (register m σ f p) (S.register f n) := by
  obtain ⟨⟨σ', l, sim⟩, hl⟩ := h
  rcases nameAt_cases hn with ⟨rfl, rfl⟩ | ⟨s, hs, rfl⟩
  · have := register_null l sim m f
    cases hx : register m σ f 0 <;> cases hy : S.register f none <;> rw [hx, hy] at this <;> simp only [ResRel] at this ⊢
  · have h1 := l.register sim hl hk hs f
    have h2 := Flags.register_sim sim f (some s) hf (fun _ e => by cases e; exact stringAt_nul hs)
    have h3 := ResRel.trans_lock h1 h2
    cases hx : register m σ f p <;> cases hy : S.register f (some s) <;> rw [hx, hy] at h3 <;> simp only [ResRel] at h3 ⊢
    refine ⟨h3, ?_⟩
    simp only [Switches.register] at hy
    by_cases ho : Spec.OneLowBit f
    · rw [if_pos ho] at hy
      cases hy
      exact insert_loans hl hs f
    · rw [if_neg ho] at hy; cases hy

theorem flgStep_lent {B : Loans} {σ : State} {S : Switches} {m : Memory} {o : Spec.FlgCall} {o' : Spec.FlgOp} (h : LentFlags B σ S) (hk : B.Kept m)
    (ho : o.spelled m = some o') (hp : o'.Proper) :
    ResRel (fun c b => c.2 = b.2 ∧ LentFlags (Spec.flgLoans B m o) c.1 b.1) (flgStep σ (m, o)) (Spec.flgStep codeGroup S o') := by
  cases o with
  | register f p =>
    simp only [Spec.FlgCall.spelled, Option.map_eq_some_iff] at ho
    obtain ⟨n, hn, rfl⟩ := ho
    exact Flags.resRel_bindOk _ (register_lent h hk hn f hp.1)
  | set p =>
    simp only [Spec.FlgCall.spelled, Option.map_eq_some_iff] at ho
    obtain ⟨n, hn, rfl⟩ := ho
    rcases nameAt_cases hn with ⟨rfl, rfl⟩ | ⟨s, hs, rfl⟩
    · exact trivial
    · obtain ⟨⟨σ', l, sim⟩, hl⟩ := h
      refine Flags.resRel_bindOk _ ?_
      have h3 := ResRel.trans_lock (l.flgSet hk hs) (Flags.flgSet_sim sim s (stringAt_nul hs))
      cases hx : flgSet m σ p <;> cases hy : S.flgSet s <;> rw [hx, hy] at h3 <;> simp only [ResRel] at h3 ⊢
      exact ⟨h3, by rw [flgSet_names hy]; exact hl⟩
  | test f =>
    simp only [Spec.FlgCall.spelled, Option.some.injEq] at ho
    subst ho
    obtain ⟨⟨σ', l, sim⟩, hl⟩ := h
    refine ⟨?_, ⟨σ', l, sim⟩, hl⟩
    have := Flags.test_sim sim hp
    rw [l.set] at this
    exact this
  | destroy =>
    simp only [Spec.FlgCall.spelled, Option.some.injEq] at ho
    subst ho
    obtain ⟨⟨σ', l, sim⟩, hl⟩ := h
    simp only [flgStep, Spec.flgStep]
    rw [l.destroy sim]
    exact ⟨rfl, ⟨_, Lock.init _, Flags.Sim.init⟩, rfl⟩

theorem dbgStep_lent {B : Loans} {σ : State} {S : Switches} {m : Memory} {o : Spec.DbgCall} {o' : Spec.DbgOp} (h : LentFlags B σ S) (hk : B.Kept m)
    (ho : o.spelled m = some o') (hp : o'.Proper) :
    ResRel (fun c b => c.2 = b.2 ∧ LentFlags (Spec.dbgLoans B m o) c.1 b.1) (dbgStep σ (m, o)) (Spec.dbgStep codeGroup S o') := by
  cases o with
  | register f p =>
    simp only [Spec.DbgCall.spelled, Option.map_eq_some_iff] at ho
    obtain ⟨n, hn, rfl⟩ := ho
    simp only [dbgStep, Spec.dbgStep]
    by_cases hr : Spec.group f = 3
    · rw [if_pos ((Flags.reserved_iff hp.1).2 hr), if_pos hr]
      exact trivial
    · rw [if_neg (fun e => hr ((Flags.reserved_iff hp.1).1 e)), if_neg hr]
      exact Flags.resRel_bindOk _ (register_lent h hk hn f hp.1)
  | registerInternal f p =>
    simp only [Spec.DbgCall.spelled, Option.map_eq_some_iff] at ho
    obtain ⟨n, hn, rfl⟩ := ho
    exact Flags.resRel_bindOk _ (register_lent h hk hn f hp.1)
  | set p =>
    simp only [Spec.DbgCall.spelled, Option.map_eq_some_iff] at ho
    obtain ⟨n, hn, rfl⟩ := ho
    rcases nameAt_cases hn with ⟨rfl, rfl⟩ | ⟨s, hs, rfl⟩
    · exact trivial
    · obtain ⟨⟨σ', l, sim⟩, hl⟩ := h
      refine Flags.resRel_bindOk _ ?_
      have h3 := ResRel.trans_lock (l.dbgSet hk hs) (Flags.dbgSet_sim sim s (stringAt_nul hs))
      cases hx : dbgSet m σ p <;> cases hy : S.dbgSet s <;> rw [hx, hy] at h3 <;> simp only [ResRel] at h3 ⊢
      exact ⟨h3, by rw [dbgSet_names hy]; exact hl⟩
  | setFlag f =>
    simp only [Spec.DbgCall.spelled, Option.some.injEq] at ho
    subst ho
    obtain ⟨⟨σ', l, sim⟩, hl⟩ := h
    obtain ⟨σ₁, h1, h2⟩ := Flags.orFlag_sim sim hp
    have h3 := l.orFlag f
    rw [h1] at h3
    simp only [dbgStep, Spec.dbgStep]
    cases hx : orFlag σ f <;> rw [hx] at h3 <;> simp only [ResRel] at h3
    exact ⟨rfl, ⟨_, h3, h2⟩, hl⟩
  | unsetFlag f =>
    simp only [Spec.DbgCall.spelled, Option.some.injEq] at ho
    subst ho
    obtain ⟨⟨σ', l, sim⟩, hl⟩ := h
    obtain ⟨σ₁, h1, h2⟩ := Flags.clearFlag_sim sim hp
    have h3 := l.clearFlag f
    rw [h1] at h3
    simp only [dbgStep, Spec.dbgStep]
    cases hx : clearFlag σ f <;> rw [hx] at h3 <;> simp only [ResRel] at h3
    exact ⟨rfl, ⟨_, h3, h2⟩, hl⟩
  | test f =>
    simp only [Spec.DbgCall.spelled, Option.some.injEq] at ho
    subst ho
    obtain ⟨⟨σ', l, sim⟩, hl⟩ := h
    refine ⟨?_, ⟨σ', l, sim⟩, hl⟩
    have := Flags.test_sim sim hp
    rw [l.set] at this
    exact this
  | destroy =>
    simp only [Spec.DbgCall.spelled, Option.some.injEq] at ho
    subst ho
    obtain ⟨⟨σ', l, sim⟩, hl⟩ := h
    simp only [dbgStep, Spec.dbgStep]
    rw [l.destroy sim]
    exact ⟨rfl, ⟨_, Lock.init _, Flags.Sim.init⟩, rfl⟩

/-- C89, flags.c: names given to `flg_register` by address, in a program that may write to its memory between any two calls as long as every name it
registered stays as it is until `flg_destroy`.  Every history of calls (flag words of 32 bits, names are strings or NULL) returns what it returns with
the names given by contents, which C41 describes. -/
theorem C89_flags (hist : List (Memory × Spec.FlgCall)) (hist' : List Spec.FlgOp) (strings : hist.map (fun x => x.2.spelled x.1) = hist'.map some)
    (proper : ∀ o ∈ hist', o.Proper) (kept : Honoured Spec.flgLoans [] hist) :
    Spec.observe (Spec.run flgStep State.init hist) = Spec.observe (Spec.run (Spec.flgStep codeGroup) Switches.init hist') := by
  exact ResRel.observe (R := fun c b => ∃ B, LentFlags B c b)
    (run_loans (R := LentFlags) (P := Spec.FlgOp.Proper) (fun B s a m o o' h hk ho hp => flgStep_lent h hk ho hp) hist hist' [] _ _
      ⟨⟨_, Lock.init _, Flags.Sim.init⟩, rfl⟩ kept strings proper)

/-- C89, debug.c: likewise. -/
theorem C89_debug (hist : List (Memory × Spec.DbgCall)) (hist' : List Spec.DbgOp) (strings : hist.map (fun x => x.2.spelled x.1) = hist'.map some)
    (proper : ∀ o ∈ hist', o.Proper) (kept : Honoured Spec.dbgLoans [] hist) :
    Spec.observe (Spec.run dbgStep State.init hist) = Spec.observe (Spec.run (Spec.dbgStep codeGroup) Switches.init hist') := by
  exact ResRel.observe (R := fun c b => ∃ B, LentFlags B c b)
    (run_loans (R := LentFlags) (P := Spec.DbgOp.Proper) (fun B s a m o o' h hk ho hp => dbgStep_lent h hk ho hp) hist hist' [] _ _
      ⟨⟨_, Lock.init _, Flags.Sim.init⟩, rfl⟩ kept strings proper)

/-! ## What happens otherwise -/

/-- a new table of names -/
def emptyTab : HTab := { prime := 1, entries := 0, buckets := fun _ => 0, resizings := 0, retrievals := 0, hits := 0, misses := 0, readonly := 0 }

theorem create_eq : create = .ok (Heap.init, emptyTab) := by
  have h1 : Prime.prmNextPrime 0 = some 1 := by decide +kernel
  unfold create HashHeap.hcreate
  rw [h1]
  rfl

/-- a table with one name -/
def oneTab (p : Nat) (s : List Byte) (d : Nat) : Table := HashHeap.hpush Heap.init emptyTab { key := p, hash := CStr.strHashLoop 0 s, datum := d }

theorem insert_first {m : Memory} {p : Nat} {s : List Byte} (hs : stringAt m p = some s) (d : Nat) :
    insert m (Heap.init, emptyTab) p d = .ok (oneTab p s d, 0) := by
  unfold insert
  rw [text_iff.2 hs]
  rfl

theorem register_first {m : Memory} {f : BitVec 64} (ho : Spec.OneLowBit f) {p : Nat} {s : List Byte} (hs : stringAt m p = some s) :
    register m State.init f p = .ok { State.init with hash := some (oneTab p s f.toNat) } := by
  have hu : Flags.test f State.init.usedFlags = 0 := Flags.test_used Flags.Sim.init f
  have hn : needHash State.init = .ok (Heap.init, emptyTab) := create_eq
  unfold register
  simp only
  rw [if_neg (fun e => (Flags.malformed_iff f).1 e ho), hn, Flags.okBind, hu, if_neg (fun e => e rfl), insert_first hs]
  rfl

/-- looking a name up in a table with one name reads the memory where that name was -/
theorem retrieve_one (m : Memory) (p : Nat) (s k : List Byte) (d : Nat) :
    ∃ t' : Bool → Table, retrieveKey m (oneTab p s d) k = (text m p).bind fun s' => .ok (t' (CStr.strcmp s' k == 0), if CStr.strcmp s' k == 0 then d else 0) := by
  refine ⟨fun b => ((oneTab p s d).1, if b then { (oneTab p s d).2 with retrievals := 1, hits := 1 } else { (oneTab p s d).2 with retrievals := 1, misses := 1 }), ?_⟩
  unfold retrieveKey
  have e0 : (oneTab p s d).2.prime = 1 := rfl
  have e1 : ∀ x, x % (oneTab p s d).2.prime = 0 := fun x => by rw [e0]; exact Nat.mod_one x
  have e2 : (oneTab p s d).2.buckets 0 = 1 := by
    unfold oneTab HashHeap.hpush
    simp only [emptyTab, Nat.mod_one]
    rfl
  have e3 : (oneTab p s d).1.clock = 2 := rfl
  have e4 : (oneTab p s d).1.read 1 = .ok ({ key := p, hash := CStr.strHashLoop 0 s, datum := d }, 0) := rfl
  rw [if_neg (by rw [e0]; decide)]
  simp only
  rw [e1, e2, e3]
  simp only [findLoop, if_neg Nat.one_ne_zero, e4, Flags.okBind]
  cases text m p with
  | ok s' =>
    simp only [Flags.okBind]
    by_cases hc : (CStr.strcmp s' k == 0) = true
    · rw [if_pos hc]; simp only [hc, Flags.okBind]; rfl
    · rw [if_neg hc]
      simp only [Bool.not_eq_true] at hc
      simp only [hc]; rfl
  | _ => rfl

theorem strcmp_self_iff {a b : List Byte} (ha : (0 : Byte) ∉ a) (hb : (0 : Byte) ∉ b) : (CStr.strcmp a b == 0) = decide (a = b) := by
  rw [Bool.eq_iff_iff, beq_iff_eq, CStr.strcmp_zero ha hb, decide_eq_true_iff]

/-- C89, what the loan is needed for: the program registers one name and then changes the string at that address from `s` to `s'`.  Then `flg_set` of the
registered name ends the program, and `flg_set(s')` turns the flag on, although no flag of that name has been registered.  (The names are not the two
special ones and do not begin with '+' or '-'.) -/
theorem C89_changed_refuted (m m' : Memory) (f : BitVec 64) (ho : Spec.OneLowBit f) (hf : f.toNat < 2 ^ 32) (p q q' : Nat) (s s' : List Byte) (hne : s ≠ s')
    (plain : ∀ x ∈ [s, s'], x ≠ Spec.noneName ∧ x ≠ Spec.allName ∧ x.head? ≠ some Spec.plus ∧ x.head? ≠ some Spec.minus)
    (before : stringAt m p = some s) (after : stringAt m' p = some s') (hq : stringAt m' q = some s) (hq' : stringAt m' q' = some s') :
    Spec.observe (Spec.run flgStep State.init [(m, .register f p), (m', .set q)]) = .fatal ∧
    (Spec.group f ≠ 2 → Spec.observe (Spec.run flgStep State.init [(m, .register f p), (m', .test f), (m', .set q'), (m', .test f)]) =
      .ok [false, false, false, true]) := by
  have ns := stringAt_nul before
  have ns' := stringAt_nul after
  obtain ⟨p1, p2, p3, p4⟩ := plain s (by simp)
  obtain ⟨p1', p2', -, -⟩ := plain s' (by simp)
  have hq0 : q ≠ 0 := by rintro rfl; simp [stringAt] at hq
  have hq0' : q' ≠ 0 := by rintro rfl; simp [stringAt] at hq'
  constructor
  · obtain ⟨t', h1⟩ := retrieve_one m' p s s f.toNat
    simp only [Spec.run, flgStep, register_first ho before, Flags.okBind]
    unfold flgSet
    rw [if_neg hq0]
    simp only
    rw [text_iff.2 hq, Flags.okBind, if_neg p1, if_neg p2, h1, text_iff.2 after, Flags.okBind, strcmp_self_iff ns' ns,
      decide_eq_false (Ne.symm hne), if_neg (by decide), Flags.okBind]
    simp only [if_true]
    cases s with
    | nil => rfl
    | cons c rest =>
      simp only [List.head?_cons, ne_eq, Option.some.injEq] at p3 p4
      simp only
      rw [if_pos ⟨p4, p3⟩]
      rfl
  · intro hg
    obtain ⟨t', h1⟩ := retrieve_one m' p s s' f.toNat
    have hfz : f.toNat ≠ 0 := fun e => Flags.OneLowBit.ne_zero ho (BitVec.eq_of_toNat_eq (by rw [e]; rfl))
    let σ₁ : State := { State.init with hash := some (t' true) }
    have hset : flgSet m' { State.init with hash := some (oneTab p s f.toNat) } q' = orFlag σ₁ f := by
      unfold flgSet
      rw [if_neg hq0']
      simp only
      rw [text_iff.2 hq', Flags.okBind, if_neg p1', if_neg p2', h1, text_iff.2 after, Flags.okBind, strcmp_self_iff ns' ns', decide_eq_true rfl,
        if_pos rfl, Flags.okBind]
      rw [if_neg hfz, Flags.ofNat_toNat']
    obtain ⟨σ', e1, sim⟩ := Flags.orFlag_sim Flags.Sim.init hf
    have e2 : orFlag σ₁ f = .ok { σ₁ with setFlags := σ'.setFlags } := by
      unfold Flags.orFlag at e1
      unfold orFlag
      rw [Flags.index_eq hf] at e1 ⊢
      simp only [Flags.okBind, Res.ok.injEq] at e1 ⊢
      rw [← e1]
      rfl
    have t0 : (Flags.test f (fun _ => 0 : Nat → BitVec 64) != 0) = false := by
      refine (Flags.test_sim Flags.Sim.init hf).trans ?_
      rw [Bool.eq_false_iff]
      intro hon
      obtain ⟨b, -, -, hb⟩ := (Flags.isOn_iff _ _ _).1 hon
      simp [Switches.init] at hb
    have t1 : (Flags.test f σ'.setFlags != 0) = true := by
      rw [Flags.test_sim sim hf, codeGroup, if_neg hg]
      exact (Flags.C41_spec_switches Switches.init f f ho ho true).1
    simp only [Spec.run, flgStep, register_first ho before, Flags.okBind, hset, e2, Spec.observe, t1]
    show Res.ok [false, Flags.test f (fun _ => 0 : Nat → BitVec 64) != 0, false, true] = _
    rw [t0]

/-- memories for the examples: strings at some addresses -/
def memOf (l : List (Nat × List Byte)) : Memory := fun p => (l.find? fun x => x.1 == p).map fun x => CStr.ofStr x.2

/-- C89: a program that registers two names from one buffer ("a", then "b" in the same place) loses the first name, and of the two flags the second name
turns the second one on; with two buffers both names work. -/
theorem C89_one_buffer_refuted :
    Spec.observe (Spec.run flgStep State.init [(memOf [(100, [97])], .register 1 100), (memOf [(100, [98])], .register 2 100),
      (memOf [(100, [98]), (200, [98])], .set 200), (memOf [(100, [98])], .test 1), (memOf [(100, [98])], .test 2)]) = .ok [false, false, false, false, true] ∧
    Spec.observe (Spec.run flgStep State.init [(memOf [(100, [97])], .register 1 100), (memOf [(100, [98])], .register 2 100),
      (memOf [(100, [98]), (200, [97])], .set 200)]) = .fatal ∧
    Spec.observe (Spec.run flgStep State.init [(memOf [(100, [97])], .register 1 100), (memOf [(100, [97]), (101, [98])], .register 2 101),
      (memOf [(100, [97]), (101, [98]), (200, [97])], .set 200), (memOf [], .test 1), (memOf [], .test 2)]) = .ok [false, false, false, true, false] := by
  decide +kernel

/-- Non-vacuity for `C89_flags` and `C89_table`: two names in two buffers, looked up through a third buffer that is reused; the loans are kept. -/
example : let h : List (Memory × Spec.FlgCall) := [(memOf [(100, [97])], .register 1 100), (memOf [(100, [97]), (101, [98])], .register 2 101),
      (memOf [(100, [97]), (101, [98]), (200, [97])], .set 200), (memOf [(100, [97]), (101, [98]), (200, [45, 98])], .set 200), (memOf [(100, [97]), (101, [98])], .test 1),
      (memOf [(100, [97]), (101, [98])], .destroy), (memOf [(100, [120])], .test 1)]
    h.map (fun x => (x.2.spelled x.1).isSome) = [true, true, true, true, true, true, true] ∧ Honoured Spec.flgLoans [] h ∧
    Spec.observe (Spec.run flgStep State.init h) = .ok [false, false, false, false, true, false, false] := by
  refine ⟨by decide +kernel, ?_, by decide +kernel⟩
  simp only [Honoured, Spec.flgLoans, Loans.Kept]
  decide +kernel

example : let h : List (Memory × HashOp Nat) := [(memOf [(100, [97])], .insert 100 7), (memOf [(100, [97]), (101, [97])], .insert 101 8),
      (memOf [(100, [97]), (200, [97])], .delete 200), (memOf [(100, [98])], .insert 100 9), (memOf [(100, [98]), (5, [97])], .retrieve 5), (memOf [(100, [98]), (5, [98])], .retrieve 5)]
    h.map (fun x => (x.2.spelled x.1).isSome) = [true, true, true, true, true, true] ∧ Honoured tabLoans [] h ∧
    (create.bind fun t => Spec.observe (Spec.run tabStep t h)) = .ok [.int 0, .int 1, .int 0, .int 0, .ptr 0, .ptr 9] := by
  refine ⟨by decide +kernel, ?_, by decide +kernel⟩
  simp only [Honoured, tabLoans, Loans.Kept]
  decide +kernel

/-- C89: the program registers one name and then releases the string.  Any `flg_set` except of the two special names reads released memory. -/
theorem C89_released_refuted (m m' : Memory) (f : BitVec 64) (ho : Spec.OneLowBit f) (p q : Nat) (s s' : List Byte)
    (before : stringAt m p = some s) (after : m' p = none) (hq : stringAt m' q = some s') (hn : s' ≠ Spec.noneName) (ha : s' ≠ Spec.allName) :
    Spec.observe (Spec.run flgStep State.init [(m, .register f p), (m', .set q)]) = .ub := by
  have hp : p ≠ 0 := by rintro rfl; simp [stringAt] at before
  have hq0 : q ≠ 0 := by rintro rfl; simp [stringAt] at hq
  have ht : text m' p = .ub := by unfold text; rw [if_neg hp, after]
  obtain ⟨t', h1⟩ := retrieve_one m' p s s' f.toNat
  simp only [Spec.run, flgStep, register_first ho before, Flags.okBind]
  unfold flgSet
  rw [if_neg hq0]
  simp only
  rw [text_iff.2 hq, Flags.okBind, if_neg hn, if_neg ha, h1, ht]
  rfl

end Maa.Borrowed
