import Verif.Spec.Handles
import Verif.Spec.Run
import Verif.Props.Counters

/-! # C79: the library checks the handles it is given

maa/maa.h:36-45: the magic number of a structure "will be checked for integrity at each access".  A null handle, and a handle of
another kind, are to end the program with an internal error rather than corrupt memory. -/

namespace Maa.Handles

open Maa.Spec

/-- The functions that look into the structure before they check it. -/
def looksFirst : List Fn :=
  [.hsh_insert, .hsh_delete, .hsh_retrieve, .set_insert, .set_delete, .set_member, .mem_get_object, .mem_get_empty_object]

/-- An allocator returns null or the address of memory that is not in use. -/
def Allocator (place : World → Ptr) : Prop := ∀ w, place w ≠ 0 → w.at? (place w) = none

/-- The magic numbers tell the kinds of structures apart, and a destroyed skip list from all of them. -/
theorem C79_magic (k k' : Kind) : (magic k = magic k' ↔ k = k') ∧ firstWord .slFreed ≠ magic k := by
  cases k <;> cases k' <;> decide

/-- **C79, a null handle** is an internal error, except in the functions that look before they check, `lst_append`, `sl_iterate` and
`sl_iterate_arg`, which return, and `lst_push` before the first list was created. -/
theorem C79_null_partial (w : World) (f : Fn) (h : f ∉ looksFirst) (hl : f ≠ .lst_push) :
    enter w 0 f = if f ∈ [Fn.lst_append, .sl_iterate, .sl_iterate_arg] then .ok .returned else .abort := by
  cases f <;> first
    | rfl
    | exact absurd (by decide) h
    | exact absurd rfl hl

theorem C79_null_push (w : World) (h : w.at? w.lstMem = some (.live .objects)) : enter w 0 .lst_push = .abort := by
  by_cases h0 : w.lstMem = 0
  · rw [h0] at h; simp [enter, memGetObject, popStack, h, check, h0, Res.bind]
  · simp [enter, memGetObject, popStack, h, check, h0, firstWord, Res.bind]

/-- Not so in the functions that look first: a null handle is undefined behaviour there.  So it is in `lst_push` if no list was
ever created. -/
theorem C79_null_refuted (w : World) (h : w.at? 0 = none) :
    (∀ f ∈ looksFirst, enter w 0 f = .ub) ∧ (w.lstMem = 0 → enter w 0 .lst_push = .ub) := by
  constructor
  · intro f hf
    simp only [looksFirst, List.mem_cons, List.not_mem_nil, or_false] at hf
    rcases hf with rfl | rfl | rfl | rfl | rfl | rfl | rfl | rfl <;>
      simp [enter, callHash, memGetObject, popStack, h, Res.bind]
  · intro hl; simp [enter, memGetObject, popStack, hl, h, Res.bind]

/-- **C79, a handle of another kind**, or of a destroyed skip list, or any other address that may be read and does not hold the
magic number by accident, is an internal error. -/
theorem C79_wrong_kind_partial (w : World) (p : Ptr) (s : Struct) (f : Fn) (hp : p ≠ 0) (hs : w.at? p = some s)
    (hm : firstWord s ≠ magic f.kind) (h : f ∉ looksFirst) (hl : f ∈ [Fn.lst_append, .lst_push] → w.at? w.lstMem = some (.live .objects)) :
    enter w p f = .abort := by
  have hc : check w f.kind p = .abort := by simp [check, hp, hs, hm]
  have hg : w.at? w.lstMem = some (.live .objects) → ∀ x : Entry → Res Entry, (∀ e, x e = .abort) →
      (memGetObject w w.lstMem).bind x = .abort := by
    intro e x hx
    by_cases h0 : w.lstMem = 0
    · rw [h0] at e; simp [memGetObject, popStack, e, check, h0, Res.bind]
    · simp [memGetObject, popStack, e, check, h0, firstWord, Res.bind, magic, hx]
  cases f
  case lst_append => simp only [enter, if_neg hp]; exact hg (hl (by decide)) _ (fun _ => hc)
  case lst_push => simp only [enter]; exact hg (hl (by decide)) _ (fun _ => hc)
  all_goals first
    | exact hc
    | exact absurd (by decide) h
    | (simp only [enter, if_neg hp]; exact hc)
    | (simp only [Fn.kind] at hc; simp only [enter, hc]; rfl)

/-- The functions on hash tables and sets that look first still tell the one from the other … -/
theorem C79_table_or_set (w : World) (p : Ptr) (hp : p ≠ 0) :
    (w.at? p = some (.live .set) → ∀ f ∈ [Fn.hsh_insert, .hsh_delete, .hsh_retrieve], enter w p f = .abort) ∧
    (w.at? p = some (.live .table) → ∀ f ∈ [Fn.set_insert, .set_delete, .set_member], enter w p f = .abort) := by
  constructor <;> intro h f hf <;> simp only [List.mem_cons, List.not_mem_nil, or_false] at hf <;>
    rcases hf with rfl | rfl | rfl <;> simp [enter, callHash, check, h, hp, firstWord, magic, Res.bind]

/-- … but all other handles of a wrong kind are undefined behaviour in the functions that look first. -/
theorem C79_wrong_kind_refuted (w : World) (p : Ptr) (k : Kind) (hs : w.at? p = some (.live k)) :
    (k ≠ .table → k ≠ .set → ∀ f ∈ [Fn.hsh_insert, .hsh_delete, .hsh_retrieve, .set_insert, .set_delete, .set_member], enter w p f = .ub) ∧
    (k ≠ .objects → ∀ f ∈ [Fn.mem_get_object, .mem_get_empty_object], enter w p f = .ub) := by
  constructor
  · intro h1 h2 f hf
    have : callHash w p = .ub := by rw [callHash, hs]; cases k <;> first | rfl | exact absurd rfl h1 | exact absurd rfl h2
    simp only [List.mem_cons, List.not_mem_nil, or_false] at hf
    rcases hf with rfl | rfl | rfl | rfl | rfl | rfl <;> simp [enter, this, Res.bind]
  · intro h1 f hf
    have : popStack w p = .ub := by rw [popStack, hs]; cases k <;> first | rfl | exact absurd rfl h1
    simp only [List.mem_cons, List.not_mem_nil, or_false] at hf
    rcases hf with rfl | rfl <;> simp [enter, memGetObject, this, Res.bind]

/-- The six functions on two sets check both, whichever is wrong. -/
theorem C79_two_sets (w : World) (p q : Ptr) (f : Fn2) :
    (p = 0 ∨ (∃ s, w.at? p = some s ∧ firstWord s ≠ magic .set) → enter2 w p q f = .abort) ∧
    (p ≠ 0 → w.at? p = some (.live .set) → q = 0 ∨ (∃ s, w.at? q = some s ∧ firstWord s ≠ magic .set) → enter2 w p q f = .abort) ∧
    (p ≠ 0 → q ≠ 0 → w.at? p = some (.live .set) → w.at? q = some (.live .set) → enter2 w p q f = .ok .inside) := by
  refine ⟨?_, ?_, ?_⟩
  · rintro (rfl | ⟨s, hs, hm⟩)
    · cases f <;> rfl
    · have : check w .set p = .abort := by by_cases h0 : p = 0 <;> simp [check, h0, hs, hm]
      cases f <;> simp [enter2, this, Res.bind]
  · intro hp hs hq
    have h1 : check w .set p = .ok .inside := by simp [check, hp, hs, firstWord]
    have h2 : check w .set q = .abort := by
      rcases hq with rfl | ⟨s, hs, hm⟩
      · rfl
      · by_cases h0 : q = 0 <;> simp [check, h0, hs, hm]
    cases f <;> simp [enter2, h1, h2, Res.bind]
  · intro hp hq hs ht
    have h1 : check w .set p = .ok .inside := by simp [check, hp, hs, firstWord]
    have h2 : check w .set q = .ok .inside := by simp [check, hq, ht, firstWord]
    cases f <;> simp [enter2, h1, h2, Res.bind]

/-- The checks are no help against a handle whose memory was freed: it is undefined behaviour to look. -/
theorem C79_freed (w : World) (p : Ptr) (f : Fn) (hp : p ≠ 0) (hs : w.at? p = none) (hl : w.at? w.lstMem = some (.live .objects))
    (h0 : w.lstMem ≠ 0) : enter w p f = .ub := by
  have hc : ∀ k, check w k p = .ub := by intro k; simp [check, hp, hs]
  cases f <;> simp [enter, hc, hp, callHash, memGetObject, popStack, hs, hl, check, h0, firstWord, magic, Res.bind]

/-- A good handle passes the checks. -/
theorem C79_right_kind (w : World) (p : Ptr) (f : Fn) (hp : p ≠ 0) (hs : w.at? p = some (.live f.kind))
    (hl : f.kind = .list → w.lstMem ≠ 0 ∧ w.at? w.lstMem = some (.live .objects)) : enter w p f = .ok .inside := by
  have hc : check w f.kind p = .ok .inside := by simp [check, hp, hs, firstWord]
  cases f
  case lst_append => obtain ⟨h0, h1⟩ := hl rfl; simp only [Fn.kind] at hc; simp [enter, hp, hc, memGetObject, popStack, h1, check, h0, firstWord, magic, Res.bind, hs, Fn.kind]
  case lst_push => obtain ⟨h0, h1⟩ := hl rfl; simp [enter, memGetObject, popStack, h1, check, hp, h0, firstWord, magic, Res.bind, hs, Fn.kind]
  all_goals simp only [Fn.kind] at hc hs
  all_goals first
    | exact hc
    | simp [enter, hc, hp, callHash, memGetObject, popStack, hs, Res.bind]

/-! ## Histories -/

/-- What holds along every history, for the accounts `K` of good handles and `B` of destroyed skip lists. -/
structure Inv (w : World) (K : Ptr → Option Kind) (B : Ptr → Bool) : Prop where
  good : ∀ p k, K p = some k → w.at? p = some (.live k) ∧ p ≠ w.lstMem ∧ p ≠ w.slMem
  stale : ∀ p, B p = true → w.at? p = some .slFreed
  null : w.at? 0 = none
  lst : w.lstMem ≠ 0 → w.at? w.lstMem = some (.live .objects)
  sl : w.slMem ≠ 0 → w.at? w.slMem = some (.live .objects)
  made : ∀ p, w.at? p = some (.live .list) → w.lstMem ≠ 0
  free : ∀ p ∈ w.slFree, w.at? p = some .slFreed
  nodup : w.slFree.Nodup

def kindStep (p : Ptr) (k : Option Kind) (e : Ev × Ret) : Option Kind :=
  match e with
  | (.create k', .handle q) => if q = p then some k' else k
  | (.call f q, .entered) => if q = p ∧ destroys f then none else k
  | _ => k

def staleStep (p : Ptr) (b : Bool) (e : Ev × Ret) : Bool :=
  match e with
  | (.create _, .handle q) => if q = p then false else b
  | (.call .sl_destroy q, .entered) => if q = p then true else b
  | _ => b

theorem set_at (w : World) (p q : Ptr) (s : Option Struct) : (w.set p s).at? q = if q = p then s else w.at? q := rfl

/-- A new structure at a free address disturbs nothing. -/
theorem Inv.new {w : World} {K B} (h : Inv w K B) (p : Ptr) (s : Struct) (hp : p ≠ 0) (hf : w.at? p = none) (hs : s = .live .list → w.lstMem ≠ 0) :
    Inv (w.set p (some s)) K B := by
  have ne : ∀ {q t}, w.at? q = some t → q ≠ p := by rintro q t e rfl; rw [hf] at e; cases e
  refine ⟨?_, ?_, ?_, ?_, ?_, ?_, ?_, h.nodup⟩
  · intro q k e
    have := h.good q k e
    exact ⟨by rw [set_at, if_neg (ne this.1)]; exact this.1, this.2⟩
  · intro q e; rw [set_at, if_neg (ne (h.stale q e))]; exact h.stale q e
  · rw [set_at, if_neg (Ne.symm hp)]; exact h.null
  · intro e; have := h.lst e; show (w.set p _).at? w.lstMem = _; rw [set_at, if_neg (ne this)]; exact this
  · intro e; have := h.sl e; show (w.set p _).at? w.slMem = _; rw [set_at, if_neg (ne this)]; exact this
  · intro q e
    rw [set_at] at e
    by_cases hq : q = p
    · rw [if_pos hq] at e; exact hs (by simpa using e)
    · rw [if_neg hq] at e; exact h.made q e
  · intro q hq; have := h.free q hq; rw [set_at, if_neg (ne this)]; exact this

/-- The account changes with a new handle. -/
theorem Inv.give {w : World} {K B} (h : Inv w K B) (p : Ptr) (k : Kind) (hs : w.at? p = some (.live k)) (h1 : p ≠ w.lstMem) (h2 : p ≠ w.slMem) :
    Inv w (fun q => if p = q then some k else K q) (fun q => if p = q then false else B q) := by
  refine ⟨?_, ?_, h.null, h.lst, h.sl, h.made, h.free, h.nodup⟩
  · intro q k' e
    by_cases hq : p = q
    · rw [if_pos hq, Option.some.injEq] at e
      subst hq; subst e
      exact ⟨hs, h1, h2⟩
    · rw [if_neg hq] at e; exact h.good q k' e
  · intro q e
    by_cases hq : p = q
    · rw [if_pos hq] at e; cases e
    · rw [if_neg hq] at e; exact h.stale q e

theorem newStruct_ok {place : World → Ptr} (ha : Allocator place) {w : World} {s : Struct} {r : World × Ptr} (h : newStruct place w s = .ok r) :
    r.2 ≠ 0 ∧ w.at? r.2 = none ∧ r.1 = w.set r.2 (some s) := by
  rw [newStruct] at h
  by_cases h0 : place w = 0
  · rw [if_pos h0] at h; cases h
  · rw [if_neg h0, Res.ok.injEq] at h
    subst h
    exact ⟨h0, ha w h0, rfl⟩

/-- A structure of a kind that needs no more than itself. -/
theorem Inv.simple {place : World → Ptr} (ha : Allocator place) {w : World} {K B} (h : Inv w K B) {k : Kind} (hk : k ≠ .list) {r : World × Ptr}
    (e : newStruct place w (.live k) = .ok r) :
    Inv r.1 (fun q => if r.2 = q then some k else K q) (fun q => if r.2 = q then false else B q) := by
  obtain ⟨h0, hf, hr⟩ := newStruct_ok ha e
  have hi := h.new r.2 (.live k) h0 hf (fun e => absurd (by simpa using e) hk)
  rw [← hr] at hi
  refine hi.give r.2 k (by rw [hr, set_at, if_pos rfl]) ?_ ?_
  · intro e'
    have : w.lstMem = r.2 := by rw [e', hr]; rfl
    have hz : w.lstMem ≠ 0 := by rw [this]; exact h0
    have := h.lst hz; rw [‹w.lstMem = r.2›, hf] at this; cases this
  · intro e'
    have : w.slMem = r.2 := by rw [e', hr]; rfl
    have hz : w.slMem ≠ 0 := by rw [this]; exact h0
    have := h.sl hz; rw [‹w.slMem = r.2›, hf] at this; cases this

theorem Inv.create {place : World → Ptr} (ha : Allocator place) {w : World} {K B} (h : Inv w K B) {k : Kind} {r : World × Ptr}
    (e : create place w k = .ok r) :
    Inv r.1 (fun q => if r.2 = q then some k else K q) (fun q => if r.2 = q then false else B q) := by
  by_cases hl : k = .list
  · subst hl
    simp only [Handles.create, Res.bind_ok_iff] at e
    obtain ⟨a, e1, e2⟩ := e
    obtain ⟨h0, hf, hr⟩ := newStruct_ok ha e1
    have hlm : a.1.lstMem = w.lstMem := by rw [hr]; rfl
    have hsm : a.1.slMem = w.slMem := by rw [hr]; rfl
    by_cases hz : a.1.lstMem = 0
    · rw [if_pos hz] at e2
      simp only [Res.bind_ok_iff, Res.ok.injEq] at e2
      obtain ⟨m, e3, e4⟩ := e2
      obtain ⟨m0, mf, mr⟩ := newStruct_ok ha e3
      have hma : m.2 ≠ a.2 := by
        intro e; rw [e, hr, set_at, if_pos rfl] at mf; cases mf
      have mw : w.at? m.2 = none := by rw [hr, set_at, if_neg hma] at mf; exact mf
      -- as if the object memory had been made first
      have i1 : Inv { w.set m.2 (some (.live .objects)) with lstMem := m.2 } K B := by
        have i := h.new m.2 (.live .objects) m0 mw (fun e => by cases e)
        refine ⟨?_, i.stale, i.null, fun _ => by show (w.set _ _).at? m.2 = _; rw [set_at, if_pos rfl], i.sl, fun _ _ => m0, i.free, i.nodup⟩
        intro p k e
        refine ⟨(i.good p k e).1, ?_, (i.good p k e).2.2⟩
        rintro rfl
        have := (h.good _ k e).1
        rw [mw] at this; cases this
      have i2 := i1.new a.2 (.live .list) h0 (by show (w.set _ _).at? a.2 = none; rw [set_at, if_neg hma.symm]; exact hf) (fun _ => m0)
      have hw : r.1 = (World.set { w.set m.2 (some (.live .objects)) with lstMem := m.2 } a.2 (some (.live .list))) := by
        rw [← e4, mr, hr]
        simp only [World.set]
        congr 1
        funext q
        by_cases q1 : q = m.2
        · by_cases q2 : q = a.2
          · exact absurd (q1.symm.trans q2) hma
          · simp [q1, hma]
        · simp [q1]
      have hr2 : r.2 = a.2 := by rw [← e4]
      rw [hw, hr2]
      refine i2.give a.2 .list (by rw [set_at, if_pos rfl]) hma.symm ?_
      intro e'
      have : w.slMem = a.2 := e'.symm
      have hz : w.slMem ≠ 0 := by rw [this]; exact h0
      have := h.sl hz; rw [‹w.slMem = a.2›, hf] at this; cases this
    · rw [if_neg hz, Res.ok.injEq] at e2
      subst e2
      have hi := h.new a.2 (.live .list) h0 hf (fun _ => by rw [← hlm]; exact hz)
      rw [← hr] at hi
      refine hi.give a.2 .list (by rw [hr, set_at, if_pos rfl]) ?_ ?_
      · intro e'
        have := h.lst (by rw [← hlm]; exact hz); rw [← hlm, ← e', hf] at this; cases this
      · intro e'
        rw [hsm] at e'
        have := h.sl (by rw [← e']; exact h0); rw [← e', hf] at this; cases this
  · by_cases hs : k = .sl
    · subst hs
      simp only [Handles.create, Res.bind_ok_iff] at e
      obtain ⟨v, e1, e2⟩ := e
      have hv : Inv v K B := by
        by_cases hz : w.slMem = 0
        · rw [if_pos hz] at e1
          simp only [Res.bind_ok_iff, Res.ok.injEq] at e1
          obtain ⟨m, e3, e4⟩ := e1
          obtain ⟨m0, mf, mr⟩ := newStruct_ok ha e3
          have i := h.new m.2 (.live .objects) m0 mf (fun e => by cases e)
          rw [← mr] at i
          rw [← e4]
          refine ⟨?_, i.stale, i.null, i.lst, fun _ => by show m.1.at? m.2 = _; rw [mr, set_at, if_pos rfl], i.made, i.free, i.nodup⟩
          intro p k e
          refine ⟨(i.good p k e).1, (i.good p k e).2.1, ?_⟩
          rintro rfl
          have := (h.good _ k e).1
          rw [mf] at this; cases this
        · rw [if_neg hz, Res.ok.injEq] at e1; rw [← e1]; exact h
      cases hfr : v.slFree with
      | nil => rw [hfr] at e2; exact hv.simple ha (by decide) e2
      | cons p ps =>
        rw [hfr] at e2
        simp only [Res.ok.injEq] at e2
        have hp : v.at? p = some .slFreed := hv.free p (by rw [hfr]; simp)
        have p0 : p ≠ 0 := by rintro rfl; rw [hv.null] at hp; cases hp
        have nd := hv.nodup
        rw [hfr, List.nodup_cons] at nd
        have hne : ∀ q k, v.at? q = some (.live k) → q ≠ p := by rintro q k e rfl; rw [hp] at e; cases e
        rw [← e2]
        refine ⟨?_, ?_, ?_, ?_, ?_, ?_, ?_, nd.2⟩
        · intro q k e
          simp only at e
          by_cases hq : p = q
          · rw [if_pos hq, Option.some.injEq] at e
            subst e; subst hq
            refine ⟨by show (v.set _ _).at? p = _; rw [set_at, if_pos rfl], ?_, ?_⟩
            · show p ≠ v.lstMem
              intro e; have := hv.lst (by rw [← e]; exact p0); rw [← e, hp] at this; cases this
            · show p ≠ v.slMem
              intro e; have := hv.sl (by rw [← e]; exact p0); rw [← e, hp] at this; cases this
          · rw [if_neg hq] at e
            have := hv.good q k e
            exact ⟨by show (v.set _ _).at? q = _; rw [set_at, if_neg (Ne.symm hq)]; exact this.1, this.2⟩
        · intro q e
          simp only at e
          by_cases hq : p = q
          · rw [if_pos hq] at e; cases e
          · rw [if_neg hq] at e
            show (v.set _ _).at? q = _; rw [set_at, if_neg (Ne.symm hq)]; exact hv.stale q e
        · show (v.set _ _).at? 0 = _; rw [set_at, if_neg (Ne.symm p0)]; exact hv.null
        · intro e; have := hv.lst e; show (v.set _ _).at? v.lstMem = _; rw [set_at, if_neg (hne _ _ this)]; exact this
        · intro e; have := hv.sl e; show (v.set _ _).at? v.slMem = _; rw [set_at, if_neg (hne _ _ this)]; exact this
        · intro q e
          have e : (v.set p _).at? q = _ := e
          rw [set_at] at e
          by_cases hq : q = p
          · rw [if_pos hq] at e; cases e
          · rw [if_neg hq] at e; exact hv.made q e
        · intro q hq
          show (v.set _ _).at? q = _
          rw [set_at, if_neg (by rintro rfl; exact nd.1 hq)]
          exact hv.free q (by rw [hfr]; exact List.mem_cons_of_mem _ hq)
    · refine h.simple ha hl (k := k) ?_
      rw [← e]
      cases k <;> first | rfl | exact absurd rfl hl | exact absurd rfl hs

/-- A structure that is not one of the library's own goes, or becomes a destroyed skip list. -/
theorem Inv.destroy {w : World} {K B} (h : Inv w K B) {p : Ptr} {k : Kind} (hs : w.at? p = some (.live k)) (h1 : p ≠ w.lstMem) (h2 : p ≠ w.slMem) :
    Inv (w.set p none) (fun q => if p = q then none else K q) B ∧
    Inv { w.set p (some .slFreed) with slFree := p :: w.slFree } (fun q => if p = q then none else K q) (fun q => if p = q then true else B q) := by
  have p0 : p ≠ 0 := by rintro rfl; rw [h.null] at hs; cases hs
  have ne : ∀ q, w.at? q = some .slFreed → q ≠ p := by rintro q e rfl; rw [hs] at e; cases e
  constructor
  · refine ⟨?_, ?_, ?_, ?_, ?_, ?_, ?_, h.nodup⟩
    · intro q k' e
      by_cases hq : p = q
      · rw [if_pos hq] at e; cases e
      · rw [if_neg hq] at e
        rw [set_at, if_neg (Ne.symm hq)]; exact h.good q k' e
    · intro q e; rw [set_at, if_neg (ne q (h.stale q e))]; exact h.stale q e
    · rw [set_at, if_neg (Ne.symm p0)]; exact h.null
    · intro e; show (w.set _ _).at? w.lstMem = _; rw [set_at, if_neg (Ne.symm h1)]; exact h.lst e
    · intro e; show (w.set _ _).at? w.slMem = _; rw [set_at, if_neg (Ne.symm h2)]; exact h.sl e
    · intro q e
      rw [set_at] at e
      by_cases hq : q = p
      · rw [if_pos hq] at e; cases e
      · rw [if_neg hq] at e; exact h.made q e
    · intro q hq; rw [set_at, if_neg (ne q (h.free q hq))]; exact h.free q hq
  · refine ⟨?_, ?_, ?_, ?_, ?_, ?_, ?_, ?_⟩
    · intro q k' e
      by_cases hq : p = q
      · rw [if_pos hq] at e; cases e
      · rw [if_neg hq] at e
        show (w.set _ _).at? q = _ ∧ _
        rw [set_at, if_neg (Ne.symm hq)]; exact h.good q k' e
    · intro q e
      show (w.set _ _).at? q = _
      by_cases hq : p = q
      · rw [set_at, if_pos hq.symm]
      · rw [if_neg hq] at e; rw [set_at, if_neg (Ne.symm hq)]; exact h.stale q e
    · show (w.set _ _).at? 0 = _; rw [set_at, if_neg (Ne.symm p0)]; exact h.null
    · intro e; show (w.set _ _).at? w.lstMem = _; rw [set_at, if_neg (Ne.symm h1)]; exact h.lst e
    · intro e; show (w.set _ _).at? w.slMem = _; rw [set_at, if_neg (Ne.symm h2)]; exact h.sl e
    · intro q e
      have e : (w.set p _).at? q = _ := e
      rw [set_at] at e
      by_cases hq : q = p
      · rw [if_pos hq] at e; cases e
      · rw [if_neg hq] at e; exact h.made q e
    · intro q hq
      show (w.set _ _).at? q = _
      rcases List.mem_cons.1 hq with rfl | hq
      · rw [set_at, if_pos rfl]
      · rw [set_at, if_neg (ne q (h.free q hq))]; exact h.free q hq
    · exact List.nodup_cons.2 ⟨fun hm => ne p (h.free p hm) rfl, h.nodup⟩

/-- The program's own memory. -/
theorem Inv.own {w : World} {K B} (h : Inv w K B) {p : Ptr} {v : Nat} (hs : w.at? p = some (.other v)) (s : Option Struct) (hn : ∀ k, s ≠ some (.live k)) :
    Inv (w.set p s) K B := by
  have p0 : p ≠ 0 := by rintro rfl; rw [h.null] at hs; cases hs
  have ne : ∀ q k, w.at? q = some (.live k) → q ≠ p := by rintro q k e rfl; rw [hs] at e; cases e
  have ne' : ∀ q, w.at? q = some .slFreed → q ≠ p := by rintro q e rfl; rw [hs] at e; cases e
  refine ⟨?_, ?_, ?_, ?_, ?_, ?_, ?_, h.nodup⟩
  · intro q k e; have := h.good q k e; rw [set_at, if_neg (ne _ _ this.1)]; exact this
  · intro q e; rw [set_at, if_neg (ne' q (h.stale q e))]; exact h.stale q e
  · rw [set_at, if_neg (Ne.symm p0)]; exact h.null
  · intro e; show (w.set _ _).at? w.lstMem = _; rw [set_at, if_neg (ne _ _ (h.lst e))]; exact h.lst e
  · intro e; show (w.set _ _).at? w.slMem = _; rw [set_at, if_neg (ne _ _ (h.sl e))]; exact h.sl e
  · intro q e
    rw [set_at] at e
    by_cases hq : q = p
    · rw [if_pos hq] at e; exact absurd e (hn _)
    · rw [if_neg hq] at e; exact h.made q e
  · intro q hq; rw [set_at, if_neg (ne' q (h.free q hq))]; exact h.free q hq

theorem Inv.step {place : World → Ptr} (ha : Allocator place) {w : World} {K B} (h : Inv w K B) {e : Ev} {r : World × Ret} (he : step place w e = .ok r) :
    Inv r.1 (fun p => kindStep p (K p) (e, r.2)) (fun p => staleStep p (B p) (e, r.2)) := by
  cases e with
  | create k =>
    simp only [Handles.step, Res.bind_ok_iff, Res.ok.injEq] at he
    obtain ⟨a, e1, e2⟩ := he
    rw [← e2]
    exact h.create ha e1
  | call f p =>
    simp only [Handles.step, Res.bind_ok_iff] at he
    obtain ⟨a, e1, e2⟩ := he
    cases a with
    | returned => simp only [Res.ok.injEq] at e2; rw [← e2]; cases f <;> exact h
    | inside =>
      simp only at e2
      by_cases c1 : w.at? p ≠ some (.live f.kind)
      · rw [if_pos c1] at e2; cases e2
      rw [if_neg c1] at e2
      by_cases c2 : f = .mem_destroy_objects ∧ (p = w.lstMem ∨ p = w.slMem)
      · rw [if_pos c2] at e2; cases e2
      rw [if_neg c2, Res.ok.injEq] at e2
      rw [← e2]
      push Not at c1
      by_cases hk : f.kind = .objects
      · by_cases hd : f = .mem_destroy_objects
        · subst hd
          have : p ≠ w.lstMem ∧ p ≠ w.slMem := ⟨fun e => c2 ⟨rfl, .inl e⟩, fun e => c2 ⟨rfl, .inr e⟩⟩
          simpa [after, kindStep, staleStep, destroys] using (h.destroy c1 this.1 this.2).1
        · cases f <;> simp only [Fn.kind, reduceCtorEq, not_true_eq_false] at hk hd <;> exact by simpa [after, kindStep, staleStep, destroys] using h
      · have n1 : p ≠ w.lstMem := by
          rintro rfl
          have z : w.lstMem ≠ 0 := by intro z; rw [z, h.null] at c1; cases c1
          rw [h.lst z] at c1; simp only [Option.some.injEq, Struct.live.injEq] at c1; exact hk c1.symm
        have n2 : p ≠ w.slMem := by
          rintro rfl
          have z : w.slMem ≠ 0 := by intro z; rw [z, h.null] at c1; cases c1
          rw [h.sl z] at c1; simp only [Option.some.injEq, Struct.live.injEq] at c1; exact hk c1.symm
        have hd := h.destroy c1 n1 n2
        cases f <;> first
          | (simpa [after, kindStep, staleStep, destroys] using h)
          | (simpa [after, kindStep, staleStep, destroys] using hd.1)
          | (simpa [after, kindStep, staleStep, destroys] using hd.2)
  | call2 f p q =>
    simp only [Handles.step, Res.bind_ok_iff] at he
    obtain ⟨a, -, e2⟩ := he
    by_cases c : w.at? p ≠ some (.live .set) ∨ w.at? q ≠ some (.live .set)
    · rw [if_pos c] at e2; cases e2
    · rw [if_neg c, Res.ok.injEq] at e2; rw [← e2]; exact h
  | alloc v =>
    simp only [Handles.step, Res.bind_ok_iff, Res.ok.injEq] at he
    obtain ⟨a, e1, e2⟩ := he
    obtain ⟨h0, hf, hr⟩ := newStruct_ok ha e1
    rw [← e2, hr]
    exact h.new a.2 (.other v) h0 hf (fun e => by cases e)
  | write p v =>
    simp only [Handles.step] at he
    cases hs : w.at? p with
    | none => rw [hs] at he; cases he
    | some s =>
      rw [hs] at he
      cases s with
      | other u => simp only [Res.ok.injEq] at he; rw [← he]; exact h.own hs _ (fun k e => by cases e)
      | live k => cases he
      | slFreed => cases he
  | free p =>
    simp only [Handles.step] at he
    cases hs : w.at? p with
    | none => rw [hs] at he; cases he
    | some s =>
      rw [hs] at he
      cases s with
      | other u => simp only [Res.ok.injEq] at he; rw [← he]; exact h.own hs _ (fun k e => by cases e)
      | live k => cases he
      | slFreed => cases he

theorem run_inv' {place : World → Ptr} (ha : Allocator place) {w w' : World} {K B} (h : Inv w K B) {hist : List Ev} {rets : List Ret}
    (hr : run (step place) w hist = .ok (w', rets)) :
    Inv w' (fun p => (hist.zip rets).foldl (kindStep p) (K p)) (fun p => (hist.zip rets).foldl (staleStep p) (B p)) := by
  induction hist generalizing w K B rets with
  | nil => simp only [run, Res.ok.injEq, Prod.mk.injEq] at hr; obtain ⟨rfl, rfl⟩ := hr; exact h
  | cons e es ih =>
    simp only [run, Res.bind_ok_iff, Res.ok.injEq, Prod.mk.injEq] at hr
    obtain ⟨a, e1, q, e2, e3, e4⟩ := hr
    subst e4
    have := ih (h.step ha e1) (rets := q.2) (by rw [e2]; rw [← e3])
    simpa using this

theorem inv_of_history {place : World → Ptr} (ha : Allocator place) {w : World} {hist : List Ev} {rets : List Ret}
    (hr : run (step place) start hist = .ok (w, rets)) :
    Inv w (fun p => kindOf p (hist.zip rets)) (fun p => staleSl p (hist.zip rets)) := by
  have h0 : Inv start (fun _ => none) (fun _ => false) :=
    ⟨fun _ _ e => (by cases e), fun _ e => (by cases e), rfl, fun e => absurd rfl e, fun e => absurd rfl e, fun _ e => (by cases e),
      fun _ e => (by cases e), List.nodup_nil⟩
  have := run_inv' ha h0 hr
  have e1 : (fun p => kindOf p (hist.zip rets)) = (fun p => (hist.zip rets).foldl (kindStep p) none) := rfl
  have e2 : (fun p => staleSl p (hist.zip rets)) = (fun p => (hist.zip rets).foldl (staleStep p) false) := rfl
  rw [e1, e2]; exact this

/-- **C79.** After every history of creating, using and destroying, whatever addresses the allocator chose: a handle that was created
and not destroyed is accepted by every function for its kind, and by no other: those functions end the program with an internal
error, except for the eight that look into the structure first (see `C79_wrong_kind_refuted`). -/
theorem C79_handles_partial (place : World → Ptr) (ha : Allocator place) (w : World) (hist : List Ev) (rets : List Ret)
    (hr : run (step place) start hist = .ok (w, rets)) (p : Ptr) (k : Kind) (hk : kindOf p (hist.zip rets) = some k) (f : Fn) :
    (f.kind = k → enter w p f = .ok .inside) ∧
    (f.kind ≠ k → f ∉ looksFirst → w.lstMem ≠ 0 ∨ f ∉ [Fn.lst_append, .lst_push] → enter w p f = .abort) := by
  have h := inv_of_history ha hr
  obtain ⟨hs, -, -⟩ := h.good p k hk
  have p0 : p ≠ 0 := by rintro rfl; rw [h.null] at hs; cases hs
  constructor
  · rintro rfl
    exact C79_right_kind w p f p0 hs (fun e => by rw [e] at hs; exact ⟨h.made p hs, h.lst (h.made p hs)⟩)
  · intro hne hl hm
    refine C79_wrong_kind_partial w p _ f p0 hs (fun e => hne (((C79_magic k f.kind).1.1 e).symm)) hl (fun hf => ?_)
    rcases hm with hm | hm
    · exact h.lst hm
    · exact absurd hf hm

/-- **C79, destroyed skip lists**: as long as `sl_create` has not given it out again, a destroyed skip list is rejected by every function
for skip lists. -/
theorem C79_destroyed_sl (place : World → Ptr) (ha : Allocator place) (w : World) (hist : List Ev) (rets : List Ret)
    (hr : run (step place) start hist = .ok (w, rets)) (p : Ptr) (hk : staleSl p (hist.zip rets) = true) (f : Fn) (hf : f.kind = .sl) :
    enter w p f = .abort := by
  have h := inv_of_history ha hr
  have hs := h.stale p hk
  have p0 : p ≠ 0 := by rintro rfl; rw [h.null] at hs; cases hs
  refine C79_wrong_kind_partial w p _ f p0 hs (C79_magic f.kind f.kind).2 ?_ ?_
  · cases f <;> simp only [Fn.kind, reduceCtorEq] at hf <;> decide
  · cases f <;> simp only [Fn.kind, reduceCtorEq] at hf <;> exact fun h => absurd h (by decide)

/-- **C79, handles in use are not given out**: a new handle is neither null nor one the program still holds. -/
theorem C79_new_handle (place : World → Ptr) (ha : Allocator place) (w w' : World) (hist : List Ev) (rets : List Ret)
    (hr : run (step place) start hist = .ok (w, rets)) (k : Kind) (p : Ptr) (hc : step place w (.create k) = .ok (w', .handle p)) :
    p ≠ 0 ∧ kindOf p (hist.zip rets) = none := by
  have h := inv_of_history ha hr
  have key : ∀ v : World, (∀ q t, w.at? q = some t → v.at? q = some t) → v.at? p = none ∨ v.at? p = some .slFreed → kindOf p (hist.zip rets) = none := by
    intro v hv hp
    cases hk : kindOf p (hist.zip rets) with
    | none => rfl
    | some k' =>
      have := hv _ _ (h.good p k' hk).1
      rcases hp with e | e <;> rw [e] at this <;> cases this
  have own : ∀ (v : World) (s : Struct) (r : World × Ptr), (∀ q t, w.at? q = some t → v.at? q = some t) → newStruct place v s = .ok r → r.2 = p →
      p ≠ 0 ∧ kindOf p (hist.zip rets) = none := by
    intro v s r hv hn e
    obtain ⟨n0, nf, -⟩ := newStruct_ok ha hn
    rw [e] at n0 nf
    exact ⟨n0, key v hv (.inl nf)⟩
  simp only [Handles.step, Res.bind_ok_iff, Res.ok.injEq, Prod.mk.injEq, Ret.handle.injEq] at hc
  obtain ⟨r, hc, -, rp⟩ := hc
  cases k with
  | list =>
    simp only [Handles.create, Res.bind_ok_iff] at hc
    obtain ⟨a, e1, e2⟩ := hc
    refine own w _ a (fun _ _ e => e) e1 ?_
    by_cases hz : a.1.lstMem = 0
    · rw [if_pos hz] at e2
      simp only [Res.bind_ok_iff, Res.ok.injEq] at e2
      obtain ⟨m, -, e4⟩ := e2
      rw [← rp, ← e4]
    · rw [if_neg hz, Res.ok.injEq] at e2; rw [e2, rp]
  | sl =>
    simp only [Handles.create, Res.bind_ok_iff] at hc
    obtain ⟨v, e1, e2⟩ := hc
    have hv : (∀ q t, w.at? q = some t → v.at? q = some t) ∧ v.slFree = w.slFree := by
      by_cases hz : w.slMem = 0
      · rw [if_pos hz] at e1
        simp only [Res.bind_ok_iff, Res.ok.injEq] at e1
        obtain ⟨m, e3, e4⟩ := e1
        obtain ⟨m0, mf, mr⟩ := newStruct_ok ha e3
        rw [← e4]
        refine ⟨fun q t e => ?_, by rw [mr]; rfl⟩
        show m.1.at? q = _
        rw [mr, set_at, if_neg (by rintro rfl; rw [mf] at e; cases e)]; exact e
      · rw [if_neg hz, Res.ok.injEq] at e1; rw [← e1]; exact ⟨fun _ _ e => e, rfl⟩
    cases hfr : v.slFree with
    | nil => rw [hfr] at e2; exact own v _ r hv.1 e2 rp
    | cons q qs =>
      rw [hfr] at e2
      simp only [Res.ok.injEq] at e2
      have hq := h.free q (by rw [← hv.2, hfr]; simp)
      have : q = p := by rw [← rp, ← e2]
      subst this
      exact ⟨(by rintro rfl; rw [h.null] at hq; cases hq), key w (fun _ _ e => e) (.inr hq)⟩
  | table => exact own w _ r (fun _ _ e => e) hc rp
  | set => exact own w _ r (fun _ _ e => e) hc rp
  | strings => exact own w _ r (fun _ _ e => e) hc rp
  | objects => exact own w _ r (fun _ _ e => e) hc rp
  | args => exact own w _ r (fun _ _ e => e) hc rp

/-- C79, memory exhausted: every create function but that of skip lists ends the program with a message; so does that of skip lists unless it has a structure to
use again. -/
theorem C79_no_memory (place : World → Ptr) (w : World) (k : Kind) (h : place w = 0) (hk : k = .sl → w.slMem = 0 ∨ w.slFree = []) :
    step place w (.create k) = .fatal := by
  cases k with
  | sl =>
    by_cases h0 : w.slMem = 0
    · simp [step, create, newStruct, h, h0, Res.bind]
    · have := (hk rfl).resolve_left h0
      simp [step, create, newStruct, h, h0, this, Res.bind]
  | _ => simp [step, create, newStruct, h, Res.bind]

/-- Null is never a handle, whatever the history: `C79_null_partial` and `C79_null_refuted` apply. -/
theorem C79_null_after (place : World → Ptr) (ha : Allocator place) (w : World) (hist : List Ev) (rets : List Ret)
    (hr : run (step place) start hist = .ok (w, rets)) :
    (∀ f ∈ looksFirst, enter w 0 f = .ub) ∧
    ((∃ p, kindOf p (hist.zip rets) = some .list) → enter w 0 .lst_push = .abort) := by
  have h := inv_of_history ha hr
  refine ⟨(C79_null_refuted w h.null).1, ?_⟩
  rintro ⟨p, hp⟩
  exact C79_null_push w (h.lst (h.made p (h.good p _ hp).1))

/-! ## Examples -/

/-- An allocator that uses the first free address of 8, 16, 24, …, 80. -/
def exPlace (w : World) : Ptr := (((List.range 10).map fun i => 8 * (i + 1)).find? fun p => (w.at? p).isNone).getD 0

theorem exPlace_allocator : Allocator exPlace := by
  intro w h0
  unfold exPlace at h0 ⊢
  cases hf : ((List.range 10).map fun i => 8 * (i + 1)).find? fun p => (w.at? p).isNone with
  | none => rw [hf] at h0; exact absurd rfl h0
  | some p => exact by simpa using List.find?_some hf

/-- A list is destroyed and its memory reused for a table; a skip list is destroyed and its structure kept. -/
def exHist : List Ev :=
  [.create .list, .call .lst_push 8, .call .lst_destroy 8, .create .table, .create .sl, .create .set, .call2 .set_equal 40 40, .call .sl_destroy 32, .call .lst_append 0]

/-- What it returns. -/
def exRets : List Ret := [.handle 8, .entered, .entered, .handle 8, .handle 32, .handle 40, .entered, .entered, .returned]

theorem exHist_runs : ∃ w, run (step exPlace) start exHist = .ok (w, exRets) := ⟨_, rfl⟩

example : kindOf 8 (exHist.zip exRets) = some .table ∧ kindOf 40 (exHist.zip exRets) = some .set ∧ kindOf 32 (exHist.zip exRets) = none ∧
    staleSl 32 (exHist.zip exRets) = true := by decide

example : ∃ w, run (step exPlace) start exHist = .ok (w, exRets) ∧ enter w 8 .hsh_retrieve = .ok .inside ∧ enter w 8 .lst_pop = .abort ∧
    enter w 8 .set_insert = .abort ∧ enter w 8 .mem_get_object = .ub ∧ enter w 32 .sl_find = .abort ∧ enter w 0 .hsh_insert = .ub ∧
    enter w 0 .lst_push = .abort ∧ enter w 0 .hsh_iterate = .abort := ⟨_, rfl, by decide +kernel⟩

/-- Creating the skip list again gives out the same structure. -/
example : ∃ w, run (step exPlace) start (exHist ++ [.create .sl]) = .ok (w, exRets ++ [.handle 32]) := ⟨_, rfl⟩

end Maa.Handles
