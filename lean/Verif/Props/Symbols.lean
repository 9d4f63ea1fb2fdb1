import Verif.Model.Symbols
import Verif.Props.Borrowed
import Verif.Props.Names
import Verif.Props.SourceErr
import Verif.Props.Timer

/-! # Property C90: concrete symbols and the string pool -/

namespace Maa.Symbols

open Spec (SymOp SymOut PrsOp Prs ResRel Loans stringAt SafeSymbols)
open StrPool (Global GInv GReach)
open Names (Interned Grows)
open Borrowed (Agree)
open Log (okBind)

theorem string_ok {g : Global} {M : Interned} (h : GInv g M) {t : List Byte} {p : Nat} (hx : (t, p) ∈ M) : stringAt (poolMem g) p = some t := by
  have hn := Names.nameAt_ok h hx
  have h0 : p ≠ 0 := by
    rintro rfl
    unfold GInv at h
    cases hp : g.pool with
    | none =>
      rw [hp] at h
      rw [h.2.2.2] at hx
      simp at hx
    | some q =>
      rw [hp] at h
      obtain ⟨h0, hh0, v, h1, h2, h3, h4⟩ := h
      exact h4.nonnull h1.1 hx rfl
  rw [← Borrowed.text_iff]
  unfold Borrowed.text poolMem
  unfold Names.nameAt at hn
  rw [if_neg h0]
  cases hm : g.mem.mem p with
  | none => rw [hm] at hn; cases hn
  | some b => rw [hm] at hn; exact hn

/-- the table and what the user knows of it -/
structure TRel (M : Interned) (t : Borrowed.Table) (conc : List Byte → Option (List Byte)) : Prop where
  ex : ∃ B t' m, Agree B t t' ∧ NameTab.NRep t' m ∧ B.map Prod.snd = m.map Prod.fst ∧ (∀ x ∈ B, (x.2, x.1) ∈ M) ∧
    (∀ x ∈ m, ∃ c, (c, x.2) ∈ M ∧ conc x.1 = some c) ∧ ∀ n, conc n ≠ none → n ∈ m.map Prod.fst

theorem TRel.mono {M M' : Interned} {t : Borrowed.Table} {conc : List Byte → Option (List Byte)} (h : TRel M t conc) (hs : ∀ x ∈ M, x ∈ M') : TRel M' t conc := by
  obtain ⟨B, t', m, h1, h2, h3, h4, h5, h6⟩ := h
  exact ⟨B, t', m, h1, h2, h3, fun x hx => hs _ (h4 x hx), fun x hx => by obtain ⟨c, k1, k2⟩ := h5 x hx; exact ⟨c, hs _ k1, k2⟩, h6⟩

theorem kept {g : Global} {M : Interned} (h : GInv g M) {B : Loans} (hb : ∀ x ∈ B, (x.2, x.1) ∈ M) : B.Kept (poolMem g) := by
  intro x hx
  exact string_ok h (hb x hx)

/-- a table of symbols that is still in place -/
def InPlace (M : Interned) (w : World) (π : Prs) : Prop :=
  match w.hash with
  | none => π.inUse = false ∧ ∀ n, π.conc n = none
  | some t => π.inUse = true ∧ TRel M t π.conc

/-- program and specification agree -/
structure Rel (g0 : Global) (w : World) (π : Prs) : Prop where
  gone : w.freed = π.gone
  used : π.gone = true → w.hash ≠ none
  ex : ∃ M, GInv w.pool M ∧ (π.gone = false → InPlace M w π)
  later : StrPool.Later g0 w.pool

theorem Rel.start {g : Global} (r : GReach g) : Rel g (World.start g) Prs.init := by
  obtain ⟨M, i⟩ := r.inv
  exact ⟨rfl, fun h => (by cases h), ⟨M, i, fun _ => ⟨rfl, fun _ => rfl⟩⟩, .refl g⟩

theorem findBoth_ok (left : Bool) {g : Global} {M : Interned} (h : GInv g M) {s c : List Byte} (hs : (0 : Byte) ∉ s) (hc : (0 : Byte) ∉ c) :
    ∃ g' p q M', findBoth left g s c = .ok (g', p, q) ∧ Grows g M g' M' ∧ (s, p) ∈ M' ∧ (c, q) ∈ M' ∧ g'.pool.isSome := by
  unfold findBoth
  cases left with
  | true =>
    obtain ⟨g1, p1, M1, f1, i1, m1⟩ := Names.strFind_ok h hs
    obtain ⟨g2, p2, M2, f2, i2, m2⟩ := Names.strFind_ok i1.inv hc
    rw [if_pos rfl, f1, okBind]
    simp only
    rw [f2, okBind]
    exact ⟨g2, p1, p2, M2, rfl, i1.trans i2, i2.sub _ m1, m2, Names.strFind_some f2⟩
  | false =>
    obtain ⟨g1, p1, M1, f1, i1, m1⟩ := Names.strFind_ok h hc
    obtain ⟨g2, p2, M2, f2, i2, m2⟩ := Names.strFind_ok i1.inv hs
    rw [if_neg (by decide), f1, okBind]
    simp only
    rw [f2, okBind]
    exact ⟨g2, p2, p1, M2, rfl, i1.trans i2, m2, i2.sub _ m1, Names.strFind_some f2⟩

theorem check_ok {M : Interned} {w : World} {π : Prs} (h : InPlace M w π) : ∃ t, check w = .ok t ∧ TRel M t π.conc := by
  unfold InPlace at h
  unfold check
  cases hx : w.hash with
  | some t => rw [hx] at h; exact ⟨t, rfl, h.2⟩
  | none =>
    rw [hx] at h
    obtain ⟨t', h1, h2⟩ := NameTab.create_rep
    have h3 := Borrowed.create_both (P := fun p => (p, []) ∈ ([] : Loans)) (g := fun _ => [])
    rw [h1] at h3
    cases hc : Borrowed.create <;> rw [hc] at h3 <;> simp only [ResRel] at h3
    exact ⟨_, rfl, [], t', [], ⟨_, h3⟩, h2, rfl, by simp, by simp, fun n hn => absurd (h.2 n) hn⟩

/-- registering a symbol -/
theorem TRel.insert {g : Global} {M : Interned} (hg : GInv g M) {t : Borrowed.Table} {conc : List Byte → Option (List Byte)} (h : TRel M t conc)
    {s c : List Byte} {p q : Nat} (hp : (s, p) ∈ M) (hq : (c, q) ∈ M) :
    ∃ r, Borrowed.insert (poolMem g) t p q = .ok r ∧ TRel M r.1 (fun x => if x = s ∧ conc s = none then some c else conc x) := by
  obtain ⟨B, t', m, h1, h2, h3, h4, h5, h6⟩ := h
  have hs := string_ok hg hp
  have hn := Borrowed.stringAt_nul hs
  obtain ⟨t2, e1, h7⟩ := h2.insert_key hn q
  have h8 := h1.insert (kept hg h4) hs q (by
    intro t₁ ht
    rw [e1] at ht
    simp only [Res.ok.injEq, Prod.mk.injEq] at ht
    rw [h3]
    exact Borrowed.insert_zero ht.2)
  rw [e1] at h8
  cases hi : Borrowed.insert (poolMem g) t p q <;> rw [hi] at h8 <;> simp only [ResRel] at h8
  rename_i r
  refine ⟨r, rfl, B.lend (poolMem g) p, t2, _, h8.2, h7, Borrowed.insert_loans h3 hs q, ?_, ?_, ?_⟩
  · intro x hx
    simp only [Loans.lend, hs] at hx
    split at hx
    · exact h4 x hx
    · rcases List.mem_cons.1 hx with rfl | hx
      · exact hp
      · exact h4 x hx
  · intro x hx
    have hconc : conc s = none ↔ s ∉ m.map Prod.fst := by
      constructor
      · intro hc hm
        obtain ⟨y, hy, rfl⟩ := List.mem_map.1 hm
        obtain ⟨c', -, k2⟩ := h5 y hy
        rw [hc] at k2; cases k2
      · intro hm
        by_contra hc
        exact hm (h6 s hc)
    unfold Spec.insert at hx
    cases hf : Spec.find (· == ·) m s with
    | some d =>
      rw [hf] at hx
      obtain ⟨c', k1, k2⟩ := h5 x hx
      refine ⟨c', k1, ?_⟩
      rw [if_neg ?_]; exact k2
      rintro ⟨e, hc⟩
      rw [e, hc] at k2; cases k2
    | none =>
      have hm := (Borrowed.find_none_iff m s).1 hf
      rw [hf] at hx
      rcases List.mem_cons.1 hx with rfl | hx
      · exact ⟨c, hq, by rw [if_pos ⟨rfl, hconc.2 hm⟩]⟩
      · obtain ⟨c', k1, k2⟩ := h5 x hx
        refine ⟨c', k1, ?_⟩
        rw [if_neg ?_]; exact k2
        rintro ⟨e, hc⟩
        rw [e, hc] at k2; cases k2
  · intro n hn'
    unfold Spec.insert
    cases hf : Spec.find (· == ·) m s with
    | some d =>
      by_cases e : n = s
      · subst e
        by_contra hc
        rw [(Borrowed.find_none_iff m n).2 hc] at hf; cases hf
      · rw [if_neg (fun e' => e e'.1)] at hn'
        exact h6 n hn'
    | none =>
      simp only [List.map_cons, List.mem_cons]
      by_cases e : n = s
      · exact Or.inl e
      · rw [if_neg (fun e' => e e'.1)] at hn'
        exact Or.inr (h6 n hn')

/-- looking a symbol up -/
theorem TRel.retrieve {g : Global} {M : Interned} (hg : GInv g M) {t : Borrowed.Table} {conc : List Byte → Option (List Byte)} (h : TRel M t conc)
    {s : List Byte} (hs : (0 : Byte) ∉ s) :
    ∃ r, Borrowed.retrieveKey (poolMem g) t s = .ok r ∧ TRel M r.1 conc ∧
      ((r.2 = 0 ∧ conc s = none) ∨ ∃ c, conc s = some c ∧ (c, r.2) ∈ M) := by
  obtain ⟨B, t', m, h1, h2, h3, h4, h5, h6⟩ := h
  obtain ⟨t2, e1, h7⟩ := h2.retrieve_key hs
  have h8 := Borrowed.retrieve_both (Borrowed.reads (kept hg h4)) hs (h1.now (kept hg h4))
  rw [e1] at h8
  cases hi : Borrowed.retrieveKey (poolMem g) t s <;> rw [hi] at h8 <;> simp only [ResRel] at h8
  rename_i r
  refine ⟨r, rfl, ⟨B, t2, m, ⟨_, h8.2⟩, h7, h3, h4, h5, h6⟩, ?_⟩
  rw [← h8.1]
  cases hf : Spec.find (· == ·) m s with
  | none =>
    refine Or.inl ⟨rfl, ?_⟩
    by_contra hc
    exact (Borrowed.find_none_iff m s).1 hf (h6 s hc)
  | some d =>
    right
    have hm : (s, d) ∈ m := Timer.find_mem hf
    obtain ⟨c, k1, k2⟩ := h5 _ hm
    exact ⟨c, k2, k1⟩

theorem nonnull {g : Global} {M : Interned} (h : GInv g M) {t : List Byte} {p : Nat} (hx : (t, p) ∈ M) : p ≠ 0 := by
  have := string_ok h hx
  rintro rfl
  simp [stringAt] at this

theorem needsPool_eq (o : Spec.GlobalOp) : (SymOp.str o).needsPool = StrPool.needsPool o := by cases o <;> rfl

/-- one call -/
theorem step_rel (left : Bool) {g0 : Global} {w : World} {π : Prs} (h : Rel g0 w π) (o : SymOp) {b : Bool} (hb : b = true → w.pool.pool.isSome)
    (h2 : o.Permitted) (h3 : o.needsPool = true → b = true) (h4 : o = .str .destroy → π.inUse = false ∨ π.gone = true) :
    ResRel (fun c d => c.2 = d.2 ∧ Rel g0 c.1 d.1 ∧ (o.poolAfter b = true → c.1.pool.pool.isSome)) (step left w o) (Spec.symStep π o) := by
  obtain ⟨hgone, hused, ⟨M, hg, hin⟩, hlat⟩ := h
  cases o with
  | str o =>
    rcases StrPool.gstep_full hg o h2 with ⟨g', r, M', e1, e2, -, e3⟩ | ⟨e1, e2, -⟩
    · simp only [step, e1, okBind, Spec.symStep]
      by_cases ho : o = .destroy
      · subst ho
        refine ⟨rfl, ⟨hgone, hused, ⟨M', e2, fun hf => ?_⟩, .call (o := .destroy) hlat h2 e1⟩, fun e => by simp [SymOp.poolAfter] at e⟩
        rcases h4 rfl with h5 | h5
        · have := hin hf
          unfold InPlace at this ⊢
          cases hx : w.hash with
          | none => rw [hx] at this; exact this
          | some t => rw [hx, h5] at this; exact absurd this.1 (by decide)
        · rw [hf] at h5; cases h5
      · obtain ⟨m1, m2⟩ := e3 ho
        refine ⟨rfl, ⟨hgone, hused, ⟨M', e2, fun hf => ?_⟩, .call hlat h2 e1⟩, fun _ => m2⟩
        have := hin hf
        unfold InPlace at this ⊢
        cases hx : w.hash with
        | none => rw [hx] at this; exact this
        | some t => rw [hx] at this; exact ⟨this.1, this.2.mono m1⟩
    · rw [needsPool_eq] at h3
      have := hb (h3 e2)
      rw [e1] at this
      simp at this
  | prs o =>
    by_cases hg1 : π.gone = true
    · have hf : w.freed = true := hgone.trans hg1
      simp only [Spec.symStep, Spec.prsStep]
      rw [if_pos hg1]
      cases o with
      | register s c => simp only [step, register]; rw [if_pos hf]; trivial
      | concrete s => simp only [step, concrete]; rw [if_pos hf]; trivial
      | shutdown => simp only [step, shutdown]; rw [if_pos hf]; trivial
    have hg2 : π.gone = false := by simpa using hg1
    have hf : ¬ w.freed = true := by rw [hgone]; exact hg1
    have hi := hin hg2
    simp only [Spec.symStep, Spec.prsStep]
    rw [if_neg hg1]
    cases o with
    | register s c =>
      obtain ⟨t, e1, tr⟩ := check_ok hi
      obtain ⟨g', p, q, M', e2, gr, m1, m2, hp⟩ := findBoth_ok left hg h2.1 h2.2
      obtain ⟨r, e3, tr2⟩ := (tr.mono gr.sub).insert gr.inv m1 m2
      simp only [step, register]
      rw [if_neg hf, e1, okBind, e2, okBind]
      simp only
      rw [e3]
      refine ⟨rfl, ⟨hgone, fun _ => by simp, ⟨M', gr.inv, fun _ => ⟨rfl, tr2⟩⟩, Names.Later.trans hlat gr.later⟩, fun _ => hp⟩
    | concrete s =>
      simp only [step, concrete]
      rw [if_neg hf]
      unfold InPlace at hi
      cases hx : w.hash with
      | none =>
        rw [hx] at hi
        have hpost : ∀ π', π' = π → Rel g0 w π' := by
          rintro _ rfl
          refine ⟨hgone, hused, ⟨M, hg, fun _ => ?_⟩, hlat⟩
          unfold InPlace; rw [hx]; exact hi
        cases s with
        | none =>
          simp only
          rw [hi.1]
          exact ⟨rfl, hpost _ rfl, hb⟩
        | some s =>
          simp only
          rw [hi.2 s]
          exact ⟨rfl, hpost _ rfl, hb⟩
      | some t =>
        rw [hx] at hi
        cases s with
        | none =>
          simp only
          rw [hi.1]
          exact trivial
        | some s =>
          obtain ⟨r, e1, tr, hr⟩ := hi.2.retrieve hg h2
          simp only
          rw [e1, okBind]
          have hpost : Rel g0 { w with hash := some r.1 } π := ⟨hgone, fun _ => by simp, ⟨M, hg, fun _ => ⟨hi.1, tr⟩⟩, hlat⟩
          rcases hr with ⟨hr, hc⟩ | ⟨c, hc, hm⟩
          · rw [okBind]
            unfold shown
            rw [hr, if_pos rfl, okBind, hc]
            exact ⟨rfl, hpost, hb⟩
          · rw [okBind]
            unfold shown
            simp only
            rw [if_neg (nonnull hg hm), Borrowed.text_iff.2 (string_ok hg hm), okBind, okBind, hc]
            exact ⟨rfl, hpost, hb⟩
    | shutdown =>
      simp only [step, shutdown]
      rw [if_neg hf]
      unfold InPlace at hi
      cases hx : w.hash with
      | none =>
        rw [hx] at hi
        simp only [okBind]
        rw [hi.1]
        refine ⟨rfl, ⟨hgone.trans hg2, fun e => (by cases e), ⟨M, hg, fun _ => ?_⟩, hlat⟩, hb⟩
        unfold InPlace; rw [hx]; exact ⟨rfl, hi.2⟩
      | some t =>
        rw [hx] at hi
        obtain ⟨hu, B, t', m, k1, k2, -⟩ := hi
        obtain ⟨gf, k1⟩ := k1
        have hd := Borrowed.destroy_both k1
        rw [k2.destroy] at hd
        simp only
        cases hy : Borrowed.destroy t <;> rw [hy] at hd <;> simp only [ResRel] at hd
        simp only [okBind]
        rw [hu]
        exact ⟨rfl, ⟨rfl, fun _ => by simp, ⟨M, hg, fun e => (by cases e)⟩, hlat⟩, hb⟩

theorem run_rel (left : Bool) {g0 : Global} (hist : List SymOp) : ∀ {w : World} {π : Prs} {b : Bool}, Rel g0 w π → (b = true → w.pool.pool.isSome) →
    SafeSymbols b π hist →
    ResRel (fun c d => c.2 = d.2 ∧ Rel g0 c.1 d.1) (Spec.run (step left) w hist) (Spec.run Spec.symStep π hist) := by
  induction hist with
  | nil => intro w s b h _ _; exact ⟨rfl, h⟩
  | cons o os ih =>
    intro w s b h hb ⟨h2, h3, h4, h5⟩
    have hstep := step_rel left h o hb h2 h3 h4
    simp only [Spec.run]
    cases ha : step left w o <;> cases hc : Spec.symStep s o <;> rw [ha, hc] at hstep <;> simp only [ResRel] at hstep
    · rename_i c d
      simp only [okBind]
      refine Spec.ResRel.bind (ih hstep.2.1 hstep.2.2 (h5 d hc)) ?_
      rintro x y ⟨k1, k2⟩
      exact ⟨by rw [hstep.1, k1], k2⟩
    all_goals exact trivial

/-- C90: in any safe history of calls of `str_*` and `prs_*`, from any state of the string pool, whatever addresses the allocator chooses and whichever
argument the compiler evaluates first, `prs_concrete` gives what C50 says, as if the strings had been copied: what is done to the string pool does not show.
The string pool is left in a state that permitted calls of `str_*` lead to, so everything said about it (C26 to C29) goes on holding. -/
theorem C90_symbols (left : Bool) (g : Global) (r : GReach g) (hist : List SymOp) (safe : SafeSymbols g.pool.isSome Prs.init hist) :
    Spec.observe (Spec.run (step left) (World.start g) hist) = Spec.observe (Spec.run Spec.symStep Prs.init hist) ∧
    ∀ w outs, Spec.run (step left) (World.start g) hist = .ok (w, outs) → StrPool.Later g w.pool ∧ GReach w.pool := by
  have h := run_rel left hist (b := g.pool.isSome) (Rel.start r) (fun h => h) safe
  refine ⟨h.observe, ?_⟩
  intro w outs e
  rw [e] at h
  cases hc : Spec.run Spec.symStep Prs.init hist <;> rw [hc] at h <;> simp only [ResRel] at h
  exact ⟨h.2.later, (h.2.later.counter r).1⟩

theorem unique {g : Global} {M : Interned} (h : GInv g M) {t : List Byte} {p q : Nat} (hp : (t, p) ∈ M) (hq : (t, q) ∈ M) : p = q := by
  have hd : M.Pairwise (fun a b => a.1 ≠ b.1) := by
    unfold GInv at h
    cases hx : g.pool with
    | none => rw [hx] at h; rw [h.2.2.2]; exact .nil
    | some y =>
      rw [hx] at h
      obtain ⟨h0, hh0, v, -, -, -, h4⟩ := h
      exact h4.distinct
  by_contra hne
  have : Std.Symm (fun a b : List Byte × Nat => a.1 ≠ b.1) := ⟨fun _ _ h => Ne.symm h⟩
  exact hd.forall hp hq (fun e => hne (congrArg Prod.snd e)) rfl

/-- The pointer `prs_concrete` gives for a registered symbol is the interned one: it is not NULL, the call leaves the string pool alone, and `str_find` of the
form gives the very same pointer, so a caller may compare forms by address. -/
theorem C90_pointer (left : Bool) (g : Global) (r : GReach g) (hist : List SymOp) (safe : SafeSymbols g.pool.isSome Prs.init hist)
    (π : Prs) (outs : List SymOut) (hr : Spec.run Spec.symStep Prs.init hist = .ok (π, outs)) (hgone : π.gone = false) (s c : List Byte)
    (hs : (0 : Byte) ∉ s) (hc : π.conc s = some c) (w : World) (outs' : List SymOut) (hw : Spec.run (step left) (World.start g) hist = .ok (w, outs')) :
    ∃ w' p, concrete w (some s) = .ok (w', p) ∧ w'.pool = w.pool ∧ p ≠ 0 ∧ ∃ g', StrPool.strFind w.pool (CStr.ofStr c) = .ok (g', p) := by
  have h := run_rel left hist (b := g.pool.isSome) (Rel.start r) (fun h => h) safe
  rw [hr, hw] at h
  obtain ⟨-, hgo, -, ⟨M, hg, hin⟩, -⟩ := h
  have hi := hin hgone
  unfold InPlace at hi
  have hf : ¬ w.freed = true := by simp only at hgo; rw [hgo, hgone]; decide
  cases hx : w.hash with
  | none => simp only at hi; rw [hx] at hi; rw [hi.2 s] at hc; cases hc
  | some t =>
    simp only at hi
    rw [hx] at hi
    obtain ⟨q, e1, -, hq⟩ := hi.2.retrieve hg hs
    rcases hq with ⟨-, k⟩ | ⟨c', k1, k2⟩
    · rw [hc] at k; cases k
    rw [hc] at k1
    cases k1
    refine ⟨{ w with hash := some q.1 }, q.2, ?_, rfl, nonnull hg k2, ?_⟩
    · unfold concrete
      rw [if_neg hf, hx]
      simp only
      rw [e1, okBind]
    · obtain ⟨g', d, M', e2, gr, m⟩ := Names.strFind_ok hg (Borrowed.stringAt_nul (string_ok hg k2))
      refine ⟨g', ?_⟩
      rw [e2, unique gr.inv m (gr.sub _ k2)]

theorem text_pool {g : Global} {p : Nat} (h0 : p ≠ 0) : Borrowed.text (poolMem g) p = Names.nameAt g p := by
  unfold Borrowed.text poolMem Names.nameAt
  rw [if_neg h0]
  cases g.mem.mem p <;> rfl

/-- a search that found something read a key -/
theorem findLoop_freed {m m' : Borrowed.Mem} {k : List Byte} (hm : ∀ p, p ≠ 0 → Borrowed.text m' p = .ub) {n : Nat} {h : Heap (Tab.Entry Ptr Ptr)}
    {prev pt : Nat} {x : Nat × Nat × Tab.Entry Ptr Ptr × Nat} (e : Borrowed.findLoop m k n h prev pt = .ok (some x)) :
    Borrowed.findLoop m' k n h prev pt = .ub := by
  cases n with
  | zero => rfl
  | succ n =>
    unfold Borrowed.findLoop at e ⊢
    by_cases hp : pt = 0
    · rw [if_pos hp] at e; cases e
    rw [if_neg hp] at e ⊢
    cases hr : h.read pt with
    | ok c =>
      rw [hr, okBind] at e
      rw [okBind]
      rw [hm c.1.key ?_]
      · rfl
      · intro hc
        unfold Borrowed.text at e
        rw [if_pos hc] at e
        cases e
    | _ => rw [hr] at e; cases e

/-- finding a symbol when the strings are gone -/
theorem retrieve_freed {m m' : Borrowed.Mem} {k : List Byte} (hm : ∀ p, p ≠ 0 → Borrowed.text m' p = .ub) {t : Borrowed.Table} {r : Borrowed.Table × Ptr}
    (e : Borrowed.retrieveKey m t k = .ok r) (h0 : r.2 ≠ 0) : Borrowed.retrieveKey m' t k = .ub := by
  unfold Borrowed.retrieveKey at e ⊢
  by_cases hp : t.2.prime = 0
  · rw [if_pos hp]
  rw [if_neg hp] at e ⊢
  simp only at e ⊢
  cases hf : Borrowed.findLoop m k t.1.clock t.1 0 (t.2.buckets (CStr.strHashLoop 0 k % t.2.prime)) with
  | ok x =>
    cases x with
    | none =>
      rw [hf, okBind] at e
      simp only [Res.ok.injEq] at e
      rw [← e] at h0
      exact absurd rfl h0
    | some x => rw [findLoop_freed hm hf]; rfl
  | _ => rw [hf] at e; cases e

/-- C90 does not hold if `str_destroy` is called, as `maa_shutdown` does, while symbols are registered: looking up a symbol that was registered reads keys
that were freed. -/
theorem C90_after_destroy_refuted (left : Bool) (g : Global) (r : GReach g) (hist : List SymOp) (safe : SafeSymbols g.pool.isSome Prs.init hist)
    (π : Prs) (outs : List SymOut) (hr : Spec.run Spec.symStep Prs.init hist = .ok (π, outs)) (hgone : π.gone = false) (s : List Byte)
    (hs : (0 : Byte) ∉ s) (hc : π.conc s ≠ none) :
    Spec.observe (Spec.run (step left) (World.start g) (hist ++ [.str .destroy, .prs (.concrete (some s))])) = .ub := by
  have h := run_rel left hist (b := g.pool.isSome) (Rel.start r) (fun h => h) safe
  rw [hr] at h
  cases hw : Spec.run (step left) (World.start g) hist <;> rw [hw] at h <;> simp only [ResRel] at h
  rename_i c
  obtain ⟨-, hgo, -, ⟨M, hg, hin⟩, -⟩ := h
  obtain ⟨g', x, e⟩ := Names.destroy_ok hg
  have hno := Names.destroyed hg e
  have hi := hin hgone
  unfold InPlace at hi
  cases hx : c.1.hash with
  | none => rw [hx] at hi; exact absurd (hi.2 s) hc
  | some t =>
    rw [hx] at hi
    obtain ⟨q, e1, -, hq⟩ := hi.2.retrieve hg hs
    have hq0 : q.2 ≠ 0 := by
      rcases hq with ⟨-, k⟩ | ⟨c', -, k⟩
      · exact absurd k hc
      · exact nonnull hg k
    have e2 := retrieve_freed (m' := poolMem g') (fun p hp => by rw [text_pool hp, hno]) e1 hq0
    have hf : ¬ c.1.freed = true := by rw [hgo, hgone]; decide
    rw [Spec.run_append, hw, okBind]
    simp only [Spec.run, step, e, okBind, concrete]
    rw [if_neg hf]
    simp only [hx, e2]
    rfl

/-- When freed addresses are used again the failure is silent: the symbol "a" is registered with the form "b"; after `str_destroy`, "x" and "y" are interned;
`prs_concrete("x")`, a symbol never registered, then gives "y", and `prs_concrete("a")` gives NULL.  (To the user "x" has no form and "a" has "b".) -/
theorem C90_reused_refuted :
    Spec.observe (Spec.run (step true) (World.start (Global.init Heap.atOnce Heap.atOnce))
      [.prs (.register [97] [98]), .str .destroy, .str (.find [120, 0]), .str (.find [121, 0]), .prs (.concrete (some [120])), .prs (.concrete (some [97]))]) =
      .ok [.form none, .str, .str, .str, .form (some [121]), .form none] ∧
    Spec.observe (Spec.run Spec.symStep Prs.init
      [.prs (.register [97] [98]), .str .destroy, .str (.find [120, 0]), .str (.find [121, 0]), .prs (.concrete (some [120])), .prs (.concrete (some [97]))]) =
      .ok [.form none, .str, .str, .str, .form none, .form (some [98])] := by
  constructor <;> decide +kernel

/-! ## Histories that meet the hypotheses -/

/-- "a" is registered as "b", strings are interned and made up, "c" is registered as "a", "a" again as "d"; all three are looked up; the symbols are shut down
and then the pool. -/
def exHist : List SymOp :=
  [.prs (.register [97] [98]), .str (.find [120, 0]), .str (.unique [97, 0]), .prs (.register [99] [97]), .prs (.register [97] [100]),
   .prs (.concrete (some [97])), .prs (.concrete (some [99])), .prs (.concrete (some [100])), .prs .shutdown, .str .destroy]

theorem exHist_safe : SafeSymbols false Prs.init exHist := by
  simp [exHist, SafeSymbols, Spec.symStep, Spec.prsStep, Prs.init, Res.bind, SymOp.Permitted, SymOp.needsPool, SymOp.poolAfter,
    Spec.GlobalOp.Permitted]

example : Spec.observe (Spec.run (step false) (World.start (Global.init Heap.atOnce Heap.atOnce)) exHist) =
    .ok [.form none, .str, .str, .form none, .form none, .form (some [98]), .form (some [97]), .form none, .form none, .str] := by
  rw [(C90_symbols _ _ (GReach.start Heap.atOnce_ok Heap.atOnce_ok) exHist exHist_safe).1]
  decide +kernel

/-- The hypotheses of `C90_pointer` and `C90_after_destroy_refuted` are met by the first eight calls. -/
example : ∃ π outs, Spec.run Spec.symStep Prs.init (exHist.take 8) = .ok (π, outs) ∧ π.gone = false ∧ π.conc [97] = some [98] ∧ π.conc [99] = some [97] :=
  ⟨_, _, rfl, rfl, rfl, rfl⟩

example : SafeSymbols false Prs.init (exHist.take 8) := by
  simp [exHist, SafeSymbols, Spec.symStep, Spec.prsStep, Prs.init, Res.bind, SymOp.Permitted, SymOp.needsPool, SymOp.poolAfter,
    Spec.GlobalOp.Permitted]

end Maa.Symbols
