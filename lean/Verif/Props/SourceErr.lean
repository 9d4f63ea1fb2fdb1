import Verif.Spec.Numeral
import Verif.Model.SourceErr
import Verif.Props.Source
import Verif.Props.Arg

/-! # Properties C50, C60: parser messages and `#line` lines, maa/source.c, maa/parse-concrete.c -/

namespace Maa.Prs

open Spec (PrsOp ResRel)

/-- table, strings and user's view agree -/
structure Rep (m : List (List Byte × Nat)) (mem : Nat → Option (List Byte)) (fresh : Nat) (conc : List Byte → Option (List Byte)) : Prop where
  pos : ∀ p ∈ m, 0 < p.2 ∧ p.2 < fresh
  live : ∀ p ∈ m, mem p.2 ≠ none
  conc : ∀ n, conc n = (Spec.find (· == ·) m n).bind mem

/-- model and specification states agree -/
def Sim (σ : State) (π : Spec.Prs) : Prop :=
  0 < σ.fresh ∧ σ.freed = π.gone ∧ ∃ m, Rep m σ.mem σ.fresh π.conc ∧
    match σ.hash with
    | none => π.inUse = false ∧ m = []
    | some t => π.inUse = true ∧ NameTab.NRep t m

theorem Sim.init : Sim State.init Spec.Prs.init :=
  ⟨by simp [State.init], rfl, [], ⟨by simp, by simp, fun n => rfl⟩, rfl, rfl⟩

theorem okBind {α β : Type} (a : α) (f : α → Res β) : (Res.ok a).bind f = f a := rfl

theorem find_mem {m : List (List Byte × Nat)} {s : List Byte} {p : Nat} (h : Spec.find (· == ·) m s = some p) : ∃ k, (k, p) ∈ m := by
  induction m with
  | nil => simp [Spec.find] at h
  | cons q m ih =>
    obtain ⟨k, d⟩ := q
    simp only [Spec.find] at h
    split at h
    · simp only [Option.some.injEq] at h
      exact ⟨k, by simp [h]⟩
    · obtain ⟨k', hk⟩ := ih h
      exact ⟨k', by simp [hk]⟩

theorem concrete_sim {σ : State} {π : Spec.Prs} (h : Sim σ π) (hg : π.gone = false) (s : List Byte) (hs : (0 : Byte) ∉ s) (rest : List Byte) :
    ∃ σ', concrete σ (some (s ++ 0 :: rest)) = .ok (σ', π.conc s) ∧ Sim σ' π := by
  obtain ⟨h1, h2, m, h3, h4⟩ := h
  unfold concrete
  rw [if_neg (by rw [h2, hg]; simp)]
  cases hx : σ.hash with
  | none =>
    rw [hx] at h4
    refine ⟨σ, ?_, h1, h2, m, h3, by rw [hx]; exact h4⟩
    simp only
    rw [h3.conc, h4.2]
    rfl
  | some t =>
    rw [hx] at h4
    obtain ⟨h5, h6⟩ := h4
    obtain ⟨t', e, h7⟩ := h6.retrieve hs rest
    simp only [e, okBind]
    rw [h3.conc]
    cases hf : Spec.find (· == ·) m s with
    | none =>
      refine ⟨{ σ with hash := some t' }, by simp, h1, h2, m, h3, h5, h7⟩
    | some p =>
      obtain ⟨k, hk⟩ := find_mem hf
      have hp := h3.pos _ hk
      have hl := h3.live _ hk
      simp only at hp hl
      simp only [Option.getD_some, Option.bind_some]
      have hp0 : p ≠ 0 := by omega
      rw [if_neg hp0]
      cases hm : σ.mem p with
      | none => exact absurd hm hl
      | some x => exact ⟨{ σ with hash := some t' }, rfl, h1, h2, m, h3, h5, h7⟩

theorem Rep.insert {m : List (List Byte × Nat)} {mem : Nat → Option (List Byte)} {fresh : Nat} {conc : List Byte → Option (List Byte)}
    (h : Rep m mem fresh conc) (hf : 0 < fresh) (s c : List Byte) :
    Rep (Spec.insert (· == ·) m s fresh).1 (fun q => if q = fresh then some c else mem q) (fresh + 1)
      (fun x => if x = s ∧ conc s = none then some c else conc x) := by
  have hne : ∀ n p, Spec.find (· == ·) m n = some p → p ≠ fresh ∧ mem p ≠ none := by
    intro n p hp
    obtain ⟨k, hk⟩ := find_mem hp
    have := h.pos _ hk
    simp only at this
    exact ⟨by omega, h.live _ hk⟩
  have hconc : ∀ n, (conc n = none ↔ Spec.find (· == ·) m n = none) := by
    intro n
    rw [h.conc]
    cases hx : Spec.find (· == ·) m n with
    | none => simp
    | some p => simp [(hne n p hx).2]
  cases hx : Spec.find (· == ·) m s with
  | some p =>
    simp only [Spec.insert, hx]
    have hc : conc s ≠ none := by rw [Ne, hconc, hx]; simp
    refine ⟨fun q hq => ?_, fun q hq => ?_, fun n => ?_⟩
    · have := h.pos q hq; omega
    · have := h.pos q hq
      rw [if_neg (by omega)]
      exact h.live q hq
    · rw [if_neg (fun e => hc e.2), h.conc]
      cases hn : Spec.find (· == ·) m n with
      | none => rfl
      | some p => simp [(hne n p hn).1]
  | none =>
    simp only [Spec.insert, hx]
    have hc : conc s = none := by rw [hconc, hx]
    refine ⟨fun q hq => ?_, fun q hq => ?_, fun n => ?_⟩
    · rcases List.mem_cons.1 hq with rfl | hq
      · exact ⟨hf, by simp⟩
      · have := h.pos q hq; omega
    · rcases List.mem_cons.1 hq with rfl | hq
      · simp
      · have := h.pos q hq
        rw [if_neg (by omega)]
        exact h.live q hq
    · simp only [Spec.find, hc, and_true]
      by_cases hn : n = s
      · subst hn
        simp
      · rw [if_neg hn, if_neg (by simpa using Ne.symm hn), h.conc]
        cases hn' : Spec.find (· == ·) m n with
        | none => rfl
        | some p => simp [(hne n p hn').1]

theorem step_sim (σ : State) (π : Spec.Prs) (o : PrsOp) (ho : o.Proper) (h : Sim σ π) :
    ResRel (fun c b => c.2 = b.2 ∧ Sim c.1 b.1) (step σ o) (Spec.prsStep π o) := by
  unfold Spec.prsStep
  by_cases hg : π.gone = true
  · rw [if_pos hg]
    have h2 : σ.freed = true := h.2.1.trans hg
    cases o with
    | register s c => simp only [step, register, h2, if_true]; exact trivial
    | concrete s => simp only [step, concrete, h2, if_true]; exact trivial
    | shutdown => simp only [step, shutdown, h2, if_true]; exact trivial
  · rw [if_neg hg]
    have hg' : π.gone = false := by simpa using hg
    have h2 : σ.freed = false := h.2.1.trans hg'
    cases o with
    | register s c =>
      obtain ⟨h1, -, m, h3, h4⟩ := h
      simp only [step, register, h2]
      have : ∃ t, check σ = .ok t ∧ NameTab.NRep t m := by
        unfold check
        cases hx : σ.hash with
        | some t => rw [hx] at h4; exact ⟨t, rfl, h4.2⟩
        | none =>
          rw [hx] at h4
          rw [h4.2]
          exact NameTab.create_rep
      obtain ⟨t, e, h5⟩ := this
      obtain ⟨t', e', h6⟩ := h5.insert (s := s) ho [] σ.fresh
      simp only [Bool.false_eq_true, if_false, e, okBind, CStr.ofStr, e']
      exact ⟨rfl, by simp, hg'.symm, _, h3.insert h1 s c, rfl, h6⟩
    | concrete s =>
      cases s with
      | some s =>
        obtain ⟨σ', e, h5⟩ := concrete_sim h hg' s ho []
        simp only [step, Option.map_some, CStr.ofStr, e]
        exact ⟨rfl, h5⟩
      | none =>
        obtain ⟨h1, h2', m, h3, h4⟩ := h
        simp only [step, concrete, h2, Option.map_none]
        cases hx : σ.hash with
        | none =>
          rw [hx] at h4
          rw [h4.1]
          exact ⟨rfl, h1, h2', m, h3, by rw [hx]; exact h4⟩
        | some t =>
          rw [hx] at h4
          rw [h4.1]
          exact trivial
    | shutdown =>
      obtain ⟨h1, h2', m, h3, h4⟩ := h
      simp only [step, shutdown, h2]
      cases hx : σ.hash with
      | none =>
        rw [hx] at h4
        exact ⟨rfl, h1, h2.trans h4.1.symm, m, h3, by simp only; rw [hx]; exact h4⟩
      | some t =>
        rw [hx] at h4
        simp only [Bool.false_eq_true, if_false, h4.2.destroy, okBind]
        exact ⟨rfl, h1, h4.1.symm, m, h3, by simp only; exact h4⟩

/-- C50, registered symbols: for every history of calls `prs_concrete` gives the form its argument was first registered with,
NULL if none. -/
theorem C50_concrete (hist : List PrsOp) (hp : ∀ o ∈ hist, o.Proper) :
    Spec.observe (Spec.run step State.init hist) = Spec.observe (Spec.run Spec.prsStep Spec.Prs.init hist) :=
  (Spec.run_sim_of PrsOp.Proper Sim step Spec.prsStep step_sim State.init Spec.Prs.init hist hp Sim.init).observe

/-- Two symbols, one registered twice. -/
example : Spec.observe (Spec.run step State.init
    [.concrete (some [84, 95, 65]), .register [84, 95, 65] [43], .register [84, 95, 66] [45], .register [84, 95, 65] [42],
      .concrete (some [84, 95, 65]), .concrete (some [84, 95, 66]), .concrete (some [84])]) =
    .ok [none, none, none, none, some [43], some [45], none] := by
  rw [C50_concrete _ (by simp [PrsOp.Proper])]
  decide +kernel

/-- C53: `_prs_shutdown` frees the table but keeps the pointer: a second shutdown, or any later use, is a use after free. -/
theorem C53_prs_refuted (s c : List Byte) (hs : (0 : Byte) ∉ s) (o : PrsOp) (ho : o.Proper) :
    Spec.observe (Spec.run step State.init [.register s c, .shutdown, o]) = .ub := by
  rw [C50_concrete _ (by
    intro o' ho'
    rcases List.mem_cons.1 ho' with rfl | ho'
    · exact hs
    · rcases List.mem_cons.1 ho' with rfl | ho'
      · exact trivial
      · rw [List.mem_singleton.1 ho']; exact ho)]
  simp [Spec.run, Spec.prsStep, Spec.Prs.init, Res.bind, Spec.observe]

end Maa.Prs

namespace Maa.Source

open Spec (Rewritten BeginsConst BeginsSymbol)

theorem isCharConst_eq (m rest : List Byte) (h0 : (0 : Byte) ∉ m) :
    ∃ b, isCharConst (96 :: (m ++ 0 :: rest)) = .ok b ∧ (b = true ↔ BeginsConst (96 :: m)) := by
  unfold isCharConst at_ BeginsConst
  match m with
  | [] => exact ⟨false, by simp [okBind], by simp⟩
  | [a] =>
    by_cases ha : a = 96
    · exact ⟨false, by simp [okBind, ha], by simp⟩
    · exact ⟨false, by simp [okBind, ha], by simp⟩
  | [a, b] =>
    by_cases ha : a = 96
    · simp only [List.mem_cons, not_or] at h0
      exact ⟨false, by simp [okBind, ha], by simp⟩
    · exact ⟨false, by simp [okBind, ha], by simp⟩
  | [a, b, c] =>
    refine ⟨false, ?_, by simp⟩
    simp only [List.mem_cons, not_or] at h0
    by_cases ha : a = 96
    · have : b ≠ 0 := Ne.symm h0.2.1
      by_cases hc : c = 39 <;> simp [okBind, ha, this, hc]
    · simp [okBind, ha]
  | a :: b :: c :: d :: m =>
    simp only [List.mem_cons, not_or] at h0
    have hb : b ≠ 0 := Ne.symm h0.2.1
    by_cases ha : a = 96
    · by_cases hc : c = 39
      · by_cases hd : d = 39
        · exact ⟨true, by simp [okBind, ha, hb, hc, hd], by simp [ha, hb, hc, hd]⟩
        · exact ⟨false, by simp [okBind, ha, hb, hc, hd], by simp [ha, hb, hc, hd]⟩
      · exact ⟨false, by simp [okBind, ha, hb, hc], by simp [ha, hc]⟩
    · exact ⟨false, by simp [okBind, ha], by simp [ha]⟩

theorem isSymbol_eq (m rest : List Byte) :
    ∃ b, isSymbol (96 :: (m ++ 0 :: rest)) = .ok b ∧ (b = true ↔ BeginsSymbol (96 :: m)) := by
  unfold isSymbol at_ BeginsSymbol
  match m with
  | [] => exact ⟨false, by simp [okBind], by simp⟩
  | [a] =>
    by_cases ha : a = 84
    · exact ⟨false, by simp [okBind, ha], by simp⟩
    · exact ⟨false, by simp [okBind, ha], by simp⟩
  | a :: b :: m =>
    by_cases ha : a = 84
    · by_cases hb : b = 95
      · exact ⟨true, by simp [okBind, ha, hb], by simp [ha, hb]⟩
      · exact ⟨false, by simp [okBind, ha, hb], by simp [ha, hb]⟩
    · exact ⟨false, by simp [okBind, ha], by simp [ha]⟩

theorem scanName_eq (name : List Byte) (c : Byte) (rest : List Byte) (h0 : (0 : Byte) ∉ name) (h39 : (39 : Byte) ∉ name) (hc : c = 0 ∨ c = 39) :
    scanName (name ++ c :: rest) = .ok (name, c :: rest) := by
  induction name with
  | nil => simp [scanName, hc]
  | cons a name ih =>
    simp only [List.mem_cons, not_or] at h0 h39
    simp only [List.cons_append, scanName]
    rw [if_neg (by rintro (h | h); exact h0.1 h.symm; exact h39.1 h.symm), ih h0.2 h39.2]
    rfl

theorem short_tail {a m : List Byte} (h : Spec.ShortNames (a ++ m)) : Spec.ShortNames m := by
  intro pre name post e h39
  exact h (a ++ pre) name post (by rw [e]; simp) h39

theorem yyLoop_ok {π : Spec.Prs} (hg : π.gone = false) {m out : List Byte} (hr : Rewritten π.conc m out) :
    ∀ (fuel : Nat) (σ : Prs.State) (rest : List Byte), m.length < fuel → Prs.Sim σ π → (0 : Byte) ∉ m → Spec.ShortNames m →
      ∃ σ', yyLoop fuel σ (m ++ 0 :: rest) = .ok (σ', out) ∧ Prs.Sim σ' π := by
  induction hr with
  | nil =>
    intro fuel σ rest hf hs _ _
    cases fuel with
    | zero => simp at hf
    | succ fuel => exact ⟨σ, by simp [yyLoop, at_, okBind], hs⟩
  | const c m out hc _ ih =>
    intro fuel σ rest hf hs h0 hsn
    cases fuel with
    | zero => simp at hf
    | succ fuel =>
      obtain ⟨σ', e, hs'⟩ := ih fuel σ rest (by simp only [List.length_cons] at hf; omega) hs
        (fun h => h0 (by simp [h])) (short_tail (a := [96, 96, c, 39, 39]) hsn)
      refine ⟨σ', ?_, hs'⟩
      simp [yyLoop, at_, okBind, isCharConst, hc, e]
  | symbol name m out h39 _ ih =>
    intro fuel σ rest hf hs h0 hsn
    cases fuel with
    | zero => simp at hf
    | succ fuel =>
      have hlen := hsn [] name m (by simp) h39
      have hn0 : (0 : Byte) ∉ 84 :: 95 :: name := by
        intro h
        apply h0
        simp only [List.mem_cons] at h
        rcases h with h | h | h
        · simp at h
        · simp at h
        · simp [h]
      have hn39 : (39 : Byte) ∉ 84 :: 95 :: name := by
        intro h
        simp only [List.mem_cons] at h
        rcases h with h | h | h
        · simp at h
        · simp at h
        · exact h39 h
      obtain ⟨σ1, e1, hs1⟩ := Prs.concrete_sim hs hg (84 :: 95 :: name) hn0 []
      obtain ⟨σ', e, hs'⟩ := ih fuel σ1 rest (by simp only [List.length_append, List.length_cons] at hf; omega) hs1
        (fun h => h0 (by simp [h])) (short_tail (a := 96 :: 84 :: 95 :: name ++ [39]) (by simpa using hsn))
      refine ⟨σ', ?_, hs'⟩
      have hsc := scanName_eq (84 :: 95 :: name) 39 (m ++ 0 :: rest) hn0 hn39 (Or.inr rfl)
      simp only [List.cons_append] at hsc e1
      simp only [List.cons_append, List.append_assoc, yyLoop, at_, List.getElem?_cons_zero, okBind, isCharConst,
        List.getElem?_cons_succ, isSymbol, List.drop_succ_cons, List.drop_zero, hsc, e1]
      simp [e, okBind]
      omega
  | other c m out hc1 hc2 _ ih =>
    intro fuel σ rest hf hs h0 hsn
    cases fuel with
    | zero => simp at hf
    | succ fuel =>
      obtain ⟨σ', e, hs'⟩ := ih fuel σ rest (by simp only [List.length_cons] at hf; omega) hs
        (fun h => h0 (by simp [h])) (short_tail (a := [c]) hsn)
      refine ⟨σ', ?_, hs'⟩
      have hc0 : c ≠ 0 := fun h => h0 (by simp [h])
      by_cases hc : c = 96
      · subst hc
        obtain ⟨b1, e1, k1⟩ := isCharConst_eq m rest (fun h => h0 (by simp [h]))
        obtain ⟨b2, e2, k2⟩ := isSymbol_eq m rest
        have : b1 = false := by cases b1; rfl; exact absurd (k1.1 rfl) hc1
        subst this
        have : b2 = false := by cases b2; rfl; exact absurd (k2.1 rfl) hc2
        subst this
        simp [yyLoop, at_, okBind, e1, e2, e]
      · simp [yyLoop, at_, okBind, hc, hc0, e]

/-- the first quote -/
theorem first_quote {l : List Byte} (h : (39 : Byte) ∈ l) : ∃ name post, l = name ++ 39 :: post ∧ (39 : Byte) ∉ name := by
  induction l with
  | nil => simp at h
  | cons c l ih =>
    by_cases hc : c = 39
    · exact ⟨[], l, by simp [hc], by simp⟩
    · obtain ⟨name, post, e, h'⟩ := ih ((List.mem_cons.1 h).resolve_left (Ne.symm hc))
      exact ⟨c :: name, post, by simp [e], by simp [h', Ne.symm hc]⟩

theorem first_quote_unique {n1 n2 p1 p2 : List Byte} (e : n1 ++ (39 : Byte) :: p1 = n2 ++ 39 :: p2) (h1 : (39 : Byte) ∉ n1) (h2 : (39 : Byte) ∉ n2) :
    n1 = n2 ∧ p1 = p2 := by
  induction n1 generalizing n2 with
  | nil =>
    cases n2 with
    | nil => simpa using e
    | cons c n2 =>
      simp only [List.nil_append, List.cons_append, List.cons.injEq] at e
      exact absurd (by simp [← e.1]) h2
  | cons a n1 ih =>
    cases n2 with
    | nil =>
      simp only [List.nil_append, List.cons_append, List.cons.injEq] at e
      exact absurd (by simp [e.1]) h1
    | cons c n2 =>
      simp only [List.cons_append, List.cons.injEq] at e
      obtain ⟨k1, k2⟩ := ih e.2 (fun h => h1 (by simp [h])) (fun h => h2 (by simp [h]))
      exact ⟨by rw [e.1, k1], k2⟩

/-- C50: the rules give at most one result. -/
theorem C50_unique {conc : List Byte → Option (List Byte)} {m o1 o2 : List Byte} (h1 : Rewritten conc m o1) (h2 : Rewritten conc m o2) :
    o1 = o2 := by
  induction h1 generalizing o2 with
  | nil => cases h2; rfl
  | const c m out hc _ ih =>
    cases h2 with
    | const _ _ out2 _ h => rw [ih h]
    | other _ _ _ hb _ _ => exact absurd ⟨c, m, hc, rfl⟩ hb
  | symbol name m out h39 _ ih =>
    generalize hw : 96 :: 84 :: 95 :: name ++ 39 :: m = w at h2
    cases h2 with
    | nil => simp at hw
    | const _ _ _ _ _ => simp at hw
    | symbol name2 m2 out2 h39' h =>
      simp only [List.cons_append, List.cons.injEq, true_and] at hw
      obtain ⟨rfl, rfl⟩ := first_quote_unique hw h39 h39'
      rw [ih h]
    | other c2 m2 out2 _ hb _ =>
      exact absurd ⟨name ++ 39 :: m, by rw [← hw]; rfl⟩ hb
  | other c m out hb1 hb2 _ ih =>
    generalize hw : c :: m = w at h2
    cases h2 with
    | nil => simp at hw
    | const c2 m2 _ hc _ => exact absurd ⟨c2, m2, hc, hw⟩ hb1
    | symbol name2 m2 out2 _ _ => exact absurd ⟨name2 ++ 39 :: m2, hw⟩ hb2
    | other c2 m2 out2 _ _ h =>
      simp only [List.cons.injEq] at hw
      obtain ⟨rfl, rfl⟩ := hw
      rw [ih h]

theorem closed_tail {a m : List Byte} (h : Spec.Closed (a ++ m)) : Spec.Closed m := by
  intro pre post e
  exact h (a ++ pre) post (by rw [e]; simp)

theorem total_aux (conc : List Byte → Option (List Byte)) (n : Nat) : ∀ m : List Byte, m.length < n → Spec.Closed m → ∃ out, Rewritten conc m out := by
  induction n with
  | zero => intro m h; omega
  | succ n ih =>
    intro m hl hc
    cases m with
    | nil => exact ⟨[], .nil⟩
    | cons c m =>
      by_cases h1 : BeginsConst (c :: m)
      · obtain ⟨d, r, hd, e⟩ := h1
        rw [e] at hc hl ⊢
        obtain ⟨out, ho⟩ := ih r (by simp only [List.length_cons] at hl; omega) (closed_tail (a := [96, 96, d, 39, 39]) hc)
        exact ⟨_, .const d r out hd ho⟩
      · by_cases h2 : BeginsSymbol (c :: m)
        · obtain ⟨r, e⟩ := h2
          rw [e] at hc hl ⊢
          obtain ⟨name, post, e', h39⟩ := first_quote (hc [] r rfl)
          subst e'
          obtain ⟨out, ho⟩ := ih post (by simp only [List.length_cons, List.length_append] at hl; omega)
            (closed_tail (a := 96 :: 84 :: 95 :: name ++ [39]) (by simpa using hc))
          exact ⟨_, .symbol name post out h39 ho⟩
        · obtain ⟨out, ho⟩ := ih m (by simp only [List.length_cons] at hl; omega) (closed_tail (a := [c]) hc)
          exact ⟨_, .other c m out h1 h2 ho⟩

/-- C50: the rules give a result for every message whose symbols are all closed. -/
theorem C50_total (conc : List Byte → Option (List Byte)) (m : List Byte) (h : Spec.Closed m) : ∃ out, Rewritten conc m out :=
  total_aux conc (m.length + 1) m (by omega) h

theorem run_form (hist : List Spec.PrsOp) (hd : Spec.PrsOp.shutdown ∉ hist) : ∀ {π π' : Spec.Prs} {vs : List (Option (List Byte))}, π.gone = false →
    Spec.run Spec.prsStep π hist = .ok (π', vs) → π'.gone = false ∧ ∀ s, π'.conc s = (π.conc s).or (Spec.formAfter hist s) := by
  induction hist with
  | nil =>
    intro π π' vs hg e
    simp only [Spec.run, Res.ok.injEq, Prod.mk.injEq] at e
    rw [← e.1]
    exact ⟨hg, fun s => by simp [Spec.formAfter]⟩
  | cons o os ih =>
    intro π π' vs hg e
    simp only [List.mem_cons, not_or] at hd
    simp only [Spec.run] at e
    cases h1 : Spec.prsStep π o <;> rw [h1] at e <;> simp only [Res.bind] at e
    any_goals simp at e
    rename_i r
    cases h2 : Spec.run Spec.prsStep r.1 os <;> rw [h2] at e <;> simp only at e
    any_goals simp at e
    rename_i q
    unfold Spec.prsStep at h1
    rw [if_neg (by simp [hg])] at h1
    have key : r.1.gone = false ∧ ∀ s, r.1.conc s = (π.conc s).or (Spec.formAfter [o] s) := by
      cases o with
      | register x c =>
        simp only [Res.ok.injEq] at h1
        rw [← h1]
        refine ⟨hg, fun s => ?_⟩
        simp only [Spec.formAfter, List.findSome?_cons, List.findSome?_nil]
        by_cases hx : s = x
        · subst hx
          cases hc : π.conc s <;> simp
        · cases hc : π.conc s <;> simp [hx, Ne.symm hx]
      | concrete x =>
        cases x with
        | none =>
          simp only at h1
          split at h1
          · simp at h1
          · simp only [Res.ok.injEq] at h1
            rw [← h1]
            exact ⟨hg, fun s => by simp [Spec.formAfter]⟩
        | some x =>
          simp only [Res.ok.injEq] at h1
          rw [← h1]
          exact ⟨hg, fun s => by simp [Spec.formAfter]⟩
      | shutdown => exact absurd rfl hd.1
    obtain ⟨k1, k2⟩ := ih hd.2 key.1 h2
    rw [← e.1]
    refine ⟨k1, fun s => ?_⟩
    rw [k2, key.2, Option.or_assoc]
    congr 1
    simp only [Spec.formAfter, List.findSome?_cons, List.findSome?_nil]
    split <;> simp

/-- the state after registrations -/
theorem reach {hist : List Spec.PrsOp} (hp : ∀ o ∈ hist, o.Proper) (hd : Spec.PrsOp.shutdown ∉ hist) {π : Prs.State} {outs : List (Option (List Byte))}
    (hr : Spec.run Prs.step Prs.State.init hist = .ok (π, outs)) :
    ∃ Q, Prs.Sim π Q ∧ Q.gone = false ∧ Q.conc = Spec.formAfter hist := by
  have h := Spec.run_sim_of Spec.PrsOp.Proper Prs.Sim Prs.step Spec.prsStep Prs.step_sim Prs.State.init Spec.Prs.init hist hp Prs.Sim.init
  rw [hr] at h
  cases hx : Spec.run Spec.prsStep Spec.Prs.init hist <;> rw [hx] at h <;> simp only [Spec.ResRel] at h
  rename_i q
  obtain ⟨k1, k2⟩ := run_form hist hd (π := Spec.Prs.init) rfl hx
  exact ⟨q.1, h.2, k1, funext fun s => by rw [k2]; simp [Spec.Prs.init]⟩

/-- C50, partial: whatever has been registered and looked up before, a message whose symbols are all closed and shorter than
1024 characters is printed as the rules rewrite it, with the forms registered first; no byte beyond the message's NUL matters
(`rest`, which may be empty).  Missing: messages with an open or a longer symbol, on which the code is wrong (below). -/
theorem C50_rewriting_partial (hist : List Spec.PrsOp) (hp : ∀ o ∈ hist, o.Proper) (hd : Spec.PrsOp.shutdown ∉ hist) (π : Prs.State)
    (outs : List (Option (List Byte))) (hr : Spec.run Prs.step Prs.State.init hist = .ok (π, outs)) (m rest : List Byte)
    (h0 : (0 : Byte) ∉ m) (hc : Spec.Closed m) (hs : Spec.ShortNames m) :
    ∃ π' out, printYyerror π (some (m ++ 0 :: rest)) = .ok (π', out) ∧ Rewritten (Spec.formAfter hist) m out := by
  obtain ⟨Q, k1, k2, k3⟩ := reach hp hd hr
  obtain ⟨out, ho⟩ := C50_total Q.conc m hc
  obtain ⟨σ', e, -⟩ := yyLoop_ok k2 ho ((m ++ 0 :: rest).length + 1) π rest (by simp) k1 h0 hs
  exact ⟨σ', out, e, k3 ▸ ho⟩

/-- x `T_P', ``;'' with T_P registered as +: gives x `+', `;'. -/
example : ∃ π outs π', Spec.run Prs.step Prs.State.init [.register [84, 95, 80] [43]] = .ok (π, outs) ∧
    printYyerror π (some [120, 32, 96, 84, 95, 80, 39, 44, 32, 96, 96, 59, 39, 39, 0]) = .ok (π', [120, 32, 96, 43, 39, 44, 32, 96, 59, 39]) :=
  ⟨_, _, _, rfl, rfl⟩

/-- Its message is closed and has short names. -/
example : Spec.ShortNames [120, 32, 96, 84, 95, 80, 39] := by
  intro pre name post e _
  have := congrArg List.length e
  simp at this
  omega

/-- what happens to a message outside the rules -/
theorem yyLoop_ub {π : Spec.Prs} (hg : π.gone = false) (n : Nat) : ∀ (m : List Byte) (fuel : Nat) (σ : Prs.State), m.length < n →
    Prs.Sim σ π → (0 : Byte) ∉ m → (¬ ∃ out, Rewritten π.conc m out) → yyLoop fuel σ (m ++ [0]) = .ub := by
  induction n with
  | zero => intro m _ _ h; omega
  | succ n ih =>
    intro m fuel σ hl hs h0 hno
    cases fuel with
    | zero => rfl
    | succ fuel =>
      cases m with
      | nil => exact absurd ⟨[], .nil⟩ hno
      | cons c m =>
        have hc0 : c ≠ 0 := fun h => h0 (by simp [h])
        by_cases h1 : BeginsConst (c :: m)
        · obtain ⟨d, r, hd, e⟩ := h1
          rw [e] at h0 hl hno ⊢
          have := ih r fuel σ (by simp only [List.length_cons] at hl; omega) hs (fun h => h0 (by simp [h]))
            (fun ⟨out, ho⟩ => hno ⟨_, .const d r out hd ho⟩)
          simp [yyLoop, at_, okBind, isCharConst, hd, this, Res.bind]
        · by_cases h2 : BeginsSymbol (c :: m)
          · obtain ⟨r, e⟩ := h2
            rw [e] at h0 hl hno ⊢
            have key : ∀ (name post : List Byte) (d : Byte), d = 0 ∨ d = 39 → r ++ [0] = name ++ d :: post → (0 : Byte) ∉ name → (39 : Byte) ∉ name →
                (∀ σ1, Prs.Sim σ1 π → yyLoop fuel σ1 post = .ub) → yyLoop (fuel + 1) σ (96 :: 84 :: 95 :: r ++ [0]) = .ub := by
              intro name post d hd he hn0 hn39 hrec
              have hn0' : (0 : Byte) ∉ 84 :: 95 :: name := by simpa using hn0
              have hn39' : (39 : Byte) ∉ 84 :: 95 :: name := by simpa using hn39
              obtain ⟨σ1, e1, hs1⟩ := Prs.concrete_sim hs hg (84 :: 95 :: name) hn0' []
              have hsc := scanName_eq (84 :: 95 :: name) d post hn0' hn39' hd
              simp only [List.cons_append] at hsc e1
              rw [← he] at hsc
              simp only [List.cons_append, yyLoop, at_, List.getElem?_cons_zero, okBind, isCharConst,
                List.getElem?_cons_succ, isSymbol, List.drop_succ_cons, List.drop_zero, hsc, e1]
              simp [hrec σ1 hs1, Res.bind]
            by_cases h39 : (39 : Byte) ∈ r
            · obtain ⟨name, post, e', hn⟩ := first_quote h39
              subst e'
              refine key name (post ++ [0]) 39 (Or.inr rfl) (by simp) (fun h => h0 (by simp [h])) hn fun σ1 hs1 => ?_
              exact ih post fuel σ1 (by simp only [List.length_cons, List.length_append] at hl; omega) hs1 (fun h => h0 (by simp [h]))
                (fun ⟨out, ho⟩ => hno ⟨_, .symbol name post out hn ho⟩)
            · refine key r [] 0 (Or.inl rfl) rfl (fun h => h0 (by simp [h])) h39 fun σ1 _ => ?_
              cases fuel <;> rfl
          · have := ih m fuel σ (by simp only [List.length_cons] at hl; omega) hs (fun h => h0 (by simp [h]))
              (fun ⟨out, ho⟩ => hno ⟨_, .other c m out h1 h2 ho⟩)
            by_cases hc : c = 96
            · subst hc
              obtain ⟨b1, e1, k1⟩ := isCharConst_eq m [] (fun h => h0 (by simp [h]))
              obtain ⟨b2, e2, k2⟩ := isSymbol_eq m []
              have : b1 = false := by cases b1; rfl; exact absurd (k1.1 rfl) h1
              subst this
              have : b2 = false := by cases b2; rfl; exact absurd (k2.1 rfl) h2
              subst this
              simp [yyLoop, at_, okBind, e1, e2, this, *, Res.bind]
            · simp [yyLoop, at_, okBind, hc, hc0, this, Res.bind]

/-- C50 fails for a message with a symbol that is not closed: the code reads past the end of the message. -/
theorem C50_open_symbol_refuted (hist : List Spec.PrsOp) (hp : ∀ o ∈ hist, o.Proper) (hd : Spec.PrsOp.shutdown ∉ hist) (π : Prs.State)
    (outs : List (Option (List Byte))) (hr : Spec.run Prs.step Prs.State.init hist = .ok (π, outs)) (m : List Byte)
    (h0 : (0 : Byte) ∉ m) (hno : ¬ ∃ out, Rewritten (Spec.formAfter hist) m out) : printYyerror π (some (m ++ [0])) = .ub := by
  obtain ⟨Q, k1, k2, k3⟩ := reach hp hd hr
  exact yyLoop_ub k2 (m.length + 1) m _ π (by omega) k1 h0 (k3 ▸ hno)

/-- An open symbol: `T_x and nothing more. -/
example (conc : List Byte → Option (List Byte)) : ¬ ∃ out, Rewritten conc [96, 84, 95, 120] out := by
  rintro ⟨out, h⟩
  generalize hw : ([96, 84, 95, 120] : List Byte) = w at h
  cases h with
  | nil => simp at hw
  | const _ _ _ _ _ => simp at hw
  | symbol name m out h39 h =>
    have := congrArg (fun l => (39 : Byte) ∈ l) hw
    simp at this
  | other c m out _ hb _ => exact hb ⟨[120], hw.symm⟩

/-- C50 fails for long symbols: 1022 characters after `T_` overflow the buffer. -/
theorem C50_long_symbol_refuted (π : Prs.State) (name post : List Byte) (h0 : (0 : Byte) ∉ name) (h39 : (39 : Byte) ∉ name)
    (hl : 1022 ≤ name.length) : printYyerror π (some (96 :: 84 :: 95 :: name ++ 39 :: post)) = .ub := by
  have hn0' : (0 : Byte) ∉ 84 :: 95 :: name := by simpa using h0
  have hn39' : (39 : Byte) ∉ 84 :: 95 :: name := by simpa using h39
  have hsc := scanName_eq (84 :: 95 :: name) 39 post hn0' hn39' (Or.inr rfl)
  simp only [List.cons_append] at hsc
  simp only [printYyerror, List.cons_append, yyLoop, at_, List.getElem?_cons_zero, okBind, isCharConst,
    List.getElem?_cons_succ, isSymbol, List.drop_succ_cons, List.drop_zero, hsc]
  rw [if_pos (show (84 :: 95 :: name).length ≥ 1024 by simp only [List.length_cons]; omega)]
  rfl

/-- C50, partial, the whole of `src_parse_error`: after any history of the source manager, for a token with a file name and a
stored line, and a message as above: label and rewritten message, labelled line, label and marks. -/
theorem C50_parse_error_partial (hist : List Spec.PrsOp) (hp : ∀ o ∈ hist, o.Proper) (hd : Spec.PrsOp.shutdown ∉ hist) (π : Prs.State)
    (outs : List (Option (List Byte))) (hr : Spec.run Prs.step Prs.State.init hist = .ok (π, outs)) (m rest : List Byte)
    (h0 : (0 : Byte) ∉ m) (hc : Spec.Closed m) (hs : Spec.ShortNames m)
    (shist : List Spec.SrcOp) (σ : State) (souts : List Spec.SrcVal) (hsr : Spec.run step State.init shist = .ok (σ, souts))
    (S : Spec.Src) (vs : List Spec.SrcVal) (hS : Spec.run Spec.srcStep Spec.Src.init shist = .ok (S, vs))
    (p : Nat) (t : Spec.Token) (f line : List Byte) (hp0 : p ≠ 0) (ht : S.tokens p = some t) (hf : t.file = some f)
    (hl : S.text t.serial = some line) :
    let label := f ++ [58] ++ Spec.decimalInt t.line ++ [58, 32]
    ∃ π' out, Rewritten (Spec.formAfter hist) m out ∧
      srcParseError σ π p (some (m ++ 0 :: rest)) = .ok (π', label ++ out ++ [10] ++
        (label ++ line ++ label ++ List.replicate t.offset.toNat 32 ++ List.replicate t.length.toNat 94 ++ [10])) := by
  obtain ⟨π', out, e, ho⟩ := C50_rewriting_partial hist hp hd π outs hr m rest h0 hc hs
  refine ⟨π', out, ho, ?_⟩
  have hsim := Spec.run_sim Sim step Spec.srcStep step_sim State.init Spec.Src.init shist Sim.init
  rw [hsr, hS] at hsim
  have hsim : Sim σ S := hsim.2
  have ht' := hsim.toks p
  rw [ht] at ht'
  cases hi : σ.toks p with
  | none => rw [hi] at ht'; simp at ht'
  | some i =>
    rw [hi] at ht'
    simp only [Option.map_some, Option.some.injEq] at ht'
    have hlines : σ.lines ≠ none := by
      intro h
      have := hsim.main
      rw [h] at this
      have := this.2 p
      rw [ht] at this
      simp at this
    unfold srcParseError deref
    rw [if_neg hp0, hi]
    simp only [okBind, prefix_sim, ht', printErrorLine_sim hsim hlines, e]
    simp only [Spec.label, hf, okBind, Spec.Src.showMarked, Spec.Src.showLine, Spec.Src.lineOf, hl, Spec.carets, List.append_assoc]

/-- C50, `src_parse_error` without a message: "(null)" in the place of the message. -/
theorem C50_no_message (π : Prs.State)
    (shist : List Spec.SrcOp) (σ : State) (souts : List Spec.SrcVal) (hsr : Spec.run step State.init shist = .ok (σ, souts))
    (S : Spec.Src) (vs : List Spec.SrcVal) (hS : Spec.run Spec.srcStep Spec.Src.init shist = .ok (S, vs))
    (p : Nat) (t : Spec.Token) (f line : List Byte) (hp0 : p ≠ 0) (ht : S.tokens p = some t) (hf : t.file = some f)
    (hl : S.text t.serial = some line) :
    let label := f ++ [58] ++ Spec.decimalInt t.line ++ [58, 32]
    srcParseError σ π p none = .ok (π, label ++ "(null)\n".toUTF8.toList ++
        (label ++ line ++ label ++ List.replicate t.offset.toNat 32 ++ List.replicate t.length.toNat 94 ++ [10])) := by
  have hsim := Spec.run_sim Sim step Spec.srcStep step_sim State.init Spec.Src.init shist Sim.init
  rw [hsr, hS] at hsim
  have hsim : Sim σ S := hsim.2
  have ht' := hsim.toks p
  rw [ht] at ht'
  have en : "(null)\n".toUTF8.toList = [40, 110, 117, 108, 108, 41, 10] := by decide +kernel
  cases hi : σ.toks p with
  | none => rw [hi] at ht'; simp at ht'
  | some i =>
    rw [hi] at ht'
    simp only [Option.map_some, Option.some.injEq] at ht'
    have hlines : σ.lines ≠ none := by
      intro h
      have := hsim.main
      rw [h] at this
      have := this.2 p
      rw [ht] at this
      simp at this
    unfold srcParseError deref
    rw [if_neg hp0, hi]
    simp only [okBind, prefix_sim, ht', printErrorLine_sim hsim hlines, printYyerror, en]
    simp [Spec.label, hf, okBind, Spec.Src.showMarked, Spec.Src.showLine, Spec.Src.lineOf, hl, Spec.carets, List.append_assoc]

/-- C50, `src_parse_error` without a token, in any state: the same with a general label and no marks. -/
theorem C50_no_token (hist : List Spec.PrsOp) (hp : ∀ o ∈ hist, o.Proper) (hd : Spec.PrsOp.shutdown ∉ hist) (π : Prs.State)
    (outs : List (Option (List Byte))) (hr : Spec.run Prs.step Prs.State.init hist = .ok (π, outs)) (m rest : List Byte)
    (h0 : (0 : Byte) ∉ m) (hc : Spec.Closed m) (hs : Spec.ShortNames m) (σ : State) :
    ∃ π' out, Rewritten (Spec.formAfter hist) m out ∧
      srcParseError σ π 0 (some (m ++ 0 :: rest)) = .ok (π', "?:?: ".toUTF8.toList ++ out ++ [10] ++
        "?:?: <source line not available>\n?:?: \n".toUTF8.toList) := by
  obtain ⟨π', out, e, ho⟩ := C50_rewriting_partial hist hp hd π outs hr m rest h0 hc hs
  refine ⟨π', out, ho, ?_⟩
  have e1 : "?:?: ".toUTF8.toList = [63, 58, 63, 58, 32] := by decide +kernel
  have e2 : "?:?: <source line not available>\n?:?: \n".toUTF8.toList =
    [63, 58, 63, 58, 32] ++ "<source line not available>\n".toUTF8.toList ++ [63, 58, 63, 58, 32] ++ [10] := by decide +kernel
  unfold srcParseError deref
  rw [if_pos rfl]
  simp only [okBind, prefix_, e, printErrorLine, printLine, e1, e2]
  simp
  decide +kernel

/-! ## `#line` lines -/

theorem part_nul {st : Spec.Style} {p : Spec.Part} (h : p.Ok st) : (0 : Byte) ∉ p.val := by
  cases p with
  | plain c => simp only [Spec.Part.Ok] at h; simp [Spec.Part.val, Ne.symm h.1]
  | escaped c => simp only [Spec.Part.Ok] at h; simp [Spec.Part.val, Ne.symm h.1]
  | quoted d body => simp only [Spec.Part.Ok] at h; exact h.2.2.2

theorem vals_nul {st : Spec.Style} {ps : List Spec.Part} (h : ∀ p ∈ ps, p.Ok st) : (0 : Byte) ∉ Spec.vals ps := by
  intro hc
  obtain ⟨p, hp, hc⟩ := List.mem_flatMap.1 hc
  exact part_nul (h p hp) hc

theorem splits_nul {st : Spec.Style} {text : List Byte} {items : List (List Byte)} (h : Spec.Splits st text items) : ∀ w ∈ items, (0 : Byte) ∉ w := by
  induction h with
  | nil => simp
  | blank b t items _ _ ih => exact ih
  | word ps t items _ hp _ _ ih =>
    intro w hw
    rcases List.mem_cons.1 hw with rfl | hw
    · exact vals_nul hp
    · exact ih w hw
  | openEscape ps hp _ =>
    intro w hw
    rw [List.mem_singleton.1 hw]
    exact vals_nul hp
  | openQuote ps d body hp _ _ _ h0 =>
    intro w hw
    rw [List.mem_singleton.1 hw]
    intro hc
    rcases List.mem_append.1 hc with hc | hc
    · exact vals_nul hp hc
    · exact h0 hc


theorem strncpy_eq (text rest : List Byte) (h0 : (0 : Byte) ∉ text) : strncpy (text ++ rest) text.length = .ok text := by
  induction text with
  | nil => cases rest <;> rfl
  | cons c text ih =>
    simp only [List.mem_cons, not_or] at h0
    simp only [List.cons_append, List.length_cons, strncpy, if_neg (Ne.symm h0.1), ih h0.2]
    rfl

theorem digits_append (a b : List Byte) (ha : ∀ c ∈ a, 48 ≤ c.toNat ∧ c.toNat ≤ 57) : ∀ acc, digits (a ++ b) acc = digits b (digits a acc) := by
  induction a with
  | nil => intro acc; rfl
  | cons c a ih =>
    intro acc
    simp only [List.cons_append, digits, if_pos (ha c (by simp))]
    exact ih (fun c hc => ha c (by simp [hc])) _

theorem digit_toNat (d : Nat) (h : d < 10) : (UInt8.ofNat (48 + d)).toNat = 48 + d := by
  simp only [UInt8.toNat_ofNat']
  omega

theorem decimal_digits (n : Nat) : (∀ c ∈ Spec.decimal n, 48 ≤ c.toNat ∧ c.toNat ≤ 57) ∧ digits (Spec.decimal n) 0 = n := by
  induction n using Nat.strongRecOn with
  | ind n ih =>
    rw [Spec.decimal_eq]
    by_cases hn : n < 10
    · rw [if_pos hn]
      have := digit_toNat n hn
      refine ⟨fun c hc => ?_, ?_⟩
      · rw [List.mem_singleton.1 hc, this]; omega
      · simp only [digits, this]
        rw [if_pos (by omega)]
        omega
    · rw [if_neg hn]
      obtain ⟨h1, h2⟩ := ih (n / 10) (by omega)
      have := digit_toNat (n % 10) (by omega)
      refine ⟨fun c hc => ?_, ?_⟩
      · rcases List.mem_append.1 hc with hc | hc
        · exact h1 c hc
        · rw [List.mem_singleton.1 hc, this]; omega
      · rw [digits_append _ _ h1, h2]
        simp only [digits, this]
        rw [if_pos (by omega)]
        omega

theorem atoi_decimal (n : Nat) (h : n < 2 ^ 31) : atoi (Spec.decimal n) = .ok n := by
  obtain ⟨h1, h2⟩ := decimal_digits n
  have hd : (Spec.decimal n).dropWhile (fun c => c = 32 ∨ (9 ≤ c.toNat ∧ c.toNat ≤ 13)) = Spec.decimal n := by
    cases hx : Spec.decimal n with
    | nil => rfl
    | cons c cs =>
      have := h1 c (by simp [hx])
      rw [List.dropWhile_cons_of_neg]
      simp only [Bool.decide_or, Bool.decide_and, Bool.or_eq_true, decide_eq_true_eq, Bool.and_eq_true, not_or]
      refine ⟨fun e => ?_, by omega⟩
      rw [e] at this
      simp at this
  unfold atoi
  simp only [hd]
  have hv : signedDigits (Spec.decimal n) = (n : Int) := by
    cases hx : Spec.decimal n with
    | nil =>
      rw [hx] at h2
      simp only [digits] at h2
      simp [signedDigits, ← h2]
    | cons c cs =>
      have hc := h1 c (by simp [hx])
      have c1 : c ≠ 45 := by rintro rfl; simp at hc
      have c2 : c ≠ 43 := by rintro rfl; simp at hc
      simp only [signedDigits, if_neg c1, if_neg c2]
      rw [← hx, h2]
  rw [hv, if_pos (by omega)]

theorem digits_value (ds more : List Byte) (hd : ∀ c ∈ ds, Spec.IsDigit c) (hm : ∀ c, more.head? = some c → ¬ Spec.IsDigit c) :
    ∀ acc, digits (ds ++ more) acc = ds.foldl (fun v c => 10 * v + (c.toNat - 48)) acc := by
  induction ds with
  | nil =>
    intro acc
    cases more with
    | nil => rfl
    | cons c more => simp only [List.nil_append, digits, if_neg (show ¬ (48 ≤ c.toNat ∧ c.toNat ≤ 57) from hm c rfl)]; rfl
  | cons c ds ih =>
    intro acc
    simp only [List.cons_append, digits, if_pos (show 48 ≤ c.toNat ∧ c.toNat ≤ 57 from hd c (by simp)), List.foldl_cons]
    rw [ih (fun c hc => hd c (by simp [hc])), Nat.mul_comm]

theorem dropBlanks (blanks rest : List Byte) (hb : ∀ c ∈ blanks, Spec.IsSpace c) (hr : ∀ c, rest.head? = some c → ¬ Spec.IsSpace c) :
    (blanks ++ rest).dropWhile (fun c => decide (c = 32 ∨ (9 ≤ c.toNat ∧ c.toNat ≤ 13))) = rest := by
  induction blanks with
  | nil =>
    cases rest with
    | nil => rfl
    | cons c rest =>
      rw [List.nil_append, List.dropWhile_cons_of_neg]
      simpa [Spec.IsSpace] using hr c rfl
  | cons c blanks ih =>
    rw [List.cons_append, List.dropWhile_cons_of_pos (by simpa [Spec.IsSpace] using hb c (by simp))]
    exact ih (fun c hc => hb c (by simp [hc]))

theorem digit_not_space {c : Byte} (h : Spec.IsDigit c) : ¬ Spec.IsSpace c := by
  rintro (rfl | h')
  · simp [Spec.IsDigit] at h
  · have := h.1; omega

theorem atoi_number (w : List Byte) (v : Int) (h : Spec.BeginsWithNumber w v) (hv : -2 ^ 31 ≤ v ∧ v < 2 ^ 31) : atoi w = .ok v := by
  obtain ⟨blanks, sign, ds, more, rfl, hb, hne, hd, hm, hs⟩ := h
  have hval : ∀ acc, digits (ds ++ more) acc = ds.foldl (fun v c => 10 * v + (c.toNat - 48)) acc := digits_value ds more hd hm
  have hsd : signedDigits (sign ++ ds ++ more) = v := by
    rcases hs with ⟨rfl, rfl⟩ | ⟨rfl, rfl⟩ | ⟨rfl, rfl⟩
    · cases ds with
      | nil => exact absurd rfl hne
      | cons c ds =>
        have hc := hd c (by simp)
        have c1 : c ≠ 45 := by rintro rfl; simp [Spec.IsDigit] at hc
        have c2 : c ≠ 43 := by rintro rfl; simp [Spec.IsDigit] at hc
        simp only [List.nil_append, List.cons_append, signedDigits, if_neg c1, if_neg c2]
        exact congrArg Int.ofNat (hval 0)
    · simp only [List.cons_append, List.nil_append, signedDigits]
      rw [hval 0]; simp [Spec.valueOf]
    · simp only [List.cons_append, List.nil_append, signedDigits]
      rw [hval 0]; simp [Spec.valueOf]
  have hr : ∀ c, (sign ++ ds ++ more).head? = some c → ¬ Spec.IsSpace c := by
    intro c hc
    rcases hs with ⟨rfl, -⟩ | ⟨rfl, -⟩ | ⟨rfl, -⟩
    · cases ds with
      | nil => exact absurd rfl hne
      | cons d ds =>
        simp only [List.nil_append, List.cons_append, List.head?_cons, Option.some.injEq] at hc
        exact digit_not_space (hc ▸ hd d (by simp))
    · simp only [List.cons_append, List.head?_cons, Option.some.injEq] at hc
      rw [← hc]; simp [Spec.IsSpace]
    · simp only [List.cons_append, List.head?_cons, Option.some.injEq] at hc
      rw [← hc]; simp [Spec.IsSpace]
  unfold atoi
  simp only [List.append_assoc] at hr hsd ⊢
  simp only [dropBlanks blanks _ hb hr, hsd, if_pos hv]

theorem digits_split (l : List Byte) : ∃ ds more, l = ds ++ more ∧ (∀ c ∈ ds, Spec.IsDigit c) ∧ ∀ c, more.head? = some c → ¬ Spec.IsDigit c := by
  induction l with
  | nil => exact ⟨[], [], rfl, by simp, by simp⟩
  | cons c l ih =>
    by_cases hc : Spec.IsDigit c
    · obtain ⟨ds, more, rfl, h1, h2⟩ := ih
      exact ⟨c :: ds, more, rfl, by simpa [hc] using h1, h2⟩
    · exact ⟨[], c :: l, rfl, by simp, by simpa using hc⟩

theorem blanks_split (l : List Byte) : ∃ ds more, l = ds ++ more ∧ (∀ c ∈ ds, Spec.IsSpace c) ∧ ∀ c, more.head? = some c → ¬ Spec.IsSpace c := by
  induction l with
  | nil => exact ⟨[], [], rfl, by simp, by simp⟩
  | cons c l ih =>
    by_cases hc : Spec.IsSpace c
    · obtain ⟨ds, more, rfl, h1, h2⟩ := ih
      exact ⟨c :: ds, more, rfl, by simpa [hc] using h1, h2⟩
    · exact ⟨[], c :: l, rfl, by simp, by simpa using hc⟩

theorem atoi_noNumber (w : List Byte) (h : Spec.NoNumber w) : atoi w = .ok 0 := by
  obtain ⟨blanks, rest, rfl, hb, hr⟩ := blanks_split w
  have zero : ∀ l : List Byte, (∀ c, l.head? = some c → ¬ Spec.IsDigit c) → digits l 0 = 0 := by
    intro l hl
    exact digits_value [] l (by simp) hl 0
  have hsd : signedDigits rest = 0 := by
    cases rest with
    | nil => rfl
    | cons c rest =>
      simp only [signedDigits]
      split
      · rename_i hc
        obtain ⟨ds, more, rfl, d1, d2⟩ := digits_split rest
        by_cases hne : ds = []
        · subst hne; rw [List.nil_append, zero more d2]; rfl
        · exact absurd ⟨blanks, [45], ds, more, by simp [hc], hb, hne, d1, d2, Or.inr (Or.inr ⟨rfl, rfl⟩)⟩ (h _)
      · split
        · rename_i hc
          obtain ⟨ds, more, rfl, d1, d2⟩ := digits_split rest
          by_cases hne : ds = []
          · subst hne; rw [List.nil_append, zero more d2]; rfl
          · exact absurd ⟨blanks, [43], ds, more, by simp [hc], hb, hne, d1, d2, Or.inr (Or.inl ⟨rfl, rfl⟩)⟩ (h _)
        · obtain ⟨ds, more, e, d1, d2⟩ := digits_split (c :: rest)
          by_cases hne : ds = []
          · subst hne; rw [e, List.nil_append, zero more d2]; rfl
          · exact absurd ⟨blanks, [], ds, more, by rw [e]; simp, hb, hne, d1, d2, Or.inl ⟨rfl, rfl⟩⟩ (h _)
  unfold atoi
  simp only [dropBlanks blanks _ hb hr, hsd]
  rfl

theorem cpp_line_of_atoi (h0 : StrMem.Mem) (ok0 : h0.Ok) (σ : State) (text rest : List Byte) (hn : (0 : Byte) ∉ text) (items : List (List Byte))
    (hi : Spec.Splits { escape := true, quote := true } text items) (w : List Byte) (n : Int) (ha : atoi w = .ok n) (h1 : items[1]? = some w) :
    ∃ h, h.mem = h0.mem ∧ srcCppLine h0 σ (text ++ rest) text.length = .ok (h,
      { σ with info := { σ.info with line := if n > 0 then n - 1 else 1, file := match items[2]? with | none => σ.info.file | some f => some f } }) := by
  obtain ⟨s, v, e1, e2, e3⟩ := Arg.argify_ok h0 ok0 0 text [] hn
  have hscan := Arg.scan_splits 0 hi (Or.inl rfl)
  rw [hscan] at e3
  have hcont := e2.contains
  rw [e3] at hcont
  obtain ⟨m, d1, d2⟩ := e2.destroy
  refine ⟨m, d2, ?_⟩
  have hitem : ∀ (k : Nat) (w : List Byte), items[k]? = some w → ∃ p, Arg.get s.2 k = .ok p ∧ stringAt s.1 p = .ok w := by
    intro k w hk
    obtain ⟨p, g1, g2, -⟩ := hcont.item k (w ++ [0]) (by rw [List.getElem?_map, hk]; rfl)
    refine ⟨p, g1, ?_⟩
    unfold stringAt
    rw [g2]
    have hw : (0 : Byte) ∉ w := splits_nul hi w (List.mem_of_getElem? hk)
    exact CStr.cstr_append w hw []
  obtain ⟨p1, g1, g2⟩ := hitem 1 _ h1
  have g1 : Arg.get s.2 1 = .ok p1 := g1
  unfold srcCppLine
  rw [strncpy_eq text rest hn]
  simp only [okBind, CStr.ofStr]
  rw [e1]
  simp only [okBind, g1, g2, ha, d1]
  have hcount := hcont.number
  rw [List.length_map] at hcount
  rw [hcount]
  have h1lt : 1 < items.length := by
    by_contra hc
    rw [List.getElem?_eq_none (by omega)] at h1
    simp at h1
  cases h2 : items[2]? with
  | none =>
    have : items.length = 2 := by
      have := List.getElem?_eq_none_iff.1 h2
      omega
    rw [if_pos this]
    rfl
  | some w =>
    have : items.length ≠ 2 := by
      intro hc
      rw [List.getElem?_eq_none (by omega)] at h2
      simp at h2
    rw [if_neg this]
    obtain ⟨p2, g3, g4⟩ := hitem 2 _ h2
    have g3 : Arg.get s.2 2 = .ok p2 := g3
    simp only [g3, g4, okBind]
    rfl

/-- C60: a preprocessor line whose words are `items`, the second a decimal number `n`: the line number becomes the one
before `n` (so that the next stored line gets `n`), or 1 if `n` is 0; the file becomes the third word, if there is one; nothing
else changes and all memory used is given back. -/
theorem C60_cpp_line (h0 : StrMem.Mem) (ok0 : h0.Ok) (σ : State) (text rest : List Byte) (hn : (0 : Byte) ∉ text) (items : List (List Byte))
    (hi : Spec.Splits { escape := true, quote := true } text items) (n : Nat) (hlt : n < 2 ^ 31) (h1 : items[1]? = some (Spec.decimal n)) :
    ∃ h, h.mem = h0.mem ∧ srcCppLine h0 σ (text ++ rest) text.length = .ok (h,
      { σ with info := { σ.info with line := if n = 0 then 1 else (n : Int) - 1, file := match items[2]? with | none => σ.info.file | some f => some f } }) := by
  obtain ⟨h, e1, e2⟩ := cpp_line_of_atoi h0 ok0 σ text rest hn items hi _ n (atoi_decimal n hlt) h1
  have hline : (if (n : Int) > 0 then (n : Int) - 1 else 1) = if n = 0 then 1 else (n : Int) - 1 := by
    by_cases hz : n = 0
    · simp [hz]
    · rw [if_pos (by omega), if_neg hz]
  exact ⟨h, e1, by rw [e2, hline]⟩

/-- C60: the same for a second word that begins with any number, possibly after white space and a sign and with other characters after it: the
line number becomes the one before it, or 1 if it is not positive. -/
theorem C60_cpp_line_number (h0 : StrMem.Mem) (ok0 : h0.Ok) (σ : State) (text rest : List Byte) (hn : (0 : Byte) ∉ text) (items : List (List Byte))
    (hi : Spec.Splits { escape := true, quote := true } text items) (w : List Byte) (h1 : items[1]? = some w) (v : Int)
    (hw : Spec.BeginsWithNumber w v) (hv : -2 ^ 31 ≤ v ∧ v < 2 ^ 31) :
    ∃ h, h.mem = h0.mem ∧ srcCppLine h0 σ (text ++ rest) text.length = .ok (h,
      { σ with info := { σ.info with line := if 0 < v then v - 1 else 1, file := match items[2]? with | none => σ.info.file | some f => some f } }) :=
  cpp_line_of_atoi h0 ok0 σ text rest hn items hi w v (atoi_number w v hw hv) h1

/-- C60: and for a second word that does not begin with a number, as in `# line 12`: the line number becomes 1 (and the file `12`). -/
theorem C60_cpp_line_word (h0 : StrMem.Mem) (ok0 : h0.Ok) (σ : State) (text rest : List Byte) (hn : (0 : Byte) ∉ text) (items : List (List Byte))
    (hi : Spec.Splits { escape := true, quote := true } text items) (w : List Byte) (h1 : items[1]? = some w) (hw : Spec.NoNumber w) :
    ∃ h, h.mem = h0.mem ∧ srcCppLine h0 σ (text ++ rest) text.length = .ok (h,
      { σ with info := { σ.info with line := 1, file := match items[2]? with | none => σ.info.file | some f => some f } }) :=
  cpp_line_of_atoi h0 ok0 σ text rest hn items hi w 0 (atoi_noNumber w hw) h1

/-- `-2147483648`, `+007x` and `abc`. -/
example : Spec.BeginsWithNumber [45, 50, 49, 52, 55, 52, 56, 51, 54, 52, 56] (-2 ^ 31) ∧ Spec.BeginsWithNumber [43, 48, 48, 55, 120] 7 ∧
    Spec.NoNumber [97, 98, 99] := by
  refine ⟨⟨[], [45], [50, 49, 52, 55, 52, 56, 51, 54, 52, 56], [], rfl, by simp, by simp, by simp [Spec.IsDigit], by simp, Or.inr (Or.inr ⟨rfl, by decide⟩)⟩,
    ⟨[], [43], [48, 48, 55], [120], rfl, by simp, by simp, by simp [Spec.IsDigit], by simp [Spec.IsDigit], Or.inr (Or.inl ⟨rfl, by decide⟩)⟩, ?_⟩
  rintro v ⟨blanks, sign, ds, more, e, hb, hne, hd, -, hs⟩
  cases blanks with
  | cons c blanks =>
    simp only [List.cons_append, List.cons.injEq] at e
    have := hb c (by simp)
    rw [← e.1] at this
    simp [Spec.IsSpace] at this
  | nil =>
    rcases hs with ⟨rfl, -⟩ | ⟨rfl, -⟩ | ⟨rfl, -⟩
    · cases ds with
      | nil => exact hne rfl
      | cons c ds =>
        simp only [List.nil_append, List.cons_append, List.cons.injEq] at e
        have := hd c (by simp)
        rw [← e.1] at this
        simp [Spec.IsDigit] at this
    · simp at e
    · simp at e

/-- `# 12 "f"`: its words, and what the source manager makes of it. -/
example : Spec.Splits { escape := true, quote := true } [35, 32, 49, 50, 32, 34, 102, 34] [[35], Spec.decimal 12, [102]] ∧
    ∃ h σ, srcCppLine Heap.init State.init [35, 32, 49, 50, 32, 34, 102, 34, 10] 8 = .ok (h, σ) ∧ σ.info.line = 11 ∧ σ.info.file = some [102] := by
  refine ⟨?_, _, _, rfl, rfl, rfl⟩
  refine .word [.plain 35] _ _ (by simp) (by simp [Spec.Part.Ok]; decide) (by simp; decide) (.blank 32 _ _ (by decide) ?_)
  refine .word [.plain 49, .plain 50] _ _ (by simp) (by simp [Spec.Part.Ok]; decide) (by simp; decide) (.blank 32 _ _ (by decide) ?_)
  exact .word [.quoted 34 [102]] [] _ (by simp) (by simp [Spec.Part.Ok]; decide) (by simp) .nil

/-- C60: a line of fewer than two words aborts the program. -/
theorem C60_short_line_aborts (h0 : StrMem.Mem) (ok0 : h0.Ok) (σ : State) (text rest : List Byte) (hn : (0 : Byte) ∉ text) (items : List (List Byte))
    (hi : Spec.Splits { escape := true, quote := true } text items) (h1 : items.length < 2) :
    srcCppLine h0 σ (text ++ rest) text.length = .abort := by
  obtain ⟨s, v, e1, e2, e3⟩ := Arg.argify_ok h0 ok0 0 text [] hn
  have hscan := Arg.scan_splits 0 hi (Or.inl rfl)
  rw [hscan] at e3
  have hcont := e2.contains
  rw [e3] at hcont
  unfold srcCppLine
  rw [strncpy_eq text rest hn]
  simp only [okBind, CStr.ofStr]
  rw [e1]
  have := hcont.outside 1 (Or.inr (by simp only [List.length_map]; omega))
  simp only [this, Res.bind]

end Maa.Source
