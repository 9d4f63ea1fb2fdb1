import Verif.Model.Source
import Verif.Lemmas.CStr
import Verif.Lemmas.NameTab

/-! # Properties C49, C61: source lines and tokens, maa/source.c -/

namespace Maa.Source

open Spec (Src Token SrcOp SrcVal ResRel)

/-- what a user sees of a token -/
def view (i : Info) : Token := Token.mk i.file i.line i.offset i.length i.index

/-- a stored line, as the array holds it -/
def lineAt (a : List (Option (List Byte))) (i : Nat) : Option (List Byte) :=
  match a[i]? with
  | some (some s) => some (s.takeWhile (· ≠ 0))
  | _ => none

/-- the agreement of model and specification while the manager exists -/
structure Live (a : List (Option (List Byte))) (σ : State) (S : Src) : Prop where
  len : a.length = σ.count
  count : σ.count = S.allocated
  text : ∀ i, lineAt a i = S.text i
  nul : ∀ (i : Nat) s, a[i]? = some (some s) → (0 : Byte) ∈ s
  bytes : σ.bytes = S.bytes
  total : σ.total = S.total
  full : S.room = false → 1000 ≤ S.used

/-- model and specification states agree -/
structure Sim (σ : State) (S : Src) : Prop where
  used : σ.used = S.used
  file : σ.info.file = S.file
  line : σ.info.line = S.line
  offset : σ.info.offset = S.offset
  index : σ.info.index = S.serial
  toks : ∀ p, (σ.toks p).map view = S.tokens p
  fresh : σ.fresh = S.next
  pos : 0 < S.next
  main : match σ.lines with
    | none => S.alive = false ∧ (∀ p, S.tokens p = none)
    | some a => S.alive = true ∧ Live a σ S

theorem Sim.init : Sim State.init Src.init := by
  refine ⟨rfl, rfl, rfl, rfl, rfl, fun _ => rfl, rfl, by decide, rfl, fun _ => rfl⟩

theorem okBind {α β : Type} (a : α) (f : α → Res β) : (Res.ok a).bind f = f a := rfl

theorem create_sim {σ : State} {S : Src} (h : Sim σ S) (hl : σ.lines = none) :
    ∃ τ, srcCreate σ = .ok τ ∧ Sim τ S.start ∧ τ.lines ≠ none := by
  have := h.main
  rw [hl] at this
  unfold srcCreate
  rw [hl]
  refine ⟨_, rfl, ⟨h.used, h.file, h.line, h.offset, h.index, fun _ => rfl, h.fresh, h.pos, rfl, ?_⟩, by simp⟩
  refine ⟨by simp, ?_, ?_, ?_, rfl, rfl, ?_⟩
  · have hroom : S.start.room = decide (S.used < 1000) := rfl
    unfold Src.allocated increment
    rw [hroom]
    by_cases hr : S.used < 1000
    · rw [if_pos (decide_eq_true hr)]
      show 1000 = 1000 * (S.used / 1000 + 1)
      omega
    · rw [if_neg (by simpa using hr)]
  · intro i
    simp only [lineAt, Src.start, List.getElem?_replicate]
    split
    · rename_i h1; split at h1 <;> simp at h1
    · rfl
  · intro i s hs
    simp only [List.getElem?_replicate] at hs
    split at hs <;> simp at hs
  · intro hr
    simp only [Src.start, decide_eq_false_iff_not] at hr
    simp only [Src.start]
    omega

theorem untab_eq (s : List Byte) : untab s =
    if (0 : Byte) ∈ s then .ok (Spec.detab (s.takeWhile (· ≠ 0)) ++ s.dropWhile (· ≠ 0)) else .ub := by
  induction s with
  | nil => simp [untab]
  | cons c cs ih =>
    simp only [untab]
    by_cases hc : c = 0
    · subst hc
      simp [Spec.detab]
    · rw [if_neg hc, ih]
      by_cases h0 : (0 : Byte) ∈ cs
      · rw [if_pos h0, if_pos (List.mem_cons_of_mem c h0), okBind]
        simp [hc, Spec.detab]
      · rw [if_neg h0, if_neg (fun h => h0 ((List.mem_cons.1 h).resolve_left (Ne.symm hc)))]
        rfl

theorem detab_nul {s : List Byte} (h : (0 : Byte) ∉ s) : (0 : Byte) ∉ Spec.detab s := by
  intro hc
  obtain ⟨c, hc, e⟩ := List.mem_map.1 hc
  split at e
  · simp at e
  · exact h (e ▸ hc)

theorem takeWhile_take {s : List Byte} {n : Nat} (h : (0 : Byte) ∈ s.take n) :
    (s.take n).takeWhile (· ≠ 0) = s.takeWhile (· ≠ 0) := by
  induction s generalizing n with
  | nil => simp
  | cons c cs ih =>
    cases n with
    | zero => simp at h
    | succ n =>
      by_cases hc : c = 0
      · simp [hc]
      · simp only [List.take_succ_cons, List.mem_cons] at h
        have := ih (h.resolve_left (Ne.symm hc))
        simp only [ne_eq, decide_not] at this
        simp [hc, this]

theorem dropWhile_head {s : List Byte} (h : (0 : Byte) ∈ s) : ∃ r, s.dropWhile (· ≠ 0) = 0 :: r := by
  induction s with
  | nil => simp at h
  | cons c cs ih =>
    by_cases hc : c = 0
    · exact ⟨cs, by simp [hc]⟩
    · obtain ⟨r, hr⟩ := ih ((List.mem_cons.1 h).resolve_left (Ne.symm hc))
      simp only [ne_eq, decide_not] at hr
      exact ⟨r, by simp [hc, hr]⟩

theorem cstr_eq (s : List Byte) : CStr.cstr s = if (0 : Byte) ∈ s then .ok (s.takeWhile (· ≠ 0)) else .ub := by
  induction s with
  | nil => simp [CStr.cstr]
  | cons c cs ih =>
    simp only [CStr.cstr]
    by_cases hc : c = 0
    · simp [hc]
    · rw [if_neg hc, ih]
      by_cases h0 : (0 : Byte) ∈ cs
      · rw [if_pos h0, if_pos (List.mem_cons_of_mem c h0), okBind]
        simp [hc]
      · rw [if_neg h0, if_neg (fun h => h0 ((List.mem_cons.1 h).resolve_left (Ne.symm hc)))]
        rfl

theorem getLine_eq {a : List (Option (List Byte))} (hn : ∀ (i : Nat) s, a[i]? = some (some s) → (0 : Byte) ∈ s) (i : Nat) :
    getLine a i = match lineAt a i with | none => .ub | some s => .ok s := by
  unfold getLine lineAt
  cases h : a[i]? with
  | none => rfl
  | some x =>
    cases x with
    | none => rfl
    | some s =>
      simp only
      rw [cstr_eq, if_pos (hn i s h)]

/-- the text of `copy` and `untab` together -/
theorem stored_eq (buf : List Byte) (len : Nat) :
    (match Spec.lineText buf len with
    | none => (copy buf len).bind untab = .ub
    | some t => ∃ s, (copy buf len).bind untab = .ok s ∧ (0 : Byte) ∈ s ∧ s.takeWhile (· ≠ 0) = t) := by
  unfold Spec.lineText copy
  by_cases h1 : len + 1 ≤ buf.length
  · rw [if_pos h1, okBind, untab_eq]
    by_cases h2 : (0 : Byte) ∈ buf.take (len + 1)
    · rw [if_pos ⟨h1, h2⟩, if_pos h2]
      obtain ⟨r, hr⟩ := dropWhile_head h2
      refine ⟨_, rfl, by rw [hr]; simp, ?_⟩
      have hd := detab_nul (NameTab.nul_takeWhile (buf.take (len + 1)))
      rw [hr, List.takeWhile_append_of_pos (by intro c hc; simp; exact fun e => hd (e ▸ hc)), ← takeWhile_take h2]
      simp
    · rw [if_neg (fun h => h2 h.2), if_neg h2]
  · rw [if_neg h1, if_neg (fun h => h1 h.1)]
    rfl

theorem look_sim {σ : State} {S : Src} (h : Sim σ S) (p : Nat) (dflt : SrcVal) (k : Option Info → Res SrcVal)
    (f : Token → Res SrcVal) (h0 : k none = .ok dflt) (hk : ∀ i, σ.toks p = some i → σ.lines ≠ none → k (some i) = f (view i)) :
    ResRel (fun c b => c.2 = b.2 ∧ Sim c.1 b.1) ((deref σ p).bind fun s => (k s).bind fun v => .ok (σ, v)) (S.look p dflt f) := by
  unfold deref Src.look
  by_cases hp : p = 0
  · rw [if_pos hp, if_pos hp, okBind, h0]
    exact ⟨rfl, h⟩
  · rw [if_neg hp, if_neg hp]
    have ht := h.toks p
    cases hx : σ.toks p with
    | none =>
      rw [hx] at ht
      simp only [Option.map_none] at ht
      rw [← ht]
      exact trivial
    | some i =>
      rw [hx] at ht
      simp only [Option.map_some] at ht
      rw [← ht]
      simp only [okBind]
      have hl : σ.lines ≠ none := by
        intro hl
        have := h.main
        rw [hl] at this
        have := this.2 p
        rw [← ht] at this
        simp at this
      rw [hk i hx hl]
      cases f (view i) <;> first | exact trivial | exact ⟨rfl, h⟩

theorem peek_sim {σ : State} {S : Src} (h : Sim σ S) (p : Nat) (dflt : SrcVal) (k : Option Info → Res SrcVal)
    (f : Token → Res SrcVal) (h0 : k none = .ok dflt) (hk : ∀ i, σ.toks p = some i → σ.lines ≠ none → k (some i) = f (view i)) :
    ResRel (fun c b => c.2 = b.2 ∧ Sim c.1 b.1) ((access σ p).bind fun s => (k s).bind fun v => .ok (σ, v)) (S.peek p dflt f) := by
  unfold access Src.peek
  have hm := h.main
  cases hl : σ.lines with
  | none =>
    rw [hl] at hm
    rw [hm.1]
    exact trivial
  | some a =>
    rw [hl] at hm
    rw [hm.1, if_pos rfl]
    exact look_sim h p dflt k f h0 hk

/-- the stored line of a token -/
theorem lineOf_sim {σ : State} {S : Src} (h : Sim σ S) (hl : σ.lines ≠ none) (i : Info) :
    getLine (arr σ) i.index = S.lineOf (view i) := by
  have hm := h.main
  cases hx : σ.lines with
  | none => exact absurd hx hl
  | some a =>
    rw [hx] at hm
    simp only [arr, hx, Option.getD_some]
    rw [getLine_eq hm.2.nul, hm.2.text]
    rfl

theorem prefix_sim (i : Info) : prefix_ (some i) = Spec.label (view i) := by
  obtain ⟨f, l, o, n, x⟩ := i
  cases f <;> rfl

theorem printLine_sim {σ : State} {S : Src} (h : Sim σ S) (hl : σ.lines ≠ none) (i : Info) :
    printLine σ (some i) = S.showLine (view i) := by
  simp only [printLine, Src.showLine]
  rw [lineOf_sim h hl]
  obtain ⟨f, l, o, n, x⟩ := i
  cases f <;> rfl

theorem printErrorLine_sim {σ : State} {S : Src} (h : Sim σ S) (hl : σ.lines ≠ none) (i : Info) :
    printErrorLine σ (some i) 0 = S.showMarked (view i) := by
  unfold printErrorLine Src.showMarked
  rw [printLine_sim h hl]
  cases S.showLine (view i) <;> try rfl
  simp only [okBind]
  rw [prefix_sim]
  cases Spec.label (view i) <;> try rfl
  simp only [okBind, Spec.carets, repeatPut, view, Int.sub_zero, List.append_assoc]

theorem bind_assoc {α β γ : Type} (x : Res α) (f : α → Res β) (g : β → Res γ) :
    (x.bind f).bind g = x.bind fun a => (f a).bind g := by cases x <;> rfl

/-- storing a line while the manager exists -/
theorem line_sim {σ : State} {S : Src} (h : Sim σ S) (hl : σ.lines ≠ none) (buf : List Byte) (len : Nat) :
    ResRel (fun c b => c.2 = b.2 ∧ Sim c.1 b.1)
      ((copy buf len).bind fun s => (untab s).bind fun s => (setLine (arr σ) σ.used s).bind fun a =>
        ((getLine (regrow a (σ.used + 1) σ.count).1 (σ.used + 1 - 1)).bind fun r =>
          .ok ({ σ with lines := some (regrow a (σ.used + 1) σ.count).1, count := (regrow a (σ.used + 1) σ.count).2, used := σ.used + 1, info := { σ.info with line := σ.info.line + 1, index := σ.used, offset := 0 }, bytes := σ.bytes + (len + 1) }, r) : Res (State × List Byte)).bind fun r => .ok (r.1, SrcVal.str (some r.2)))
      (if S.room then
        match Spec.lineText buf len with
        | none => .ub
        | some s =>
          .ok ({ S with line := S.line + 1, serial := S.used, offset := 0, used := S.used + 1, bytes := S.bytes + len + 1, text := fun i => if i = S.used then some s else S.text i }, SrcVal.str (some s))
      else .ub) := by
  rw [← bind_assoc (copy buf len) untab]
  have hs := stored_eq buf len
  cases hx : Spec.lineText buf len with
  | none =>
    rw [hx] at hs
    simp only at hs
    rw [hs]
    simp only [Res.bind, ite_self]
    exact trivial
  | some t =>
    rw [hx] at hs
    obtain ⟨s, h1, h2, h3⟩ := hs
    rw [h1, okBind]
    have hm := h.main
    cases ha : σ.lines with
    | none => exact absurd ha hl
    | some a =>
      rw [ha] at hm
      obtain ⟨h4, h5⟩ := hm
      simp only [arr, ha, Option.getD_some, setLine]
      have hcount := h5.count
      unfold Src.allocated at hcount
      by_cases hr : S.room = true
      · rw [if_pos hr] at hcount
        have hlt : σ.used < a.length := by rw [h5.len, hcount, h.used]; omega
        rw [if_pos hlt, if_pos hr, okBind]
        have hget : (regrow (a.set σ.used (some s)) (σ.used + 1) σ.count).1 =
            a.set σ.used (some s) ++ List.replicate ((regrow (a.set σ.used (some s)) (σ.used + 1) σ.count).2 - σ.count) none := by
          unfold regrow
          split
          · simp only [List.length_set, h5.len]
          · simp only [Nat.sub_self, List.replicate_zero, List.append_nil]
        have hidx : ∀ i, (regrow (a.set σ.used (some s)) (σ.used + 1) σ.count).1[i]? =
            if i = σ.used then some (some s) else if i < a.length then a[i]? else (regrow (a.set σ.used (some s)) (σ.used + 1) σ.count).1[i]? := by
          intro i
          rw [hget]
          by_cases hi : i = σ.used
          · subst hi
            rw [if_pos rfl, List.getElem?_append_left (by simpa using hlt), List.getElem?_set]
            simp [hlt]
          · rw [if_neg hi]
            by_cases hi2 : i < a.length
            · rw [if_pos hi2, List.getElem?_append_left (by simpa using hi2), List.getElem?_set]
              simp [Ne.symm hi]
            · rw [if_neg hi2]
        have hout : ∀ i, ¬ i < a.length → ∀ x, (regrow (a.set σ.used (some s)) (σ.used + 1) σ.count).1[i]? ≠ some (some x) := by
          intro i hi x hx
          rw [hget, List.getElem?_append_right (by simpa using hi), List.getElem?_replicate] at hx
          split at hx <;> simp at hx
        have hnul : ∀ (i : Nat) (x : List Byte), (regrow (a.set σ.used (some s)) (σ.used + 1) σ.count).1[i]? = some (some x) → (0 : Byte) ∈ x := by
          intro i x hx
          by_cases hi : i = σ.used
          · rw [hidx, if_pos hi] at hx
            simp only [Option.some.injEq] at hx
            exact hx ▸ h2
          · by_cases hi2 : i < a.length
            · rw [hidx, if_neg hi, if_pos hi2] at hx
              exact h5.nul i x hx
            · exact absurd hx (hout i hi2 x)
        have htext : ∀ i, lineAt (regrow (a.set σ.used (some s)) (σ.used + 1) σ.count).1 i = if i = S.used then some t else S.text i := by
          intro i
          by_cases hi : i = σ.used
          · rw [if_pos (hi.trans h.used)]
            unfold lineAt
            rw [hidx, if_pos hi]
            simp only [h3]
          · rw [if_neg (fun e => hi (e.trans h.used.symm)), ← h5.text]
            by_cases hi2 : i < a.length
            · unfold lineAt
              rw [hidx, if_neg hi, if_pos hi2]
            · have h6 : a[i]? = none := by simp; omega
              unfold lineAt
              rw [h6]
              split
              · rename_i x hx; exact absurd hx (hout i hi2 x)
              · rfl
        rw [getLine_eq hnul, htext, if_pos (by rw [h.used]; rfl)]
        refine ⟨rfl, ⟨by simp [h.used], h.file, by simp [h.line], rfl, h.used, h.toks, h.fresh, h.pos, h4, ?_⟩⟩
        have hcnt : (regrow (a.set σ.used (some s)) (σ.used + 1) σ.count).2 = 1000 * ((S.used + 1) / 1000 + 1) := by
          unfold regrow increment
          rw [h.used] at hlt ⊢
          split <;> simp only <;> omega
        refine ⟨?_, ?_, htext, hnul, by simp [h5.bytes]; omega, h5.total, ?_⟩
        · simp only
          rw [hget]
          simp only [List.length_append, List.length_set, List.length_replicate, h5.len]
          rw [hcnt, hcount]
          omega
        · simp only [Src.allocated, hr, if_true, hcnt]
        · intro hr'
          simp only [hr] at hr'
          simp at hr'
      · have hr' : S.room = false := by simpa using hr
        have hf := h5.full hr'
        rw [if_neg hr] at hcount
        rw [if_neg (by rw [h5.len, hcount, h.used]; omega), if_neg hr]
        exact trivial

theorem step_sim (σ : State) (S : Src) (o : SrcOp) (h : Sim σ S) :
    ResRel (fun c b => c.2 = b.2 ∧ Sim c.1 b.1) (step σ o) (Spec.srcStep S o) := by
  have hm := h.main
  cases o with
  | create =>
    simp only [step, Spec.srcStep]
    cases hl : σ.lines with
    | none =>
      rw [hl] at hm
      obtain ⟨τ, h1, h2, -⟩ := create_sim h hl
      rw [h1, hm.1]
      exact ⟨rfl, h2⟩
    | some a =>
      rw [hl] at hm
      rw [hm.1]
      simp only [srcCreate, hl]
      exact trivial
  | destroy =>
    simp only [step, Spec.srcStep, srcDestroy]
    cases hl : σ.lines with
    | none =>
      rw [hl] at hm
      refine ⟨rfl, ⟨h.used, h.file, h.line, h.offset, h.index, fun p => ?_, h.fresh, h.pos, ?_⟩⟩
      · rw [h.toks, hm.2]
      · simp only [hl]
        exact ⟨trivial, fun _ => trivial⟩
    | some a =>
      refine ⟨rfl, ⟨h.used, h.file, h.line, h.offset, h.index, fun p => rfl, h.fresh, h.pos, rfl, fun _ => rfl⟩⟩
  | line buf len =>
    simp only [step, Spec.srcStep, srcLine, ensure]
    cases hl : σ.lines with
    | none =>
      rw [hl] at hm
      obtain ⟨τ, h1, h2, h3⟩ := create_sim h hl
      simp only [h1, hm.1, okBind, bind_assoc, Bool.false_eq_true, if_false]
      have := line_sim h2 h3 buf len
      simp only [bind_assoc, okBind] at this
      exact this
    | some a =>
      rw [hl] at hm
      simp only [if_pos hm.1, okBind, bind_assoc]
      have := line_sim h (by simp [hl]) buf len
      simp only [bind_assoc, okBind] at this
      exact this
  | newFile name =>
    refine ⟨rfl, ⟨h.used, rfl, h.line, h.offset, h.index, h.toks, h.fresh, h.pos, ?_⟩⟩
    simp only [srcNewFile]
    cases hl : σ.lines <;> rw [hl] at hm
    · exact hm
    · exact ⟨hm.1, ⟨hm.2.len, hm.2.count, hm.2.text, hm.2.nul, hm.2.bytes, hm.2.total, hm.2.full⟩⟩
  | newLine n =>
    refine ⟨rfl, ⟨h.used, h.file, rfl, h.offset, h.index, h.toks, h.fresh, h.pos, ?_⟩⟩
    simp only [srcNewLine]
    cases hl : σ.lines <;> rw [hl] at hm
    · exact hm
    · exact ⟨hm.1, ⟨hm.2.len, hm.2.count, hm.2.text, hm.2.nul, hm.2.bytes, hm.2.total, hm.2.full⟩⟩
  | advance n =>
    refine ⟨rfl, ⟨h.used, h.file, h.line, by simp [srcAdvance, h.offset], h.index, h.toks, h.fresh, h.pos, ?_⟩⟩
    simp only [srcAdvance]
    cases hl : σ.lines <;> rw [hl] at hm
    · exact hm
    · exact ⟨hm.1, ⟨hm.2.len, hm.2.count, hm.2.text, hm.2.nul, hm.2.bytes, hm.2.total, hm.2.full⟩⟩
  | get n =>
    simp only [step, Spec.srcStep, srcGet]
    cases hl : σ.lines with
    | none =>
      rw [hl] at hm
      rw [hm.1]
      exact trivial
    | some a =>
      rw [hl] at hm
      rw [if_pos hm.1]
      refine ⟨by simp [h.fresh], ⟨h.used, h.file, h.line, by simp [srcAdvance, h.offset], h.index, ?_, by simp [srcAdvance, h.fresh], by simp, ?_⟩⟩
      · intro p
        simp only [srcAdvance]
        by_cases hp : p = σ.fresh
        · rw [if_pos hp, if_pos (hp.trans h.fresh)]
          simp only [Option.map_some, view, h.file, h.line, h.offset, h.index]
        · rw [if_neg hp, if_neg (fun e => hp (e.trans h.fresh.symm))]
          exact h.toks p
      · simp only [srcAdvance]
        exact ⟨hm.1, ⟨hm.2.len, hm.2.count, hm.2.text, hm.2.nul, hm.2.bytes, by simp [hm.2.total], hm.2.full⟩⟩
  | filename p =>
    simp only [step, Spec.srcStep, srcFilename, bind_assoc]
    have := peek_sim h p (.str (some [])) (fun s => match s with | some i => .ok (.str i.file) | none => .ok (.str (some []))) (fun t => .ok (.str t.file)) rfl (fun _ _ _ => rfl)
    convert this using 2
    funext s; cases s <;> rfl
  | linenumber p =>
    simp only [step, Spec.srcStep, srcLinenumber, bind_assoc]
    have := peek_sim h p (.num 0) (fun s => match s with | some i => .ok (.num i.line) | none => .ok (.num 0)) (fun t => .ok (.num t.line)) rfl (fun _ _ _ => rfl)
    convert this using 2
    funext s; cases s <;> rfl
  | offset p =>
    simp only [step, Spec.srcStep, srcOffset, bind_assoc]
    have := peek_sim h p (.num 0) (fun s => match s with | some i => .ok (.num i.offset) | none => .ok (.num 0)) (fun t => .ok (.num t.offset)) rfl (fun _ _ _ => rfl)
    convert this using 2
    funext s; cases s <;> rfl
  | length p =>
    simp only [step, Spec.srcStep, srcLength, bind_assoc]
    have := peek_sim h p (.num 0) (fun s => match s with | some i => .ok (.num i.length) | none => .ok (.num 0)) (fun t => .ok (.num t.length)) rfl (fun _ _ _ => rfl)
    convert this using 2
    funext s; cases s <;> rfl
  | sourceLine p =>
    simp only [step, Spec.srcStep, srcSourceLine, bind_assoc]
    have := peek_sim h p (.str (some [])) (fun s => match s with | some i => (getLine (arr σ) i.index).bind fun v => .ok (.str (some v)) | none => .ok (.str (some []))) (fun t => (S.lineOf t).bind fun s => .ok (.str (some s))) rfl
      (fun i _ hl => by show (getLine (arr σ) i.index).bind _ = _; rw [lineOf_sim h hl])
    convert this using 2
    funext s; cases s
    · rfl
    · simp only [bind_assoc, okBind]
  | stats =>
    refine ⟨?_, h⟩
    simp only [srcStats]
    cases hl : σ.lines with
    | none =>
      rw [hl] at hm
      rw [hm.1]
      rfl
    | some a =>
      rw [hl] at hm
      rw [hm.1]
      simp only [if_true, h.used, hm.2.count, hm.2.bytes, hm.2.total]
  | printLine p =>
    simp only [step, Spec.srcStep]
    have := look_sim h p (.text (Spec.noLabel ++ Spec.noLine)) (fun s => (printLine σ s).bind fun v => .ok (.text v)) (fun t => (S.showLine t).bind fun s => .ok (.text s)) rfl
      (fun i _ hl => by rw [printLine_sim h hl])
    simp only [bind_assoc, okBind] at this
    exact this
  | printError stream p m =>
    simp only [step, srcPrintError]
    cases stream with
    | false => cases m <;> exact trivial
    | true =>
      cases m with
      | none =>
        simp only [message, okBind, if_true, Spec.srcStep]
        have := look_sim h p (.text (Spec.noLabel ++ Spec.noLine ++ Spec.noLabel ++ [10])) (fun s => (printErrorLine σ s 0).bind fun v => .ok (.text v)) (fun t => (S.showMarked t).bind fun s => .ok (.text s)) rfl
          (fun i _ hl => by rw [printErrorLine_sim h hl])
        simp only [bind_assoc, okBind] at this ⊢
        exact this
      | some m =>
        simp only [message, if_true, Spec.srcStep, bind_assoc, okBind]
        have := look_sim h p (.text (Spec.noMessage m ++ Spec.noLabel ++ Spec.noLine ++ Spec.noLabel ++ [10])) (fun s => (prefix_ s).bind fun p => (printErrorLine σ s 0).bind fun v => .ok (.text (p ++ m ++ [10] ++ v))) (fun t => (Spec.showMessage t m).bind fun a => (S.showMarked t).bind fun b => .ok (.text (a ++ b))) (by simp [prefix_, printErrorLine, printLine, okBind, Spec.noMessage, Spec.noLabel, Spec.noLine])
          (fun i _ hl => by rw [printErrorLine_sim h hl, prefix_sim]; simp only [Spec.showMessage, bind_assoc, okBind])
        convert this using 1
        cases hd : deref σ p with
        | ok s =>
          simp only [okBind, bind_assoc]
        | abort => rfl
        | fatal => rfl
        | ub => rfl
  | printMessage stream p m =>
    cases m with
    | none => cases stream <;> exact ⟨rfl, h⟩
    | some m =>
      cases stream with
      | false => exact trivial
      | true =>
        simp only [step, message, if_true, Spec.srcStep, bind_assoc, okBind]
        have := look_sim h p (.text (Spec.noMessage m)) (fun s => (prefix_ s).bind fun p => .ok (.text (p ++ m ++ [10]))) (fun t => (Spec.showMessage t m).bind fun a => .ok (.text a)) rfl
          (fun i _ hl => by rw [prefix_sim]; simp only [Spec.showMessage, bind_assoc, okBind])
        simp only [bind_assoc, okBind] at this
        exact this

/-- C49: for every history of calls, what the source manager returns and prints is what `Spec.srcStep` describes: a token
keeps the file, line number, offset, length and source line that were current when it was made. -/
theorem C49_history (hist : List SrcOp) :
    Spec.observe (Spec.run step State.init hist) = Spec.observe (Spec.run Spec.srcStep Src.init hist) :=
  (Spec.run_sim Sim step Spec.srcStep step_sim State.init Src.init hist Sim.init).observe

/-- Two lines (the first with a tab), a file and two tokens on the second line. -/
example : Spec.observe (Spec.run step State.init
    [.line [97, 9, 98, 0] 3, .newFile [102], .line [99, 0] 1, .get 1, .advance 2, .get 3, .offset 2, .linenumber 1, .sourceLine 2,
      .filename 1, .stats, .printError true 2 (some [33])]) =
    .ok [.str (some [97, 32, 98]), .unit, .str (some [99]), .tok 1, .unit, .tok 2, .num 3, .num 2, .str (some [99]), .str (some [102]),
      .nums [2, 1000, 6, 2],
      .text [102, 58, 50, 58, 32, 33, 10, 102, 58, 50, 58, 32, 99, 102, 58, 50, 58, 32, 32, 32, 32, 94, 94, 94, 10]] := by
  rw [C49_history]
  decide +kernel

/-! ## Tokens for ever -/

/-- what stays true of a token -/
def Holds (p : Nat) (t : Token) (x : Option (List Byte)) (S : Src) : Prop :=
  S.alive = true ∧ p < S.next ∧ S.tokens p = some t ∧ (∀ s, x = some s → t.serial < S.used ∧ S.text t.serial = some s)

theorem look_fst {S S' : Src} {h : Nat} {d v : SrcVal} {f : Token → Res SrcVal} (e : S.look h d f = .ok (S', v)) : S' = S := by
  unfold Src.look at e
  split at e
  · simp at e; exact e.1.symm
  · split at e
    · simp at e
    · rename_i t _
      cases hf : f t <;> rw [hf] at e <;> simp [Res.bind] at e
      exact e.1.symm

theorem peek_fst {S S' : Src} {h : Nat} {d v : SrcVal} {f : Token → Res SrcVal} (e : S.peek h d f = .ok (S', v)) : S' = S := by
  unfold Src.peek at e
  split at e
  · exact look_fst e
  · simp at e

theorem Holds.step {p : Nat} {t : Token} {x : Option (List Byte)} {S S' : Src} {o : SrcOp} {v : SrcVal} (h : Holds p t x S)
    (hd : o ≠ .destroy) (e : Spec.srcStep S o = .ok (S', v)) : Holds p t x S' := by
  obtain ⟨h1, h2, h3, h4⟩ := h
  cases o with
  | create => simp [Spec.srcStep, h1] at e
  | destroy => exact absurd rfl hd
  | line buf len =>
    simp only [Spec.srcStep, if_pos h1] at e
    split at e
    · split at e
      · simp at e
      · simp only [Res.ok.injEq, Prod.mk.injEq] at e
        rw [← e.1]
        refine ⟨h1, h2, h3, fun s hs => ?_⟩
        have := h4 s hs
        refine ⟨by simp only; omega, ?_⟩
        simp only
        rw [if_neg (by omega)]
        exact this.2
    · simp at e
  | newFile name =>
    simp only [Spec.srcStep, Res.ok.injEq, Prod.mk.injEq] at e
    rw [← e.1]; exact ⟨h1, h2, h3, h4⟩
  | newLine n =>
    simp only [Spec.srcStep, Res.ok.injEq, Prod.mk.injEq] at e
    rw [← e.1]; exact ⟨h1, h2, h3, h4⟩
  | advance n =>
    simp only [Spec.srcStep, Res.ok.injEq, Prod.mk.injEq] at e
    rw [← e.1]; exact ⟨h1, h2, h3, h4⟩
  | get n =>
    simp only [Spec.srcStep, if_pos h1, Res.ok.injEq, Prod.mk.injEq] at e
    rw [← e.1]
    refine ⟨h1, by simp only; omega, ?_, h4⟩
    simp only
    rw [if_neg (by omega)]
    exact h3
  | filename q => simp only [Spec.srcStep] at e; rw [peek_fst e]; exact ⟨h1, h2, h3, h4⟩
  | linenumber q => simp only [Spec.srcStep] at e; rw [peek_fst e]; exact ⟨h1, h2, h3, h4⟩
  | offset q => simp only [Spec.srcStep] at e; rw [peek_fst e]; exact ⟨h1, h2, h3, h4⟩
  | length q => simp only [Spec.srcStep] at e; rw [peek_fst e]; exact ⟨h1, h2, h3, h4⟩
  | sourceLine q => simp only [Spec.srcStep] at e; rw [peek_fst e]; exact ⟨h1, h2, h3, h4⟩
  | stats =>
    simp only [Spec.srcStep, Res.ok.injEq, Prod.mk.injEq] at e
    rw [← e.1]; exact ⟨h1, h2, h3, h4⟩
  | printLine q => simp only [Spec.srcStep] at e; rw [look_fst e]; exact ⟨h1, h2, h3, h4⟩
  | printError st q m =>
    cases st <;> cases m <;> simp only [Spec.srcStep] at e
    · simp at e
    · simp at e
    · rw [look_fst e]; exact ⟨h1, h2, h3, h4⟩
    · rw [look_fst e]; exact ⟨h1, h2, h3, h4⟩
  | printMessage st q m =>
    cases st <;> cases m <;> simp only [Spec.srcStep] at e
    · simp at e; rw [← e.1]; exact ⟨h1, h2, h3, h4⟩
    · simp at e
    · simp at e; rw [← e.1]; exact ⟨h1, h2, h3, h4⟩
    · rw [look_fst e]; exact ⟨h1, h2, h3, h4⟩

theorem Holds.run {p : Nat} {t : Token} {x : Option (List Byte)} (hist : List SrcOp) (hd : SrcOp.destroy ∉ hist) :
    ∀ {S S' : Src} {vs : List SrcVal}, Holds p t x S → Spec.run Spec.srcStep S hist = .ok (S', vs) → Holds p t x S' := by
  induction hist with
  | nil => intro S S' vs h e; simp only [Spec.run, Res.ok.injEq, Prod.mk.injEq] at e; rw [← e.1]; exact h
  | cons o os ih =>
    intro S S' vs h e
    simp only [Spec.run] at e
    simp only [List.mem_cons, not_or] at hd
    cases h1 : Spec.srcStep S o <;> rw [h1] at e <;> simp only [Res.bind] at e
    any_goals simp at e
    rename_i r
    cases h2 : Spec.run Spec.srcStep r.1 os <;> rw [h2] at e <;> simp only at e
    any_goals simp at e
    rename_i q
    rw [← e.1]
    exact ih hd.2 (h.step (Ne.symm hd.1) h1) h2

/-- what the history functions say of a state -/
structure Cur (S : Src) (f : Option (List Byte)) (l o : Int) (x : Option (List Byte)) : Prop where
  file : S.file = f
  line : S.line = l
  offset : S.offset = o
  text : ∀ s, x = some s → S.alive = true ∧ S.serial < S.used ∧ S.text S.serial = some s

theorem Cur.step {S S' : Src} {o : SrcOp} {v : SrcVal} {f : Option (List Byte)} {l i : Int} {x : Option (List Byte)} (h : Cur S f l i x)
    (e : Spec.srcStep S o = .ok (S', v)) :
    Cur S' (Spec.fileNext f o) (Spec.lineNext l o) (Spec.offsetNext i o) (Spec.textNext x o) := by
  cases o with
  | create =>
    simp only [Spec.srcStep] at e
    split at e
    · simp at e
    · simp only [Res.ok.injEq, Prod.mk.injEq] at e
      rw [← e.1]
      exact ⟨h.file, h.line, h.offset, by simp [Spec.textNext]⟩
  | destroy =>
    simp only [Spec.srcStep, Res.ok.injEq, Prod.mk.injEq] at e
    rw [← e.1]
    exact ⟨h.file, h.line, h.offset, by simp [Spec.textNext]⟩
  | line buf len =>
    simp only [Spec.srcStep] at e
    have key : ∀ T : Src, T.file = S.file → T.line = S.line → T.alive = true →
        (if T.room then match Spec.lineText buf len with
          | none => Res.ub
          | some s => .ok ({ T with line := T.line + 1, serial := T.used, offset := 0, used := T.used + 1, bytes := T.bytes + len + 1, text := fun i => if i = T.used then some s else T.text i }, SrcVal.str (some s))
        else .ub) = .ok (S', v) → Cur S' (Spec.fileNext f (.line buf len)) (Spec.lineNext l (.line buf len)) (Spec.offsetNext i (.line buf len)) (Spec.textNext x (.line buf len)) := by
      intro T hf hl ha e
      split at e
      · split at e
        · simp at e
        · rename_i s hs
          simp only [Res.ok.injEq, Prod.mk.injEq] at e
          rw [← e.1]
          refine ⟨hf.trans h.file, ?_, rfl, ?_⟩
          · simp only [Spec.lineNext]; rw [hl, h.line]
          · intro s' hs'
            simp only [Spec.textNext, hs, Option.some.injEq] at hs'
            subst hs'
            exact ⟨ha, by simp, by simp⟩
      · simp at e
    by_cases ha : S.alive = true
    · rw [if_pos ha] at e
      exact key S rfl rfl ha e
    · rw [if_neg ha] at e
      exact key S.start rfl rfl rfl e
  | newFile name =>
    simp only [Spec.srcStep, Res.ok.injEq, Prod.mk.injEq] at e
    rw [← e.1]; exact ⟨rfl, h.line, h.offset, h.text⟩
  | newLine n =>
    simp only [Spec.srcStep, Res.ok.injEq, Prod.mk.injEq] at e
    rw [← e.1]; exact ⟨h.file, rfl, h.offset, h.text⟩
  | advance n =>
    simp only [Spec.srcStep, Res.ok.injEq, Prod.mk.injEq] at e
    rw [← e.1]; exact ⟨h.file, h.line, by simp only [Spec.offsetNext]; rw [h.offset], h.text⟩
  | get n =>
    simp only [Spec.srcStep] at e
    split at e
    · simp only [Res.ok.injEq, Prod.mk.injEq] at e
      rw [← e.1]
      exact ⟨h.file, h.line, by simp only [Spec.offsetNext]; rw [h.offset], h.text⟩
    · simp at e
  | filename q => simp only [Spec.srcStep] at e; rw [peek_fst e]; exact h
  | linenumber q => simp only [Spec.srcStep] at e; rw [peek_fst e]; exact h
  | offset q => simp only [Spec.srcStep] at e; rw [peek_fst e]; exact h
  | length q => simp only [Spec.srcStep] at e; rw [peek_fst e]; exact h
  | sourceLine q => simp only [Spec.srcStep] at e; rw [peek_fst e]; exact h
  | stats =>
    simp only [Spec.srcStep, Res.ok.injEq, Prod.mk.injEq] at e
    rw [← e.1]; exact h
  | printLine q => simp only [Spec.srcStep] at e; rw [look_fst e]; exact h
  | printError st q m =>
    cases st <;> cases m <;> simp only [Spec.srcStep] at e
    · simp at e
    · simp at e
    · rw [look_fst e]; exact h
    · rw [look_fst e]; exact h
  | printMessage st q m =>
    cases st <;> cases m <;> simp only [Spec.srcStep] at e
    · simp at e; rw [← e.1]; exact h
    · simp at e
    · simp at e; rw [← e.1]; exact h
    · rw [look_fst e]; exact h

theorem Cur.run (hist : List SrcOp) : ∀ {S S' : Src} {vs : List SrcVal} {f : Option (List Byte)} {l o : Int} {x : Option (List Byte)},
    Cur S f l o x → Spec.run Spec.srcStep S hist = .ok (S', vs) →
    Cur S' (hist.foldl Spec.fileNext f) (hist.foldl Spec.lineNext l) (hist.foldl Spec.offsetNext o) (hist.foldl Spec.textNext x) := by
  induction hist with
  | nil => intro S S' vs f l o x h e; simp only [Spec.run, Res.ok.injEq, Prod.mk.injEq] at e; rw [← e.1]; exact h
  | cons c os ih =>
    intro S S' vs f l o x h e
    simp only [Spec.run] at e
    cases h1 : Spec.srcStep S c <;> rw [h1] at e <;> simp only [Res.bind] at e
    any_goals simp at e
    rename_i r
    cases h2 : Spec.run Spec.srcStep r.1 os <;> rw [h2] at e <;> simp only at e
    any_goals simp at e
    rename_i q
    rw [← e.1]
    exact ih (h.step h1) h2

theorem run_ok_append {S : Src} {h1 h2 : List SrcOp} {S' : Src} {vs : List SrcVal}
    (e : Spec.run Spec.srcStep S (h1 ++ h2) = .ok (S', vs)) :
    ∃ S1 v1 v2, Spec.run Spec.srcStep S h1 = .ok (S1, v1) ∧ Spec.run Spec.srcStep S1 h2 = .ok (S', v2) ∧ vs = v1 ++ v2 := by
  rw [Spec.run_append] at e
  cases h : Spec.run Spec.srcStep S h1 <;> rw [h] at e <;> simp only [Res.bind] at e
  any_goals simp at e
  rename_i p
  cases h' : Spec.run Spec.srcStep p.1 h2 <;> rw [h'] at e <;> simp only at e
  any_goals simp at e
  rename_i q
  refine ⟨p.1, p.2, q.2, rfl, ?_, e.2.symm⟩
  rw [h', ← e.1]

theorem run_length {hist : List SrcOp} : ∀ {S S' : Src} {vs : List SrcVal}, Spec.run Spec.srcStep S hist = .ok (S', vs) → vs.length = hist.length := by
  induction hist with
  | nil => intro S S' vs e; simp only [Spec.run, Res.ok.injEq, Prod.mk.injEq] at e; rw [← e.2]; rfl
  | cons o os ih =>
    intro S S' vs e
    simp only [Spec.run] at e
    cases h1 : Spec.srcStep S o <;> rw [h1] at e <;> simp only [Res.bind] at e
    any_goals simp at e
    rename_i r
    cases h2 : Spec.run Spec.srcStep r.1 os <;> rw [h2] at e <;> simp only at e
    any_goals simp at e
    rw [← e.2]
    simp [ih h2]

/-- C49: take any history, a token made then, and anything that happens later short of `src_destroy`: the token answers with
the file name set last before it was made, the line number by then, the sum of the lengths of the tokens and advances since
its line began, its length, and the text of its line. -/
theorem C49_token_forever (h1 h2 : List SrcOp) (n : Int) (hd : SrcOp.destroy ∉ h2) (outs : List SrcVal)
    (hr : Spec.observe (Spec.run step State.init (h1 ++ .get n :: h2)) = .ok outs) :
    ∃ p, outs[h1.length]? = some (.tok p) ∧ p ≠ 0 ∧
      Spec.observe (Spec.run step State.init ((h1 ++ .get n :: h2) ++ [.filename p, .linenumber p, .offset p, .length p])) =
        .ok (outs ++ [.str (Spec.fileAfter h1), .num (Spec.lineAfter h1), .num (Spec.offsetAfter h1), .num n]) ∧
      ∀ s, Spec.textAfter h1 = some s →
        Spec.observe (Spec.run step State.init ((h1 ++ .get n :: h2) ++ [.sourceLine p])) = .ok (outs ++ [.str (some s)]) := by
  rw [C49_history] at hr
  cases hx : Spec.run Spec.srcStep Src.init (h1 ++ .get n :: h2) <;> rw [hx] at hr <;> simp only [Spec.observe, Res.bind] at hr
  any_goals simp at hr
  rename_i r
  obtain ⟨S3, vs⟩ := r
  simp only at hr
  subst hr
  have hx' := hx
  rw [List.append_cons] at hx'
  obtain ⟨S2, w1, v3, e12, e3, rfl⟩ := run_ok_append hx'
  obtain ⟨S1, v1, v2, e1, e2, rfl⟩ := run_ok_append e12
  have hc := Cur.run h1 (S := Src.init) (f := none) (l := 0) (o := 0) (x := none) ⟨rfl, rfl, rfl, by simp⟩ e1
  simp only [Spec.run, Spec.srcStep] at e2
  by_cases ha : S1.alive = true
  · rw [if_pos ha] at e2
    simp only [Res.bind, Res.ok.injEq, Prod.mk.injEq] at e2
    obtain ⟨rfl, rfl⟩ := e2
    have hpos : S1.next ≠ 0 := by
      have := Spec.run_sim Sim step Spec.srcStep step_sim State.init Src.init h1 Sim.init
      rw [e1] at this
      cases hm : Spec.run step State.init h1 <;> rw [hm] at this <;> simp only [ResRel] at this
      have := this.2.pos
      omega
    have hold : Holds S1.next (Token.mk S1.file S1.line S1.offset n S1.serial) (Spec.textAfter h1) S3 :=
      Holds.run h2 hd (by exact ⟨ha, by simp, by simp, fun s hs => (hc.text s hs).2⟩) e3
    obtain ⟨g1, g2, g3, g4⟩ := hold
    refine ⟨S1.next, ?_, hpos, ?_, ?_⟩
    · rw [List.append_assoc, List.getElem?_append_right (by rw [run_length e1]), run_length e1]
      simp
    · rw [C49_history, Spec.run_append, hx]
      simp only [okBind, Spec.run, Spec.srcStep, Src.peek, Src.look, g1, if_true, if_neg hpos, g3, Spec.observe]
      have hf : S1.file = Spec.fileAfter h1 := hc.file
      have hl : S1.line = Spec.lineAfter h1 := hc.line
      have ho : S1.offset = Spec.offsetAfter h1 := hc.offset
      rw [hf, hl, ho]
    · intro s hs
      rw [C49_history, Spec.run_append, hx]
      have := (g4 s hs).2
      simp only at this
      simp only [okBind, Spec.run, Spec.srcStep, Src.peek, Src.look, g1, if_true, if_neg hpos, g3, Src.lineOf, this, Spec.observe]
  · rw [if_neg ha] at e2
    simp [Res.bind] at e2

/-- Such a history. -/
example : Spec.observe (Spec.run step State.init ([.line [97, 0] 1, .newFile [102], .get 1] ++ .get 2 :: [.line [98, 0] 1, .newFile [103]])) =
    .ok [.str (some [97]), .unit, .tok 1, .tok 2, .str (some [98]), .unit] ∧
    Spec.offsetAfter [.line [97, 0] 1, .newFile [102], .get 1] = 1 ∧
    Spec.textAfter [.line [97, 0] 1, .newFile [102], .get 1] = some [97] := by
  refine ⟨?_, by decide, by decide⟩
  rw [C49_history]
  decide +kernel

/-- C49: a line that is properly terminated is stored, with tabs replaced, in any state whose manager has room. -/
theorem C49_line_stored (l rest : List Byte) (h0 : (0 : Byte) ∉ l) :
    Spec.lineText (l ++ 0 :: rest) l.length = some (l.map fun c => if c = 9 then 32 else c) := by
  unfold Spec.lineText Spec.detab
  rw [if_pos]
  · rw [List.takeWhile_append_of_pos (by intro c hc; simp; exact fun e => h0 (e ▸ hc))]
    simp
  · refine ⟨by simp, ?_⟩
    rw [List.take_append]
    simp

/-- C49 does not hold for a line given by address and length alone, as documented: `src_line` copies one byte more and then
looks for a NUL in the copy; if there is none it runs off its end. -/
theorem C49_unterminated_refuted : Spec.observe (Spec.run step State.init [.line [97, 98, 99, 0] 2]) = .ub ∧
    Spec.observe (Spec.run step State.init [.line [97, 98, 99, 0] 3]) = .ok [.str (some [97, 98, 99])] := by
  refine ⟨Res.eq_ub_of (by decide +kernel), ?_⟩
  rw [C49_history]
  decide +kernel

/-- C49: after `src_destroy` the count of lines goes on: if 1000 lines had been stored, the next one is written outside the
new array. -/
theorem C49_recreate_refuted (hist : List SrcOp) (S : Src) (vs : List SrcVal) (h : Spec.run Spec.srcStep Src.init hist = .ok (S, vs))
    (hu : 1000 ≤ S.used) (buf : List Byte) (len : Nat) :
    Spec.observe (Spec.run step State.init (hist ++ [.destroy, .line buf len])) = .ub := by
  rw [C49_history, Spec.run_append, h]
  have : ¬ S.used < 1000 := by omega
  simp [Spec.run, Spec.srcStep, Src.start, this, Res.bind, Spec.observe]

/-- A thousand lines. -/
example : ∃ S vs, Spec.run Spec.srcStep Src.init (List.replicate 1000 (.line [97, 0] 1)) = .ok (S, vs) ∧ 1000 ≤ S.used := by
  have key : ∀ n (S : Src), S.room = true → S.alive = true →
      ∃ T vs, Spec.run Spec.srcStep S (List.replicate n (.line [97, 0] 1)) = .ok (T, vs) ∧ S.used + n ≤ T.used := by
    intro n
    induction n with
    | zero => intro S _ _; exact ⟨S, [], rfl, by simp⟩
    | succ n ih =>
      intro S hr ha
      have hl : Spec.lineText [97, 0] 1 = some [97] := by decide
      obtain ⟨T, vs, e, hu⟩ := ih { S with line := S.line + 1, serial := S.used, offset := 0, used := S.used + 1, bytes := S.bytes + 1 + 1, text := fun i => if i = S.used then some [97] else S.text i } hr ha
      refine ⟨T, .str (some [97]) :: vs, ?_, by simp only at hu; omega⟩
      simp only [List.replicate_succ, Spec.run, Spec.srcStep, if_pos ha, if_pos hr, hl, okBind]
      rw [e]
      rfl
  obtain ⟨T, vs, e, hu⟩ := key 999 (Src.mk true true none 1 0 0 1 (fun i => if i = 0 then some [97] else none) 2 (fun _ => none) 0 1) rfl rfl
  refine ⟨T, .str (some [97]) :: vs, ?_, by simp only at hu; omega⟩
  rw [List.replicate_succ, Spec.run]
  have : Spec.srcStep Src.init (.line [97, 0] 1) = .ok (Src.mk true true none 1 0 0 1 (fun i => if i = 0 then some [97] else none) 2 (fun _ => none) 0 1, .str (some [97])) := by
    have hl : Spec.lineText [97, 0] 1 = some [97] := by decide
    simp [Spec.srcStep, hl, Src.init, Src.start]
  rw [this, okBind, e]
  rfl

/-- C61: `src_print_error` on a token with a file name and a stored line: the labelled message, the labelled line, and
below it blanks up to the token's offset and one `^` for each of its characters. -/
theorem C61_marked (hist : List SrcOp) (S : Src) (vs : List SrcVal) (h : Spec.run Spec.srcStep Src.init hist = .ok (S, vs))
    (p : Nat) (t : Token) (f s m : List Byte) (hp : p ≠ 0) (ht : S.tokens p = some t)
    (hf : t.file = some f) (hs : S.text t.serial = some s) :
    let label := f ++ [58] ++ Spec.decimalInt t.line ++ [58, 32]
    Spec.observe (Spec.run step State.init (hist ++ [.printError true p (some m)])) = .ok (vs ++ [.text (label ++ m ++ [10] ++
      (label ++ s ++ label ++ List.replicate t.offset.toNat 32 ++ List.replicate t.length.toNat 94 ++ [10]))]) := by
  rw [C49_history, Spec.run_append, h]
  simp only [okBind, Spec.run, Spec.srcStep, Src.look, if_neg hp, ht, Spec.showMessage, Spec.label, hf, Src.showMarked, Src.showLine,
    Src.lineOf, hs, Spec.carets, Spec.observe, List.append_assoc]

/-- Such a history. -/
example : ∃ S vs t, Spec.run Spec.srcStep Src.init [.newFile [102], .line [97, 98, 10, 0] 3, .get 1, .get 1] = .ok (S, vs) ∧
    S.tokens 2 = some t ∧ t.file = some [102] ∧ S.text t.serial = some [97, 98, 10] :=
  ⟨_, _, _, rfl, rfl, rfl, rfl⟩

/-- C61: a NULL stream is documented to mean `stdout`, but `src_print_error` (and `src_print_message`) use it as it is. -/
theorem C61_null_stream_refuted (σ : State) (p : Nat) (m : List Byte) :
    srcPrintError σ false p (some m) = .ub ∧ message σ false p (some m) = .ub ∧ srcPrintError σ false p none = .abort :=
  ⟨rfl, rfl, rfl⟩

end Maa.Source
