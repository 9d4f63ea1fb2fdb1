import Verif.Model.ArgGram
import Mathlib.Data.List.Perm.Subperm
import Mathlib.Data.List.Infix

namespace Maa.ArgGram

open Spec.ArgGram

/-! ## Reading the file -/

theorem recordsGo_line (l cur t : Word) (h : (10 : Byte) ∉ l) :
    recordsGo cur (l ++ 10 :: t) = (cur.reverse ++ l) :: recordsGo [] t := by
  induction l generalizing cur with
  | nil => simp [recordsGo]
  | cons c l ih =>
    simp only [List.mem_cons, not_or] at h
    rw [List.cons_append, recordsGo, if_neg (Ne.symm h.1), ih _ h.2]
    simp

theorem Gap.noNl {g : Word} (h : Gap g) : (10 : Byte) ∉ g := fun hm => by
  rcases h _ hm with e | e <;> exact absurd e (by decide)

theorem Gap.noHash {g : Word} (h : Gap g) : ∀ b ∈ g, b ≠ (35 : Byte) := fun b hb e => by
  subst e; rcases h _ hb with e | e <;> exact absurd e (by decide)

theorem IsWord.noNl {g : Word} (h : IsWord g) : (10 : Byte) ∉ g := fun hm => (h.2 _ hm).2.2.1 rfl

theorem exit_word : IsWord (word "EXIT") := by
  have : word "EXIT" = [69, 88, 73, 84] := by decide +kernel
  rw [this]; exact ⟨by decide, by decide⟩

theorem error_word : IsWord (word "ERROR") := by
  have : word "ERROR" = [69, 82, 82, 79, 82] := by decide +kernel
  rw [this]; exact ⟨by decide, by decide⟩

theorem Row.Ok.dstWord {r : Row} (h : r.Ok) : IsWord r.dst := by
  rcases h.dst with e | e | e
  · exact e.1
  · rw [e]; exact exit_word
  · rw [e]; exact error_word

theorem showComment_noNl {c : Option Word} (h : CommentOk c) : (10 : Byte) ∉ showComment c := by
  cases c with
  | none => simp [showComment]
  | some t => simpa [showComment] using h t rfl

theorem Line.Ok.noNl {l : Line} (h : l.Ok) : (10 : Byte) ∉ l.text := by
  cases l with
  | nothing g c => simp only [Line.text, List.mem_append, not_or]; exact ⟨Gap.noNl h.1, showComment_noNl h.2⟩
  | rule g0 r g1 g2 g3 g4 c =>
    obtain ⟨hr, h0, h1, h2, h3, h4, hc⟩ := h
    simp only [Line.text, List.mem_append, not_or]
    exact ⟨⟨⟨⟨⟨⟨⟨⟨⟨Gap.noNl h0, IsWord.noNl hr.src.1⟩, Gap.noNl h1.1⟩, IsWord.noNl hr.chartype⟩, Gap.noNl h2.1⟩,
      IsWord.noNl hr.action⟩, Gap.noNl h3.1⟩, IsWord.noNl (Row.Ok.dstWord hr)⟩, Gap.noNl h4⟩, showComment_noNl hc⟩

theorem records_file (ls : List Line) (h : ∀ l ∈ ls, l.Ok) : records (fileOf ls) = ls.map Line.text ++ [[]] := by
  unfold records
  induction ls with
  | nil => rfl
  | cons l ls ih =>
    have hl := Line.Ok.noNl (h l (by simp))
    have : fileOf (l :: ls) = l.text ++ 10 :: fileOf ls := by simp [fileOf]
    rw [this, recordsGo_line _ _ _ hl, ih fun l hl => h l (by simp [hl])]
    rfl

theorem strip_append (t : Word) (c : Option Word) (h : ∀ b ∈ t, b ≠ (35 : Byte)) : stripComment (t ++ showComment c) = t := by
  unfold stripComment
  rw [List.takeWhile_append_of_pos (by simpa using h)]
  cases c <;> simp [showComment]

theorem fieldsGo_gap (g t : Word) (h : Gap g) : fieldsGo [] (g ++ t) = fieldsGo [] t := by
  induction g with
  | nil => rfl
  | cons c g ih =>
    have hc : c = 32 ∨ c = 9 ∨ c = 10 := by rcases h c (by simp) with e | e <;> simp [e]
    rw [List.cons_append, fieldsGo, if_pos hc, if_pos rfl]
    exact ih fun b hb => h b (by simp [hb])

theorem fieldsGo_word (w cur t : Word) (h : ∀ b ∈ w, b ≠ (32 : Byte) ∧ b ≠ 9 ∧ b ≠ 10 ∧ b ≠ 35) :
    fieldsGo cur (w ++ t) = fieldsGo (w.reverse ++ cur) t := by
  induction w generalizing cur with
  | nil => rfl
  | cons c w ih =>
    have hc := h c (by simp)
    rw [List.cons_append, fieldsGo, if_neg (by simp [hc.1, hc.2.1, hc.2.2.1]), ih _ fun b hb => h b (by simp [hb])]
    simp

theorem fieldsGo_end (cur : Word) (hc : cur ≠ []) (g : Word) (h : Gap g) (t : Word) (hg : g ≠ [] ∨ t = []) :
    fieldsGo cur (g ++ t) = cur.reverse :: fieldsGo [] t := by
  cases g with
  | nil =>
    obtain rfl : t = [] := by simpa using hg
    simp [fieldsGo, hc]
  | cons c g =>
    have hc' : c = 32 ∨ c = 9 ∨ c = 10 := by rcases h c (by simp) with e | e <;> simp [e]
    rw [List.cons_append, fieldsGo, if_pos hc', if_neg hc, fieldsGo_gap _ _ fun b hb => h b (by simp [hb])]

theorem fieldsGo_step (w g t : Word) (hw : IsWord w) (h : Gap g) (hg : g ≠ [] ∨ t = []) :
    fieldsGo [] (w ++ (g ++ t)) = w :: fieldsGo [] t := by
  rw [fieldsGo_word _ _ _ hw.2, fieldsGo_end _ (by simpa using hw.1) _ h _ hg]
  simp

theorem fields_rule {g0 g1 g2 g3 g4 : Word} {r : Row} {c : Option Word} (h : (Line.rule g0 r g1 g2 g3 g4 c).Ok) :
    fields (stripComment (Line.rule g0 r g1 g2 g3 g4 c).text) = [r.src, r.chartype, r.action, r.dst] := by
  obtain ⟨hr, h0, h1, h2, h3, h4, hc⟩ := h
  have hd := Row.Ok.dstWord hr
  have hw : ∀ {w : Word}, IsWord w → ∀ b ∈ w, b ≠ (35 : Byte) := fun hw b hb => (hw.2 b hb).2.2.2
  rw [Line.text, strip_append]
  · unfold fields
    simp only [List.append_assoc]
    rw [fieldsGo_gap _ _ h0, fieldsGo_step _ _ _ hr.src.1 h1.1 (.inl h1.2), fieldsGo_step _ _ _ hr.chartype h2.1 (.inl h2.2),
      fieldsGo_step _ _ _ hr.action h3.1 (.inl h3.2)]
    have := fieldsGo_step r.dst g4 [] hd h4 (.inr rfl)
    rw [List.append_nil] at this
    rw [this]
    rfl
  · intro b hb
    simp only [List.mem_append] at hb
    rcases hb with (((((((hb | hb) | hb) | hb) | hb) | hb) | hb) | hb) | hb
    · exact Gap.noHash h0 b hb
    · exact hw hr.src.1 b hb
    · exact Gap.noHash h1.1 b hb
    · exact hw hr.chartype b hb
    · exact Gap.noHash h2.1 b hb
    · exact hw hr.action b hb
    · exact Gap.noHash h3.1 b hb
    · exact hw hd b hb
    · exact Gap.noHash h4 b hb

theorem fields_nothing {g : Word} {c : Option Word} (h : (Line.nothing g c).Ok) :
    fields (stripComment (Line.nothing g c).text) = [] := by
  rw [Line.text, strip_append _ _ (Gap.noHash h.1)]
  have := fieldsGo_gap g [] h.1
  rw [List.append_nil] at this
  exact this

/-- The translation of a file is the translation of its rules. -/
theorem fold_rows (ls : List Line) (h : ∀ l ∈ ls, l.Ok) (v : Vars) :
    (ls.map Line.text).foldl oneRecord v = (rowsOf ls).foldl (fun v r => record v r.src r.chartype r.action r.dst) v := by
  induction ls generalizing v with
  | nil => rfl
  | cons l ls ih =>
    have hl := h l (by simp)
    have ih := fun v => ih (fun l hl => h l (by simp [hl])) v
    cases l with
    | nothing g c => simp only [List.map_cons, List.foldl_cons, rowsOf, oneRecord, fields_nothing hl]; exact ih v
    | rule g0 r g1 g2 g3 g4 c =>
      simp only [List.map_cons, List.foldl_cons, rowsOf, oneRecord, fields_rule hl]
      exact ih _

theorem arggram2c_rows (ls : List Line) (h : ∀ l ∈ ls, l.Ok) :
    arggram2c (fileOf ls) = finishGen ((rowsOf ls).foldl (fun v r => record v r.src r.chartype r.action r.dst) {}) := by
  rw [arggram2c, records_file ls h, List.foldl_append, fold_rows ls h]
  rfl

/-- Whether the file ends with a newline does not matter. -/
theorem records_noNl (ls : List Line) (l : Line) (h : ∀ l ∈ ls, l.Ok) (hl : l.Ok) :
    records (fileOf ls ++ l.text) = ls.map Line.text ++ [l.text] := by
  unfold records
  induction ls with
  | nil =>
    have key : ∀ (t cur : Word), (10 : Byte) ∉ t → recordsGo cur t = [cur.reverse ++ t] := by
      intro t
      induction t with
      | nil => intro cur _; simp [recordsGo]
      | cons c t ih =>
        intro cur h
        simp only [List.mem_cons, not_or] at h
        rw [recordsGo, if_neg (Ne.symm h.1), ih _ h.2]
        simp
    exact key _ [] (Line.Ok.noNl hl)
  | cons l ls ih =>
    have hl := Line.Ok.noNl (h l (by simp))
    have : ∀ t, fileOf (l :: ls) ++ t = l.text ++ 10 :: (fileOf ls ++ t) := by simp [fileOf]
    rw [this, recordsGo_line _ _ _ hl, ih fun l hl => h l (by simp [hl])]
    rfl

/-! ## `sub` -/

theorem subFirst_none (re repl w : Word) (hre : re ≠ []) (h : ¬ re <:+: w) : subFirst re repl w = w := by
  induction w with
  | nil => simp [subFirst, hre]
  | cons c t ih =>
    have h1 : re.isPrefixOf (c :: t) = false := by
      cases e : re.isPrefixOf (c :: t) with
      | false => rfl
      | true => exact absurd (List.isPrefixOf_iff_prefix.1 e).isInfix h
    rw [subFirst, h1, if_neg Bool.false_ne_true, ih fun hi => h (hi.trans (List.suffix_cons c t).isInfix)]

/-- `$4` after the two substitutions. -/
def sub4 (w : Word) : Word := subFirst (word "ERROR") (word "-2") (subFirst (word "EXIT") (word "-1") w)

theorem sub4_exit : sub4 (word "EXIT") = word "-1" := by decide +kernel
theorem sub4_error : sub4 (word "ERROR") = word "-2" := by decide +kernel

theorem sub4_name {w : Word} (h : StateName w) : sub4 w = w := by
  unfold sub4
  rw [subFirst_none _ _ _ exit_word.1 h.2.2.1, subFirst_none _ _ _ error_word.1 h.2.2.2]

theorem StateName.ge0 {w : Word} (h : StateName w) : ArgGram.ge0 w = true := by
  obtain ⟨_, ⟨b, hb, hl⟩, _⟩ := h
  cases w with
  | nil => rfl
  | cons c t =>
    obtain rfl : b = c := by simpa using hb
    have : (48 : Byte) ≤ b := by
      rcases hl with hl | hl | hl
      · exact UInt8.le_trans (by decide) hl.1
      · exact UInt8.le_trans (by decide) hl.1
      · subst hl; decide
    simpa [ArgGram.ge0] using this

theorem StateName.ne {w : Word} (h : StateName w) : w ≠ word "EXIT" ∧ w ≠ word "ERROR" :=
  ⟨fun e => h.2.2.1 (e ▸ List.infix_refl _), fun e => h.2.2.2 (e ▸ List.infix_refl _)⟩

/-! ## Numbering -/

def addW (ws : List Word) (w : Word) : List Word := if w ∈ ws then ws else ws ++ [w]

/-- `tab` numbers the words of `ws` by their positions. -/
structure Tab (tab : List (Word × Nat)) (ws : List Word) : Prop where
  eq : tab = ws.zipIdx.reverse
  nodup : ws.Nodup

theorem Tab.length {tab ws} (t : Tab tab ws) : tab.length = ws.length := by rw [t.eq]; simp

theorem find_zip (ws : List Word) (hn : ws.Nodup) (w : Word) :
    find ws.zipIdx.reverse w = if w ∈ ws then some (ws.idxOf w) else none := by
  induction ws using List.reverseRecOn with
  | nil => rfl
  | append_singleton ws x ih =>
    have hx : x ∉ ws := by
      rw [List.nodup_append] at hn
      intro hx
      exact hn.2.2 x hx x (by simp) rfl
    have hn' : ws.Nodup := (List.nodup_append.1 hn).1
    rw [List.zipIdx_append, List.reverse_append]
    simp only [List.zipIdx_cons, List.zipIdx_nil, List.reverse_cons, List.reverse_nil, List.nil_append, List.singleton_append, find,
      List.find?_cons]
    by_cases e : x = w
    · subst e
      simp [List.idxOf_append, hx]
    · have ih := ih hn'
      unfold find at ih
      simp only [e, decide_false]
      rw [ih]
      by_cases hw : w ∈ ws
      · simp [hw, List.idxOf_append]
      · simp [hw, Ne.symm e]

theorem Tab.find {tab ws} (t : Tab tab ws) (w : Word) : ArgGram.find tab w = if w ∈ ws then some (ws.idxOf w) else none := by
  rw [t.eq, find_zip _ t.nodup]

theorem Tab.add {tab ws} (t : Tab tab ws) {w : Word} (h : w ∉ ws) : Tab ((w, tab.length) :: tab) (ws ++ [w]) := by
  refine ⟨?_, ?_⟩
  · rw [List.zipIdx_append, List.reverse_append, t.length, ← t.eq]; simp
  · rw [List.nodup_append]
    refine ⟨t.nodup, by simp, ?_⟩
    intro a ha b hb
    obtain rfl : b = w := by simpa using hb
    exact fun e => h (e ▸ ha)

theorem mem_addW {ws : List Word} {w x : Word} : x ∈ addW ws w ↔ x ∈ ws ∨ x = w := by
  unfold addW
  split
  · constructor
    · exact .inl
    · rintro (h | rfl) <;> assumption
  · simp

theorem idxOf_addW {ws : List Word} {w x : Word} (h : x ∈ ws) : (addW ws w).idxOf x = ws.idxOf x := by
  unfold addW
  split
  · rfl
  · rw [List.idxOf_append, if_pos h]

theorem head_addW {ws : List Word} {w : Word} : (addW ws w).head? = (ws.head? <|> some w) := by
  unfold addW
  split
  · cases ws with
    | nil => simp at *
    | cons a t => rfl
  · cases ws <;> rfl

theorem number_tab {tab ws} (t : Tab tab ws) (w : Word) :
    Tab (number tab w).1 (addW ws w) ∧ (number tab w).2 = (addW ws w).idxOf w := by
  unfold number addW
  rw [t.find]
  by_cases h : w ∈ ws
  · simp [h, t]
  · simp only [if_neg h]
    exact ⟨t.add h, by simp [List.idxOf_append, h, t.length]⟩

theorem numberState_tab {tab ws} (t : Tab tab ws) {w : Word} (hw : StateName w) :
    Tab (numberState tab w).1 (addW ws w) ∧ (numberState tab w).2 = .num ((addW ws w).idxOf w) := by
  unfold numberState addW
  rw [t.find]
  by_cases h : w ∈ ws
  · simp [h, t]
  · simp only [if_neg h, StateName.ge0 hw, if_true]
    exact ⟨t.add h, by simp [List.idxOf_append, h, t.length]⟩

/-! ## The rules -/

/-- How a target is stored in `trans`. -/
def tval (ws : List Word) : Target → Val
  | .state s => .num (ws.idxOf s)
  | .exit => .str (word "-1")
  | .error => .str (word "-2")

/-- The words after a target has been numbered. -/
def addT (ws : List Word) : Target → List Word
  | .state s => addW ws s
  | _ => ws

theorem Row.Ok.target {r : Row} (h : r.Ok) :
    (StateName r.dst ∧ r.target = .state r.dst) ∨ (r.dst = word "EXIT" ∧ r.target = .exit) ∨ (r.dst = word "ERROR" ∧ r.target = .error) := by
  unfold Row.target
  rcases h.dst with e | e | e
  · have := StateName.ne e
    left; exact ⟨e, by rw [if_neg this.1, if_neg this.2]⟩
  · right; left; exact ⟨e, by rw [if_pos e]⟩
  · right; right; refine ⟨e, ?_⟩
    rw [if_neg, if_pos e]
    rw [e]; decide +kernel

theorem numberState_target {tab ws} (t : Tab tab ws) (hws : ∀ s ∈ ws, StateName s) {r : Row} (h : r.Ok) :
    Tab (numberState tab (sub4 r.dst)).1 (addT ws r.target) ∧
      (numberState tab (sub4 r.dst)).2 = tval (addT ws r.target) r.target := by
  rcases Row.Ok.target h with ⟨e, e'⟩ | ⟨e, e'⟩ | ⟨e, e'⟩
  · rw [sub4_name e, e']
    exact numberState_tab t e
  · rw [e, e', sub4_exit]
    have hn : word "-1" ∉ ws := fun hm => absurd (StateName.ge0 (hws _ hm)) (by decide +kernel)
    have hg : ArgGram.ge0 (word "-1") = false := by decide +kernel
    unfold numberState
    rw [t.find, if_neg hn]
    simp only [hg, Bool.false_eq_true, if_false]
    exact ⟨t, rfl⟩
  · rw [e, e', sub4_error]
    have hn : word "-2" ∉ ws := fun hm => absurd (StateName.ge0 (hws _ hm)) (by decide +kernel)
    have hg : ArgGram.ge0 (word "-2") = false := by decide +kernel
    unfold numberState
    rw [t.find, if_neg hn]
    simp only [hg, Bool.false_eq_true, if_false]
    exact ⟨t, rfl⟩

/-- What is known after the rules `rows`. -/
structure VInv (rows : List Row) (v : Vars) (ws cs as : List Word) : Prop where
  states : Tab v.states ws
  chartypes : Tab v.chartypes cs
  actions : Tab v.actions as
  act : v.act = rows.reverse.map fun r => ((.num (ws.idxOf r.src), cs.idxOf r.chartype), as.idxOf r.action)
  trans : v.trans = rows.reverse.map fun r => ((.num (ws.idxOf r.src), cs.idxOf r.chartype), tval ws r.target)
  memS : ∀ s, s ∈ ws ↔ IsState rows s
  memC : ∀ c, c ∈ cs ↔ ∃ r ∈ rows, r.chartype = c
  memA : ∀ a, a ∈ as ↔ ∃ r ∈ rows, r.action = a
  headS : ws.head? = rows.head?.map (·.src)
  headA : as.head? = rows.head?.map (·.action)

theorem mem_addT {ws : List Word} {t : Target} {x : Word} : x ∈ addT ws t ↔ x ∈ ws ∨ t = .state x := by
  cases t <;> simp [addT, mem_addW, eq_comm]

theorem idxOf_addT {ws : List Word} {t : Target} {x : Word} (h : x ∈ ws) : (addT ws t).idxOf x = ws.idxOf x := by
  cases t <;> simp [addT, idxOf_addW h]

theorem head_addT {ws : List Word} {t : Target} (h : ws ≠ []) : (addT ws t).head? = ws.head? := by
  cases t with
  | state s =>
    rw [addT, head_addW]
    cases ws with
    | nil => exact absurd rfl h
    | cons a t => rfl
  | exit => rfl
  | error => rfl

theorem VInv.step {rows v ws cs as} (i : VInv rows v ws cs as) (hok : ∀ r ∈ rows, r.Ok) {r : Row} (h : r.Ok) :
    ∃ ws' cs' as', VInv (rows ++ [r]) (record v r.src r.chartype r.action r.dst) ws' cs' as' := by
  have hname : ∀ s ∈ addW ws r.src, StateName s := by
    intro s hs
    rcases mem_addW.1 hs with hs | rfl
    · obtain ⟨q, hq, e | e⟩ := (i.memS s).1 hs
      · exact e ▸ (hok q hq).src
      · rcases Row.Ok.target (hok q hq) with ⟨a, b⟩ | ⟨a, b⟩ | ⟨a, b⟩ <;> rw [b] at e
        · cases e; exact a
        · cases e
        · cases e
    · exact h.src
  have n1 := numberState_tab i.states h.src
  have n2 := number_tab i.chartypes r.chartype
  have n3 := number_tab i.actions r.action
  have n4 := numberState_target n1.1 hname h
  have hsrc : r.src ∈ addW ws r.src := mem_addW.2 (.inr rfl)
  refine ⟨addT (addW ws r.src) r.target, addW cs r.chartype, addW as r.action, n4.1, n2.1, n3.1, ?_, ?_, ?_, ?_, ?_, ?_, ?_⟩
  · simp only [record, List.reverse_append, List.reverse_cons, List.reverse_nil, List.nil_append, List.singleton_append, List.map_cons]
    rw [n1.2, n2.2, n3.2, i.act, idxOf_addT hsrc]
    congr 1
    refine List.map_congr_left fun q hq => ?_
    have hq : q ∈ rows := by simpa using hq
    have e1 : q.src ∈ ws := (i.memS _).2 ⟨q, hq, .inl rfl⟩
    have e2 : q.chartype ∈ cs := (i.memC _).2 ⟨q, hq, rfl⟩
    have e3 : q.action ∈ as := (i.memA _).2 ⟨q, hq, rfl⟩
    rw [idxOf_addT (mem_addW.2 (.inl e1)), idxOf_addW e1, idxOf_addW e2, idxOf_addW e3]
  · simp only [record, List.reverse_append, List.reverse_cons, List.reverse_nil, List.nil_append, List.singleton_append, List.map_cons]
    have n42 := n4.2
    unfold sub4 at n42
    rw [n42, n1.2, n2.2, i.trans, idxOf_addT hsrc]
    congr 1
    refine List.map_congr_left fun q hq => ?_
    have hq : q ∈ rows := by simpa using hq
    have e1 : q.src ∈ ws := (i.memS _).2 ⟨q, hq, .inl rfl⟩
    have e2 : q.chartype ∈ cs := (i.memC _).2 ⟨q, hq, rfl⟩
    rw [idxOf_addT (mem_addW.2 (.inl e1)), idxOf_addW e1, idxOf_addW e2]
    congr 1
    cases ht : q.target with
    | state s =>
      have e3 : s ∈ ws := (i.memS _).2 ⟨q, hq, .inr ht⟩
      simp only [tval]
      rw [idxOf_addT (mem_addW.2 (.inl e3)), idxOf_addW e3]
    | exit => rfl
    | error => rfl
  · intro s
    rw [mem_addT, mem_addW, i.memS]
    constructor
    · rintro ((⟨q, hq, e⟩ | e) | e)
      · exact ⟨q, by simp [hq], e⟩
      · exact ⟨r, by simp, .inl e.symm⟩
      · exact ⟨r, by simp, .inr e⟩
    · rintro ⟨q, hq, e⟩
      rcases List.mem_append.1 hq with hq | hq
      · exact .inl (.inl ⟨q, hq, e⟩)
      · obtain rfl : q = r := by simpa using hq
        rcases e with e | e
        · exact .inl (.inr e.symm)
        · exact .inr e
  · intro c
    rw [mem_addW, i.memC]
    constructor
    · rintro (⟨q, hq, e⟩ | e)
      · exact ⟨q, by simp [hq], e⟩
      · exact ⟨r, by simp, e.symm⟩
    · rintro ⟨q, hq, e⟩
      rcases List.mem_append.1 hq with hq | hq
      · exact .inl ⟨q, hq, e⟩
      · obtain rfl : q = r := by simpa using hq
        exact .inr e.symm
  · intro c
    rw [mem_addW, i.memA]
    constructor
    · rintro (⟨q, hq, e⟩ | e)
      · exact ⟨q, by simp [hq], e⟩
      · exact ⟨r, by simp, e.symm⟩
    · rintro ⟨q, hq, e⟩
      rcases List.mem_append.1 hq with hq | hq
      · exact .inl ⟨q, hq, e⟩
      · obtain rfl : q = r := by simpa using hq
        exact .inr e.symm
  · rw [head_addT (List.ne_nil_of_mem hsrc), head_addW, i.headS]
    cases rows <;> rfl
  · rw [head_addW, i.headA]
    cases rows <;> rfl

theorem vinv (rows : List Row) (hok : ∀ r ∈ rows, r.Ok) :
    ∃ ws cs as, VInv rows (rows.foldl (fun v r => record v r.src r.chartype r.action r.dst) {}) ws cs as := by
  induction rows using List.reverseRecOn with
  | nil =>
    exact ⟨[], [], [], ⟨rfl, by simp⟩, ⟨rfl, by simp⟩, ⟨rfl, by simp⟩, rfl, rfl, by simp [IsState], by simp, by simp, rfl, rfl⟩
  | append_singleton rows r ih =>
    obtain ⟨ws, cs, as, i⟩ := ih fun r hr => hok r (by simp [hr])
    rw [List.foldl_append]
    exact i.step (fun r hr => hok r (by simp [hr])) (hok r (by simp))

/-! ## The arrays -/

theorem idxOf_inj {ws : List Word} {a b : Word} (ha : a ∈ ws) (h : ws.idxOf a = ws.idxOf b) : a = b := by
  have hl : ws.idxOf a < ws.length := List.idxOf_lt_length_iff.2 ha
  have h1 := List.getElem_idxOf hl
  have h2 := List.getElem_idxOf (h ▸ hl : ws.idxOf b < ws.length)
  rw [← h1, ← h2]
  simp only [h]

theorem find?_congr' {α : Type} {p q : α → Bool} {l : List α} (h : ∀ a ∈ l, p a = q a) : l.find? p = l.find? q := by
  induction l with
  | nil => rfl
  | cons a l ih =>
    rw [List.find?_cons, List.find?_cons, h a (by simp), ih fun a ha => h a (by simp [ha])]

theorem find_rows {β : Type} (rows : List Row) (ws cs : List Word) (f : Row → β) (s c : Word)
    (hs : ∀ r ∈ rows, r.src ∈ ws) (hc : ∀ r ∈ rows, r.chartype ∈ cs) :
    find (rows.reverse.map fun r => (((.num (ws.idxOf r.src) : Val), cs.idxOf r.chartype), f r)) (.num (ws.idxOf s), cs.idxOf c) =
      ((rows.filter fun r => r.src = s ∧ r.chartype = c).getLast?).map f := by
  rw [List.getLast?_eq_head?_reverse, ← List.filter_reverse, List.head?_filter]
  unfold find
  rw [List.find?_map, Option.map_map]
  congr 1
  apply find?_congr'
  intro r hr
  have hr : r ∈ rows := by simpa using hr
  simp only [Function.comp, decide_eq_decide, Prod.mk.injEq, Val.num.injEq]
  constructor
  · rintro ⟨e1, e2⟩
    exact ⟨idxOf_inj (hs r hr) e1, idxOf_inj (hc r hr) e2⟩
  · rintro ⟨rfl, rfl⟩
    exact ⟨rfl, rfl⟩

theorem index_range (n m : Nat) (f : Nat → Nat → Int) (i j : Nat) (hi : i < n) (hj : j < m) :
    index ((List.range n).map fun i => (List.range m).map fun j => f i j) (i : Int) j = .ok (f i j) := by
  unfold index
  rw [if_neg (by omega)]
  simp [hi, hj]

/-- The number a target is given. -/
def code (st : Word → Nat) : Target → Int
  | .state s => st s
  | .exit => -1
  | .error => -2

theorem toInt_tval (ws : List Word) (t : Target) : toInt (tval ws t) = code ws.idxOf t := by
  cases t with
  | state s => rfl
  | exit => exact (by decide +kernel : toInt (.str (word "-1")) = -1)
  | error => exact (by decide +kernel : toInt (.str (word "-2")) = -2)

theorem idxOf_head {ws : List Word} {a : Word} (h : ws.head? = some a) : ws.idxOf a = 0 := by
  cases ws with
  | nil => cases h
  | cons x t => obtain rfl : x = a := by simpa using h
                simp

theorem VInv.cells {rows v ws cs as} (i : VInv rows v ws cs as) {s c : Word} (hs : s ∈ ws) (hc : c ∈ cs) :
    index (finishGen v).action (ws.idxOf s) (cs.idxOf c) = .ok (as.idxOf (cell rows s c).1 : Nat) ∧
      index (finishGen v).transition (ws.idxOf s) (cs.idxOf c) = .ok (code ws.idxOf (cell rows s c).2) := by
  have hi : ws.idxOf s < v.states.length := by rw [i.states.length]; exact List.idxOf_lt_length_iff.2 hs
  have hj : cs.idxOf c < v.chartypes.length := by rw [i.chartypes.length]; exact List.idxOf_lt_length_iff.2 hc
  have h1 : ∀ r ∈ rows, r.src ∈ ws := fun r hr => (i.memS _).2 ⟨r, hr, .inl rfl⟩
  have h2 : ∀ r ∈ rows, r.chartype ∈ cs := fun r hr => (i.memC _).2 ⟨r, hr, rfl⟩
  have hne : rows ≠ [] := by
    rintro rfl
    obtain ⟨r, hr, _⟩ := (i.memS s).1 hs
    cases hr
  obtain ⟨r0, rs, rfl⟩ : ∃ r0 rs, rows = r0 :: rs := by
    cases rows with
    | nil => exact absurd rfl hne
    | cons a b => exact ⟨a, b, rfl⟩
  constructor
  · simp only [finishGen]
    rw [index_range _ _ _ _ _ hi hj, i.act, find_rows _ ws cs _ s c h1 h2]
    unfold cell
    cases List.getLast? _ with
    | some r => rfl
    | none => simp [idxOf_head i.headA]
  · simp only [finishGen]
    rw [index_range _ _ _ _ _ hi hj, i.trans, find_rows _ ws cs _ s c h1 h2]
    unfold cell
    cases List.getLast? _ with
    | some r => simp [toInt_tval]
    | none => simp [code, start, idxOf_head i.headS]

theorem rows_ok (ls : List Line) (hok : ∀ l ∈ ls, l.Ok) : ∀ r ∈ rowsOf ls, r.Ok := by
  induction ls with
  | nil => intro r hr; cases hr
  | cons l ls ih =>
    have ih := ih fun l hl => hok l (by simp [hl])
    cases l with
    | nothing g c => exact ih
    | rule g0 r g1 g2 g3 g4 c =>
      intro q hq
      rcases List.mem_cons.1 hq with rfl | hq
      · exact (hok _ (List.mem_cons_self ..)).1
      · exact ih q hq

theorem mem_zip {ws : List Word} (hn : ws.Nodup) {w : Word} {n : Nat} :
    (w, n) ∈ ws.zipIdx.reverse ↔ w ∈ ws ∧ n = ws.idxOf w := by
  rw [List.mem_reverse, List.mem_zipIdx_iff_getElem?]
  simp only
  constructor
  · intro h
    obtain ⟨hn', rfl⟩ := List.getElem?_eq_some_iff.1 h
    exact ⟨List.getElem_mem _, (hn.idxOf_getElem n hn').symm⟩
  · rintro ⟨h, rfl⟩
    rw [List.getElem?_eq_some_iff]
    exact ⟨List.idxOf_lt_length_iff.2 h, List.getElem_idxOf _⟩

theorem mem_iff_of_length {ws : List Word} (ns : List Word) (hw : ws.Nodup) (hn : ns.Nodup) {P : Word → Prop}
    (hP : ∀ c, P c ↔ c ∈ ns) (hl : ws.length = ns.length) (hs : ∀ c ∈ ns, c ∈ ws) (c : Word) : c ∈ ws ↔ P c := by
  rw [hP]
  have hp : ns.Subperm ws := List.subperm_of_subset hn hs
  exact (hp.perm_of_length_le (by omega)).mem_iff.symm

theorem length_of_mem_iff {ws : List Word} (ns : List Word) (hw : ws.Nodup) (hn : ns.Nodup) (h : ∀ c, c ∈ ws ↔ c ∈ ns) :
    ws.length = ns.length := by
  have h1 : ns.Subperm ws := List.subperm_of_subset hn fun c hc => (h c).2 hc
  have h2 : ws.Subperm ns := List.subperm_of_subset hw fun c hc => (h c).1 hc
  have := h1.length_le
  have := h2.length_le
  omega

end Maa.ArgGram
