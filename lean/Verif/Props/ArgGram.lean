import Verif.Lemmas.ArgGram
import Verif.Props.Arg

/-! # C85: the grammar of the argument splitter and the code generated from it -/

namespace Maa.ArgGram

open Spec.ArgGram
open StrMem (Mem)
open Arg (ArgList CT Act charType)

/-! ## What following the rules means -/

/-- The name of a type of character. -/
def ctName : CT → Word
  | .dq => word "DQ"
  | .sq => word "SQ"
  | .other => word "OTHER"
  | .bs => word "BS"
  | .null => word "NULL"
  | .space => word "SPACE"

/-- The name of an action. -/
def actName : Act → Word
  | .skip => word "SKIP"
  | .incl => word "INCLUDE"
  | .finish => word "FINISH"

/-- The action with a name. -/
def actOf (w : Word) : Option Act :=
  if w = actName .skip then some .skip else if w = actName .incl then some .incl else if w = actName .finish then some .finish else none

/-- Following the rules by name from state `state`: look up the rule for the state and the type of the next character, perform its
action, go on with its target.  `EXIT` and `ERROR` end; after the end of the text the program ends if neither was reached. -/
def follow (rows : List Row) (quoteStyle : Nat) (string : List Byte) :
    List Byte → Nat → Word → Option Nat → Mem × ArgList → Res (Mem × ArgList)
  | [], _, _, _, _ => .ub
  | ch :: rest, pt, state, last, σ =>
    let t := cell rows state (ctName (charType quoteStyle ch))
    match actOf t.1 with
    | none => .abort
    | some a =>
      (Arg.act string pt last σ a).bind fun r =>
        match t.2 with
        | .state s => if ch ≠ 0 then follow rows quoteStyle string rest (pt + 1) s r.1 r.2 else .abort
        | .exit => .ok r.2
        | .error => .ok r.2

/-! ## Building -/

def ctNames : List Word := [word "DQ", word "SQ", word "OTHER", word "BS", word "NULL", word "SPACE"]
def actNames : List Word := [word "SKIP", word "INCLUDE", word "FINISH"]

theorem ctNames_nodup : ctNames.Nodup := by decide +kernel
theorem actNames_nodup : actNames.Nodup := by decide +kernel

theorem ctNames_mem (c : Word) : (∃ t, ctName t = c) ↔ c ∈ ctNames := by
  simp only [ctNames, List.mem_cons, List.not_mem_nil, or_false]
  constructor
  · rintro ⟨t, rfl⟩
    cases t <;> simp [ctName]
  · rintro (h | h | h | h | h | h)
    · exact ⟨.dq, h.symm⟩
    · exact ⟨.sq, h.symm⟩
    · exact ⟨.other, h.symm⟩
    · exact ⟨.bs, h.symm⟩
    · exact ⟨.null, h.symm⟩
    · exact ⟨.space, h.symm⟩

theorem actNames_mem (c : Word) : (∃ t, actName t = c) ↔ c ∈ actNames := by
  simp only [actNames, List.mem_cons, List.not_mem_nil, or_false]
  constructor
  · rintro ⟨t, rfl⟩
    cases t <;> simp [actName]
  · rintro (h | h | h)
    · exact ⟨.skip, h.symm⟩
    · exact ⟨.incl, h.symm⟩
    · exact ⟨.finish, h.symm⟩

/-- The program built from numbered words. -/
def progOf (g : Gen) (cs as : List Word) : Prog :=
  Prog.mk (cs.idxOf (word "DQ")) (cs.idxOf (word "SQ")) (cs.idxOf (word "OTHER")) (cs.idxOf (word "BS")) (cs.idxOf (word "NULL"))
    (cs.idxOf (word "SPACE")) (as.idxOf (word "SKIP")) (as.idxOf (word "INCLUDE")) (as.idxOf (word "FINISH")) g.action g.transition

theorem Tab.find_some {tab ws} (t : Tab tab ws) {w : Word} {n : Nat} (h : ArgGram.find tab w = some n) : w ∈ ws ∧ n = ws.idxOf w := by
  rw [t.find] at h
  split at h
  · exact ⟨by assumption, by cases h; rfl⟩
  · cases h

theorem build_some {rows v ws cs as} (i : VInv rows v ws cs as) {p : Prog} (hp : build (finishGen v) = some p) :
    as.length = actNames.length ∧ cs.length = ctNames.length ∧ (∀ c ∈ ctNames, c ∈ cs) ∧ (∀ a ∈ actNames, a ∈ as) ∧
      p = progOf (finishGen v) cs as := by
  unfold build at hp
  have l3 : (finishGen v).actions.length = as.length := i.actions.length
  have l6 : (finishGen v).chartypes.length = cs.length := i.chartypes.length
  split at hp
  · cases hp
  split at hp
  · cases hp
  simp only [Option.bind_eq_some_iff, Option.some.injEq] at hp
  obtain ⟨dq, h1, sq, h2, other, h3, bs, h4, null, h5, space, h6, skip, h7, incl, h8, fin, h9, rfl⟩ := hp
  have ct : Tab (finishGen v).chartypes cs := i.chartypes
  have at' : Tab (finishGen v).actions as := i.actions
  obtain ⟨m1, rfl⟩ := Tab.find_some ct h1
  obtain ⟨m2, rfl⟩ := Tab.find_some ct h2
  obtain ⟨m3, rfl⟩ := Tab.find_some ct h3
  obtain ⟨m4, rfl⟩ := Tab.find_some ct h4
  obtain ⟨m5, rfl⟩ := Tab.find_some ct h5
  obtain ⟨m6, rfl⟩ := Tab.find_some ct h6
  obtain ⟨m7, rfl⟩ := Tab.find_some at' h7
  obtain ⟨m8, rfl⟩ := Tab.find_some at' h8
  obtain ⟨m9, rfl⟩ := Tab.find_some at' h9
  refine ⟨?_, ?_, ?_, ?_, rfl⟩
  · simp only [actNames, List.length_cons, List.length_nil]; omega
  · simp only [ctNames, List.length_cons, List.length_nil]; omega
  · simp only [ctNames, List.mem_cons, List.not_mem_nil, or_false]
    rintro c (rfl | rfl | rfl | rfl | rfl | rfl) <;> assumption
  · simp only [actNames, List.mem_cons, List.not_mem_nil, or_false]
    rintro c (rfl | rfl | rfl) <;> assumption

theorem build_of {rows v ws cs as} (i : VInv rows v ws cs as) (hc : ∀ t, ctName t ∈ cs) (ha : ∀ t, actName t ∈ as)
    (h6 : cs.length = ctNames.length) (h3 : as.length = actNames.length) :
    build (finishGen v) = some (progOf (finishGen v) cs as) := by
  have ct : Tab (finishGen v).chartypes cs := i.chartypes
  have at' : Tab (finishGen v).actions as := i.actions
  unfold build
  rw [if_neg (by rw [at'.length, h3]; decide), if_neg (by rw [ct.length, h6]; decide)]
  have c1 : word "DQ" ∈ cs := hc .dq
  have c2 : word "SQ" ∈ cs := hc .sq
  have c3 : word "OTHER" ∈ cs := hc .other
  have c4 : word "BS" ∈ cs := hc .bs
  have c5 : word "NULL" ∈ cs := hc .null
  have c6 : word "SPACE" ∈ cs := hc .space
  have a1 : word "SKIP" ∈ as := ha .skip
  have a2 : word "INCLUDE" ∈ as := ha .incl
  have a3 : word "FINISH" ∈ as := ha .finish
  rw [ct.find, ct.find, ct.find, ct.find, ct.find, ct.find, at'.find, at'.find, at'.find,
    if_pos c1, if_pos c2, if_pos c3, if_pos c4, if_pos c5, if_pos c6, if_pos a1, if_pos a2, if_pos a3]
  rfl

theorem progOf_ct (g : Gen) (cs as : List Word) (q : Nat) (ch : Byte) :
    char2charType (progOf g cs as) q ch = cs.idxOf (ctName (charType q ch)) := by
  unfold char2charType charType
  split_ifs <;> rfl

theorem actOf_name {w : Word} (h : w ∈ actNames) : ∃ a, actOf w = some a ∧ actName a = w := by
  obtain ⟨a, rfl⟩ := (actNames_mem w).2 h
  refine ⟨a, ?_, rfl⟩
  cases a <;> decide +kernel

theorem progOf_act (g : Gen) (cs as : List Word) (ha : ∀ a ∈ actNames, a ∈ as) (string : List Byte) (pt : Nat) (last : Option Nat)
    (σ : Mem × ArgList) (a : Act) :
    switchAct (progOf g cs as) string pt last σ (as.idxOf (actName a) : Nat) = Arg.act string pt last σ a := by
  have h7 : word "SKIP" ∈ as := ha _ ((actNames_mem _).1 ⟨.skip, rfl⟩)
  have h8 : word "INCLUDE" ∈ as := ha _ ((actNames_mem _).1 ⟨.incl, rfl⟩)
  have h9 : word "FINISH" ∈ as := ha _ ((actNames_mem _).1 ⟨.finish, rfl⟩)
  have e : ∀ {x y : Word}, x ∈ as → x ≠ y → ((as.idxOf x : Nat) : Int) ≠ (as.idxOf y : Nat) := fun hx hne he =>
    hne (idxOf_inj hx (by omega))
  unfold switchAct progOf
  simp only
  cases a with
  | incl => exact if_pos rfl
  | skip => exact (if_neg (e h7 (by decide +kernel))).trans (if_pos rfl)
  | finish => exact (if_neg (e h9 (by decide +kernel))).trans ((if_neg (e h9 (by decide +kernel))).trans (if_pos rfl))

theorem cell_mem {rows v ws cs as} (i : VInv rows v ws cs as) {s : Word} (hs : s ∈ ws) (c : Word) :
    (cell rows s c).1 ∈ as ∧ ∀ s', (cell rows s c).2 = .state s' → s' ∈ ws := by
  unfold cell
  cases h : List.getLast? (rows.filter fun r => r.src = s ∧ r.chartype = c) with
  | some r =>
    have hr : r ∈ rows := (List.mem_filter.1 (List.mem_of_getLast? h)).1
    exact ⟨(i.memA _).2 ⟨r, hr, rfl⟩, fun s' e => (i.memS _).2 ⟨r, hr, .inr e⟩⟩
  | none =>
    cases rows with
    | nil => obtain ⟨r, hr, _⟩ := (i.memS s).1 hs; cases hr
    | cons r rs =>
      refine ⟨(i.memA _).2 ⟨r, by simp, rfl⟩, fun s' e => ?_⟩
      cases e
      exact (i.memS _).2 ⟨r, by simp, .inl rfl⟩

theorem loop_follow {rows v ws cs as} (i : VInv rows v ws cs as) {p : Prog} (hp : build (finishGen v) = some p)
    (q : Nat) (string rest : List Byte) (pt : Nat) (s : Word) (last : Option Nat) (σ : Mem × ArgList) (hs : s ∈ ws) :
    loop p q string rest pt (ws.idxOf s : Nat) last σ = follow rows q string rest pt s last σ := by
  obtain ⟨h3, h6, hc, ha, rfl⟩ := build_some i hp
  induction rest generalizing pt s last σ with
  | nil => rfl
  | cons ch rest ih =>
    rw [loop, follow]
    simp only [progOf_ct]
    have hcell := i.cells hs (hc _ ((ctNames_mem _).1 ⟨charType q ch, rfl⟩))
    have hm := cell_mem i hs (ctName (charType q ch))
    have hlen := mem_iff_of_length actNames i.actions.nodup actNames_nodup (fun c => Iff.rfl) h3 ha
    obtain ⟨a, ea, en⟩ := actOf_name ((hlen _).1 hm.1)
    have e1 : index (progOf (finishGen v) cs as).action (ws.idxOf s : Nat) (cs.idxOf (ctName (charType q ch))) = _ := hcell.1
    have e2 : index (progOf (finishGen v) cs as).transition (ws.idxOf s : Nat) (cs.idxOf (ctName (charType q ch))) = _ := hcell.2
    rw [e1, e2, ea]
    simp only [Res.bind]
    rw [← en, progOf_act _ _ _ ha]
    cases Arg.act string pt last σ a with
    | ok r =>
      simp only []
      cases ht : (cell rows s (ctName (charType q ch))).2 with
      | state s' =>
        have h0 : (0 : Int) ≤ (ws.idxOf s' : Nat) := by omega
        have h1 : ((ws.idxOf s' : Nat) : Int) ≠ -1 := by omega
        have h2 : ((ws.idxOf s' : Nat) : Int) ≠ -2 := by omega
        by_cases hch : ch = 0
        · simp [hch, code, h1, h2]
        · have hq : ch ≠ 0 ∧ code ws.idxOf (.state s') ≥ 0 := ⟨hch, h0⟩
          have hq' : follow rows q string rest (pt + 1) s' r.1 r.2 =
              if ch ≠ 0 then follow rows q string rest (pt + 1) s' r.1 r.2 else .abort := (if_pos hch).symm
          rw [if_pos hq]
          exact (ih _ _ _ _ (hm.2 s' ht)).trans hq'
      | exit => simp [code]
      | error => simp [code]
    | abort => rfl
    | fatal => rfl
    | ub => rfl

/-! ## The tables -/

/-- C85: for every grammar file, however it is laid out, the translator numbers its states, types of characters and actions from 0
in a row without repeating a number, the state of the first rule is number 0, the `#define`s are exactly the types and actions
mentioned, and the arrays hold, for every state and every type, what the last rule about them says (if there is none, the first action
and the first state). -/
theorem C85_tables (ls : List Line) (hok : ∀ l ∈ ls, l.Ok) : ∃ st ct ac : Word → Nat,
    (∀ n, n < (arggram2c (fileOf ls)).action.length ↔ ∃ s, IsState (rowsOf ls) s ∧ st s = n) ∧
    (∀ s s', IsState (rowsOf ls) s → IsState (rowsOf ls) s' → st s = st s' → s = s') ∧
    (rowsOf ls ≠ [] → st (start (rowsOf ls)) = 0) ∧
    (∀ c n, (c, n) ∈ (arggram2c (fileOf ls)).chartypes ↔ (∃ r ∈ rowsOf ls, r.chartype = c) ∧ n = ct c) ∧
    (∀ c c', (∃ r ∈ rowsOf ls, r.chartype = c) → ct c = ct c' → c = c') ∧
    (∀ a n, (a, n) ∈ (arggram2c (fileOf ls)).actions ↔ (∃ r ∈ rowsOf ls, r.action = a) ∧ n = ac a) ∧
    (∀ a a', (∃ r ∈ rowsOf ls, r.action = a) → ac a = ac a' → a = a') ∧
    (∀ s c, IsState (rowsOf ls) s → (∃ r ∈ rowsOf ls, r.chartype = c) →
      index (arggram2c (fileOf ls)).action (st s) (ct c) = .ok (ac (cell (rowsOf ls) s c).1) ∧
      index (arggram2c (fileOf ls)).transition (st s) (ct c) = .ok (code st (cell (rowsOf ls) s c).2)) := by
  obtain ⟨ws, cs, as, i⟩ := vinv (rowsOf ls) (rows_ok ls hok)
  rw [arggram2c_rows ls hok]
  refine ⟨ws.idxOf, cs.idxOf, as.idxOf, ?_, ?_, ?_, ?_, ?_, ?_, ?_, ?_⟩
  · intro n
    have : (finishGen ((rowsOf ls).foldl (fun v r => record v r.src r.chartype r.action r.dst) {})).action.length = ws.length := by
      simp [finishGen, i.states.length]
    rw [this]
    constructor
    · intro hn
      exact ⟨ws[n], (i.memS _).1 (List.getElem_mem hn), i.states.nodup.idxOf_getElem n hn⟩
    · rintro ⟨s, hs, rfl⟩
      exact List.idxOf_lt_length_iff.2 ((i.memS s).2 hs)
  · intro s s' h _ e
    exact idxOf_inj ((i.memS s).2 h) e
  · intro hne
    refine idxOf_head ?_
    rw [i.headS]
    cases hr : rowsOf ls with
    | nil => exact absurd hr hne
    | cons r rs => rfl
  · intro c n
    rw [show (finishGen _).chartypes = _ from i.chartypes.eq, mem_zip i.chartypes.nodup, i.memC]
  · intro c c' h e
    exact idxOf_inj ((i.memC c).2 h) e
  · intro c n
    rw [show (finishGen _).actions = _ from i.actions.eq, mem_zip i.actions.nodup, i.memA]
  · intro c c' h e
    exact idxOf_inj ((i.memA c).2 h) e
  · intro s c hs hc
    exact i.cells ((i.memS s).2 hs) ((i.memC c).2 hc)

/-- C85: whether the last line ends with a newline makes no difference. -/
theorem C85_last_newline (ls : List Line) (l : Line) (hok : ∀ l ∈ ls, l.Ok) (hl : l.Ok) :
    arggram2c (fileOf ls ++ l.text) = arggram2c (fileOf (ls ++ [l])) := by
  have h : ∀ x ∈ ls ++ [l], x.Ok := by
    intro x hx
    rcases List.mem_append.1 hx with hx | hx
    · exact hok x hx
    · obtain rfl : x = l := by simpa using hx
      exact hl
  rw [arggram2c, arggram2c, records_noNl ls l hok hl, records_file _ h, List.map_append, List.foldl_append (l := ls.map Line.text ++ [l].map Line.text)]
  rfl

/-- C85: the code compiles exactly with the grammars that use exactly the six types of characters and the three actions `arg_argify`
knows. -/
theorem C85_builds (ls : List Line) (hok : ∀ l ∈ ls, l.Ok) :
    (∃ p, build (arggram2c (fileOf ls)) = some p) ↔
      (∀ c, (∃ r ∈ rowsOf ls, r.chartype = c) ↔ ∃ t, ctName t = c) ∧ (∀ a, (∃ r ∈ rowsOf ls, r.action = a) ↔ ∃ t, actName t = a) := by
  obtain ⟨ws, cs, as, i⟩ := vinv (rowsOf ls) (rows_ok ls hok)
  rw [arggram2c_rows ls hok]
  simp only [← i.memC, ← i.memA]
  constructor
  · rintro ⟨p, hp⟩
    obtain ⟨h3, h6, hc, ha, _⟩ := build_some i hp
    exact ⟨mem_iff_of_length ctNames i.chartypes.nodup ctNames_nodup (fun c => ctNames_mem c) h6 hc,
      mem_iff_of_length actNames i.actions.nodup actNames_nodup (fun c => actNames_mem c) h3 ha⟩
  · rintro ⟨hc, ha⟩
    have := build_of i (fun t => (hc _).2 ⟨t, rfl⟩) (fun t => (ha _).2 ⟨t, rfl⟩)
      (length_of_mem_iff ctNames i.chartypes.nodup ctNames_nodup fun c => by rw [hc, ctNames_mem])
      (length_of_mem_iff actNames i.actions.nodup actNames_nodup fun c => by rw [ha, actNames_mem])
    exact ⟨_, this⟩

/-- C85: `arg_argify` compiled with the translation of any grammar file follows the rules of that file, for every text, style and
memory; it never reads outside the generated arrays and never meets an unknown action. -/
theorem C85_argify (ls : List Line) (hok : ∀ l ∈ ls, l.Ok) (p : Prog) (hp : build (arggram2c (fileOf ls)) = some p)
    (h : Mem) (string : List Byte) (quoteStyle : Nat) :
    argify p h string quoteStyle =
      follow (rowsOf ls) quoteStyle string string 0 (start (rowsOf ls)) none (h, Arg.create) := by
  obtain ⟨ws, cs, as, i⟩ := vinv (rowsOf ls) (rows_ok ls hok)
  rw [arggram2c_rows ls hok] at hp
  have hne : rowsOf ls ≠ [] := by
    intro e
    obtain ⟨_, h6, _⟩ := build_some i hp
    have : cs = [] := List.eq_nil_iff_forall_not_mem.2 fun c hc => by
      obtain ⟨r, hr, _⟩ := (i.memC c).1 hc
      rw [e] at hr; cases hr
    rw [this] at h6
    cases h6
  have h0 : ws.idxOf (start (rowsOf ls)) = 0 ∧ start (rowsOf ls) ∈ ws := by
    cases hr : rowsOf ls with
    | nil => exact absurd hr hne
    | cons r rs =>
      refine ⟨idxOf_head ?_, (i.memS _).2 ⟨r, by rw [hr]; simp, .inl rfl⟩⟩
      rw [i.headS, hr]; rfl
  have := loop_follow i hp quoteStyle string string 0 (start (rowsOf ls)) none (h, Arg.create) h0.2
  rw [h0.1] at this
  exact this

/-! ## The grammar that is shipped -/

/-- maa/arggram.txt:1-37, the lines of the file. -/
def shipped : List String :=
  ["# STATE_SRC INPUT OUTPUT   STATE_DEST",
   "",
   "ST_SPACES   DQ     SKIP      ST_IN_DQ",
   "ST_SPACES   SQ     SKIP      ST_IN_SQ",
   "ST_SPACES   OTHER  INCLUDE   ST_IN_TOK",
   "ST_SPACES   BS     SKIP      ST_IN_TOK_BS",
   "ST_SPACES   NULL   FINISH    EXIT",
   "ST_SPACES   SPACE  FINISH    ST_SPACES",
   "",
   "ST_IN_TOK   DQ     SKIP      ST_IN_DQ",
   "ST_IN_TOK   SQ     SKIP      ST_IN_SQ",
   "ST_IN_TOK   OTHER  INCLUDE   ST_IN_TOK",
   "ST_IN_TOK   BS     SKIP      ST_IN_TOK_BS",
   "ST_IN_TOK   NULL   FINISH    EXIT",
   "ST_IN_TOK   SPACE  FINISH    ST_SPACES",
   "",
   "ST_IN_TOK_BS DQ    INCLUDE   ST_IN_TOK",
   "ST_IN_TOK_BS SQ    INCLUDE   ST_IN_TOK",
   "ST_IN_TOK_BS OTHER INCLUDE   ST_IN_TOK",
   "ST_IN_TOK_BS BS    INCLUDE   ST_IN_TOK",
   "ST_IN_TOK_BS NULL  FINISH    ERROR ",
   "ST_IN_TOK_BS SPACE INCLUDE   ST_IN_TOK",
   "",
   "ST_IN_DQ     DQ    SKIP      ST_SPACES",
   "ST_IN_DQ     SQ    INCLUDE   ST_IN_DQ",
   "ST_IN_DQ     OTHER INCLUDE   ST_IN_DQ",
   "ST_IN_DQ     BS    INCLUDE   ST_IN_DQ",
   "ST_IN_DQ     NULL  FINISH    ERROR",
   "ST_IN_DQ     SPACE INCLUDE   ST_IN_DQ",
   "",
   "ST_IN_SQ     DQ    INCLUDE   ST_IN_SQ",
   "ST_IN_SQ     SQ    SKIP      ST_SPACES",
   "ST_IN_SQ     OTHER INCLUDE   ST_IN_SQ",
   "ST_IN_SQ     BS    INCLUDE   ST_IN_SQ",
   "ST_IN_SQ     NULL  FINISH    ERROR",
   "ST_IN_SQ     SPACE INCLUDE   ST_IN_SQ"]

/-- The same as bytes. -/
def shippedBytes : List Word :=
  [[35, 32, 83, 84, 65, 84, 69, 95, 83, 82, 67, 32, 73, 78, 80, 85, 84, 32, 79, 85, 84, 80, 85, 84, 32, 32, 32, 83, 84, 65, 84, 69, 95, 68, 69, 83, 84],
   [],
   [83, 84, 95, 83, 80, 65, 67, 69, 83, 32, 32, 32, 68, 81, 32, 32, 32, 32, 32, 83, 75, 73, 80, 32, 32, 32, 32, 32, 32, 83, 84, 95, 73, 78, 95, 68, 81],
   [83, 84, 95, 83, 80, 65, 67, 69, 83, 32, 32, 32, 83, 81, 32, 32, 32, 32, 32, 83, 75, 73, 80, 32, 32, 32, 32, 32, 32, 83, 84, 95, 73, 78, 95, 83, 81],
   [83, 84, 95, 83, 80, 65, 67, 69, 83, 32, 32, 32, 79, 84, 72, 69, 82, 32, 32, 73, 78, 67, 76, 85, 68, 69, 32, 32, 32, 83, 84, 95, 73, 78, 95, 84, 79, 75],
   [83, 84, 95, 83, 80, 65, 67, 69, 83, 32, 32, 32, 66, 83, 32, 32, 32, 32, 32, 83, 75, 73, 80, 32, 32, 32, 32, 32, 32, 83, 84, 95, 73, 78, 95, 84, 79, 75, 95, 66, 83],
   [83, 84, 95, 83, 80, 65, 67, 69, 83, 32, 32, 32, 78, 85, 76, 76, 32, 32, 32, 70, 73, 78, 73, 83, 72, 32, 32, 32, 32, 69, 88, 73, 84],
   [83, 84, 95, 83, 80, 65, 67, 69, 83, 32, 32, 32, 83, 80, 65, 67, 69, 32, 32, 70, 73, 78, 73, 83, 72, 32, 32, 32, 32, 83, 84, 95, 83, 80, 65, 67, 69, 83],
   [],
   [83, 84, 95, 73, 78, 95, 84, 79, 75, 32, 32, 32, 68, 81, 32, 32, 32, 32, 32, 83, 75, 73, 80, 32, 32, 32, 32, 32, 32, 83, 84, 95, 73, 78, 95, 68, 81],
   [83, 84, 95, 73, 78, 95, 84, 79, 75, 32, 32, 32, 83, 81, 32, 32, 32, 32, 32, 83, 75, 73, 80, 32, 32, 32, 32, 32, 32, 83, 84, 95, 73, 78, 95, 83, 81],
   [83, 84, 95, 73, 78, 95, 84, 79, 75, 32, 32, 32, 79, 84, 72, 69, 82, 32, 32, 73, 78, 67, 76, 85, 68, 69, 32, 32, 32, 83, 84, 95, 73, 78, 95, 84, 79, 75],
   [83, 84, 95, 73, 78, 95, 84, 79, 75, 32, 32, 32, 66, 83, 32, 32, 32, 32, 32, 83, 75, 73, 80, 32, 32, 32, 32, 32, 32, 83, 84, 95, 73, 78, 95, 84, 79, 75, 95, 66, 83],
   [83, 84, 95, 73, 78, 95, 84, 79, 75, 32, 32, 32, 78, 85, 76, 76, 32, 32, 32, 70, 73, 78, 73, 83, 72, 32, 32, 32, 32, 69, 88, 73, 84],
   [83, 84, 95, 73, 78, 95, 84, 79, 75, 32, 32, 32, 83, 80, 65, 67, 69, 32, 32, 70, 73, 78, 73, 83, 72, 32, 32, 32, 32, 83, 84, 95, 83, 80, 65, 67, 69, 83],
   [],
   [83, 84, 95, 73, 78, 95, 84, 79, 75, 95, 66, 83, 32, 68, 81, 32, 32, 32, 32, 73, 78, 67, 76, 85, 68, 69, 32, 32, 32, 83, 84, 95, 73, 78, 95, 84, 79, 75],
   [83, 84, 95, 73, 78, 95, 84, 79, 75, 95, 66, 83, 32, 83, 81, 32, 32, 32, 32, 73, 78, 67, 76, 85, 68, 69, 32, 32, 32, 83, 84, 95, 73, 78, 95, 84, 79, 75],
   [83, 84, 95, 73, 78, 95, 84, 79, 75, 95, 66, 83, 32, 79, 84, 72, 69, 82, 32, 73, 78, 67, 76, 85, 68, 69, 32, 32, 32, 83, 84, 95, 73, 78, 95, 84, 79, 75],
   [83, 84, 95, 73, 78, 95, 84, 79, 75, 95, 66, 83, 32, 66, 83, 32, 32, 32, 32, 73, 78, 67, 76, 85, 68, 69, 32, 32, 32, 83, 84, 95, 73, 78, 95, 84, 79, 75],
   [83, 84, 95, 73, 78, 95, 84, 79, 75, 95, 66, 83, 32, 78, 85, 76, 76, 32, 32, 70, 73, 78, 73, 83, 72, 32, 32, 32, 32, 69, 82, 82, 79, 82, 32],
   [83, 84, 95, 73, 78, 95, 84, 79, 75, 95, 66, 83, 32, 83, 80, 65, 67, 69, 32, 73, 78, 67, 76, 85, 68, 69, 32, 32, 32, 83, 84, 95, 73, 78, 95, 84, 79, 75],
   [],
   [83, 84, 95, 73, 78, 95, 68, 81, 32, 32, 32, 32, 32, 68, 81, 32, 32, 32, 32, 83, 75, 73, 80, 32, 32, 32, 32, 32, 32, 83, 84, 95, 83, 80, 65, 67, 69, 83],
   [83, 84, 95, 73, 78, 95, 68, 81, 32, 32, 32, 32, 32, 83, 81, 32, 32, 32, 32, 73, 78, 67, 76, 85, 68, 69, 32, 32, 32, 83, 84, 95, 73, 78, 95, 68, 81],
   [83, 84, 95, 73, 78, 95, 68, 81, 32, 32, 32, 32, 32, 79, 84, 72, 69, 82, 32, 73, 78, 67, 76, 85, 68, 69, 32, 32, 32, 83, 84, 95, 73, 78, 95, 68, 81],
   [83, 84, 95, 73, 78, 95, 68, 81, 32, 32, 32, 32, 32, 66, 83, 32, 32, 32, 32, 73, 78, 67, 76, 85, 68, 69, 32, 32, 32, 83, 84, 95, 73, 78, 95, 68, 81],
   [83, 84, 95, 73, 78, 95, 68, 81, 32, 32, 32, 32, 32, 78, 85, 76, 76, 32, 32, 70, 73, 78, 73, 83, 72, 32, 32, 32, 32, 69, 82, 82, 79, 82],
   [83, 84, 95, 73, 78, 95, 68, 81, 32, 32, 32, 32, 32, 83, 80, 65, 67, 69, 32, 73, 78, 67, 76, 85, 68, 69, 32, 32, 32, 83, 84, 95, 73, 78, 95, 68, 81],
   [],
   [83, 84, 95, 73, 78, 95, 83, 81, 32, 32, 32, 32, 32, 68, 81, 32, 32, 32, 32, 73, 78, 67, 76, 85, 68, 69, 32, 32, 32, 83, 84, 95, 73, 78, 95, 83, 81],
   [83, 84, 95, 73, 78, 95, 83, 81, 32, 32, 32, 32, 32, 83, 81, 32, 32, 32, 32, 83, 75, 73, 80, 32, 32, 32, 32, 32, 32, 83, 84, 95, 83, 80, 65, 67, 69, 83],
   [83, 84, 95, 73, 78, 95, 83, 81, 32, 32, 32, 32, 32, 79, 84, 72, 69, 82, 32, 73, 78, 67, 76, 85, 68, 69, 32, 32, 32, 83, 84, 95, 73, 78, 95, 83, 81],
   [83, 84, 95, 73, 78, 95, 83, 81, 32, 32, 32, 32, 32, 66, 83, 32, 32, 32, 32, 73, 78, 67, 76, 85, 68, 69, 32, 32, 32, 83, 84, 95, 73, 78, 95, 83, 81],
   [83, 84, 95, 73, 78, 95, 83, 81, 32, 32, 32, 32, 32, 78, 85, 76, 76, 32, 32, 70, 73, 78, 73, 83, 72, 32, 32, 32, 32, 69, 82, 82, 79, 82],
   [83, 84, 95, 73, 78, 95, 83, 81, 32, 32, 32, 32, 32, 83, 80, 65, 67, 69, 32, 73, 78, 67, 76, 85, 68, 69, 32, 32, 32, 83, 84, 95, 73, 78, 95, 83, 81]]

theorem shipped_bytes : shipped.map word = shippedBytes := by decide +kernel

/-- The constants and arrays in maa/arggram.c as generated from the shipped grammar. -/
def shippedProg : Prog := Prog.mk 0 1 2 3 4 5 0 1 2
  [[0, 0, 1, 0, 2, 2], [0, 1, 1, 1, 2, 1], [1, 0, 1, 1, 2, 1], [0, 0, 1, 0, 2, 2], [1, 1, 1, 1, 2, 1]]
  [[1, 2, 3, 4, -1, 0], [0, 1, 1, 1, -2, 1], [2, 0, 2, 2, -2, 2], [1, 2, 3, 4, -1, 0], [3, 3, 3, 3, -2, 3]]

/-- The text of the shipped grammar. -/
def shippedText : Word := (shipped.map word).flatMap (· ++ [10])

theorem shipped_prog : build (arggram2c shippedText) = some shippedProg := by
  unfold shippedText
  rw [shipped_bytes]
  decide +kernel

/-- The numbers of the states of the shipped grammar. -/
def stNum : Arg.St → Int
  | .spaces => 0 | .inDQ => 1 | .inSQ => 2 | .inTok => 3 | .inTokBS => 4

def actNum : Act → Int
  | .skip => 0 | .incl => 1 | .finish => 2

def ctNum : CT → Nat
  | .dq => 0 | .sq => 1 | .other => 2 | .bs => 3 | .null => 4 | .space => 5

def nextNum : Arg.Next → Int
  | .st s => stNum s | .exit => -1 | .error => -2

theorem shipped_cells (s : Arg.St) (c : CT) : index shippedProg.action (stNum s) (ctNum c) = .ok (actNum (Arg.table s c).1) ∧
    index shippedProg.transition (stNum s) (ctNum c) = .ok (nextNum (Arg.table s c).2) := by
  cases s <;> cases c <;> exact ⟨rfl, rfl⟩

theorem shipped_ct (q : Nat) (ch : Byte) : char2charType shippedProg q ch = ctNum (charType q ch) := by
  unfold char2charType charType
  split_ifs <;> rfl

theorem loop_arg (q : Nat) (string rest : List Byte) (pt : Nat) (s : Arg.St) (last : Option Nat) (σ : Mem × ArgList) :
    loop shippedProg q string rest pt (stNum s) last σ = Arg.loop q string rest pt s last σ := by
  induction rest generalizing pt s last σ with
  | nil => rfl
  | cons ch rest ih =>
    rw [loop, Arg.loop]
    simp only [shipped_ct]
    rw [(shipped_cells s _).1, (shipped_cells s _).2]
    simp only [Res.bind]
    have ha : switchAct shippedProg string pt last σ (actNum (Arg.table s (charType q ch)).1) =
        Arg.act string pt last σ (Arg.table s (charType q ch)).1 := by
      cases (Arg.table s (charType q ch)).1 <;> rfl
    rw [ha]
    cases Arg.act string pt last σ (Arg.table s (charType q ch)).1 with
    | ok r =>
      simp only []
      cases (Arg.table s (charType q ch)).2 with
      | st s' =>
        have h0 : 0 ≤ stNum s' := by cases s' <;> decide
        have h1 : stNum s' ≠ -1 := by cases s' <;> decide
        have h2 : stNum s' ≠ -2 := by cases s' <;> decide
        by_cases hc : ch = 0
        · simp [hc, nextNum, h1, h2]
        · simp [hc, nextNum, h0, ih]
      | exit => simp [nextNum]
      | error => simp [nextNum]
    | abort => rfl
    | fatal => rfl
    | ub => rfl

/-- C85: the shipped grammar compiles, and `arg_argify` built from it is the function C31 and C32 are about, for every text, style
and memory. -/
theorem C85_shipped : ∃ p, build (arggram2c shippedText) = some p ∧
    ∀ (h : Mem) (string : List Byte) (quoteStyle : Nat), argify p h string quoteStyle = Arg.argify h string quoteStyle := by
  exact ⟨shippedProg, shipped_prog, fun m s q => loop_arg q s s 0 .spaces none (m, Arg.create)⟩

/-! ## Concrete cases -/

/-- A line of a rule, written with single blanks. -/
def plain (a b c d : String) : Line := .rule [] (Row.mk (word a) (word b) (word c) (word d)) [32] [32] [32] [] none

/-- A small grammar: words are separated by blanks, nothing is special; with a comment, an empty line and odd spacing.  One rule is
given twice, most are not given at all. -/
def small : List Line :=
  [.nothing [] (some (word " words only")), .nothing [32, 9] none, plain "S" "SPACE" "FINISH" "T", plain "S" "SPACE" "FINISH" "S",
   plain "S" "OTHER" "INCLUDE" "S", .rule [9] (Row.mk (word "S") (word "NULL") (word "FINISH") (word "EXIT")) [32, 32] [9] [32] [32] (some []),
   plain "S" "DQ" "INCLUDE" "S", plain "S" "SQ" "INCLUDE" "S", plain "S" "BS" "SKIP" "S", plain "T" "NULL" "FINISH" "ERROR"]

instance (w : Word) : Decidable (IsWord w) := inferInstanceAs (Decidable (_ ∧ _))
instance (b : Byte) : Decidable (IsLetter b) := inferInstanceAs (Decidable (_ ∨ _))
instance (w : Word) : Decidable (Gap w) := inferInstanceAs (Decidable (∀ b ∈ w, _))
instance (w : Word) : Decidable (StateName w) := inferInstanceAs (Decidable (_ ∧ _))
instance (r : Row) : Decidable r.Ok := decidable_of_iff
  (StateName r.src ∧ IsWord r.chartype ∧ IsWord r.action ∧ (StateName r.dst ∨ r.dst = word "EXIT" ∨ r.dst = word "ERROR"))
  ⟨fun h => ⟨h.1, h.2.1, h.2.2.1, h.2.2.2⟩, fun h => ⟨h.src, h.chartype, h.action, h.dst⟩⟩
instance (c : Option Word) : Decidable (CommentOk c) := decidable_of_iff ((10 : Byte) ∉ c.getD []) (by
  cases c with
  | none => simp [CommentOk]
  | some t => simp [CommentOk])
instance (l : Line) : Decidable l.Ok := match l with
  | .nothing .. => inferInstanceAs (Decidable (_ ∧ _))
  | .rule .. => inferInstanceAs (Decidable (_ ∧ _))

/-- The small grammar meets the hypotheses of the theorems above and builds. -/
example : (∀ l ∈ small, l.Ok) ∧ (∃ p, build (arggram2c (fileOf small)) = some p) ∧ (rowsOf small).length = 8 ∧
    IsState (rowsOf small) (word "T") ∧ cell (rowsOf small) (word "S") (word "SPACE") = (word "FINISH", .state (word "S")) ∧
    cell (rowsOf small) (word "T") (word "BS") = (word "FINISH", .state (word "S")) := by
  refine ⟨by decide +kernel, ?_, by decide +kernel, ⟨rowsOf small |>.getD 0 (Row.mk [] [] [] []), by decide +kernel, .inr (by decide +kernel)⟩,
    by decide +kernel, by decide +kernel⟩
  exact Option.isSome_iff_exists.1 (by decide +kernel)

/-- A grammar with double quotes; the name of the state between quotes is `q`. -/
def quoting (q : String) : List Line :=
  [plain "S" "DQ" "SKIP" q, plain "S" "SQ" "INCLUDE" "S", plain "S" "OTHER" "INCLUDE" "S", plain "S" "BS" "INCLUDE" "S",
   plain "S" "SPACE" "FINISH" "S", plain "S" "NULL" "FINISH" "EXIT",
   plain q "DQ" "SKIP" "S", plain q "OTHER" "INCLUDE" q, plain q "SPACE" "INCLUDE" q, plain q "NULL" "FINISH" "ERROR"]

/-- The number of arguments `arg_argify` finds, if it returns. -/
def countOf (g : List Line) (text : List Byte) : Option (Res Nat) :=
  (build (arggram2c (fileOf g))).map fun p => (argify p Heap.init (text ++ [0]) 0).bind fun s => .ok s.2.argc

/-- Why names of states must not contain `EXIT` or `ERROR`: renaming one state from `Q` to `Q_ERROR` gives a grammar that still builds
without complaint, and a program that is aborted on `"a"` (the translator replaces the word inside the name in the fourth column only,
so that the state in the fourth column is another state, one without rules). -/
theorem C85_name_with_error_refuted :
    countOf (quoting "Q") (word "\"a\"") = some (.ok 1) ∧ countOf (quoting "Q_ERROR") (word "\"a\"") = some .abort := by
  constructor <;> decide +kernel

/-- A grammar with missing rules is not rejected either: without a rule for a blank between quotes, the blank is treated as the first
rule says, here as a closing quote. -/
example : countOf (quoting "Q") (word "\"a b c\"") = some (.ok 1) ∧
    countOf ((quoting "Q").eraseIdx 8) (word "\"a b c\"") = some (.ok 2) := by
  constructor <;> decide +kernel

/-- What `%i` prints: the number itself, or the number a string starts with. -/
example : toInt (.num 12) = 12 ∧ toInt (.str [49, 55, 120]) = 17 ∧ toInt (.str [45, 49, 48]) = (-10 : Int) ∧ toInt (.str [73, 78]) = 0 ∧
    (∀ j, index [[1]] (-1 : Int) j = .ub) ∧ index [[1], [2, 3]] 1 1 = .ok 3 ∧ index [[1], [2, 3]] 0 1 = .ub :=
  ⟨by decide, by decide, by decide, by decide, fun _ => rfl, by decide, by decide⟩

end Maa.ArgGram
