import Verif.Model.DebugOut
import Verif.Props.Counters
import Verif.Props.Pr
import Verif.Lemmas.CStr

/-! # C92: debugging messages have no influence

With the debugging flags of the source manager (`.src`) and of the process functions (`.pr`) on, calls return what they return without them; the
only difference is what a program that made the same calls and logged the messages itself would have logged. -/

namespace Maa.DebugOut

open Spec (LogEvent LogEnv LogOp DbgOp SrcOp SrcVal PrFlags PrEvent PrEnv PrOut WaitEnd Ended decimal decimalInt)
open Spec.Report (ascii)
open StrMem (Mem)

theorem okBind {α β : Type} (a : α) (f : α → Res β) : (Res.ok a).bind f = f a := rfl

/-! ## The messages of a call -/

/-- Word `k` (from 0) of a line of `length` bytes, as `arg_argify` and `arg_get` give it. -/
def lineWord (q : Quiet) (line : List Byte) (length k : Nat) : List Byte :=
  match (Source.strncpy line length).bind fun t => (Arg.argify q.mem (CStr.ofStr t) 0).bind fun l => (Arg.get l.2 k).bind (Source.stringAt l.1) with
  | .ok s => s
  | _ => []

/-- The number of words of a line of `length` bytes. -/
def lineWords (q : Quiet) (line : List Byte) (length : Nat) : Nat :=
  match (Source.strncpy line length).bind fun t => (Arg.argify q.mem (CStr.ofStr t) 0).bind fun l => .ok (Arg.count l.2) with
  | .ok n => n
  | _ => 0

/-- A token is printed. -/
def tokenTexts (q : Quiet) (h : Nat) : List (List Byte) :=
  if h = 0 then [] else
    match q.src.toks h with
    | some i => [Spec.pointText i.offset i.length]
    | none => []

/-- The messages of the source manager in a call made in state `q` that returned `v`. -/
def srcMessages (q : Quiet) (v : Val) : Op → List (List Byte × LogEnv)
  | .src (.line _ _) env =>
    match v with
    | .src (.str (some s)) => [(Spec.storedText q.src.used s, env)]
    | _ => []
  | .src (.printError _ h _) env => (tokenTexts q h).map (·, env)
  | .parseError h _ env => (tokenTexts q h).map (·, env)
  | .cpp line length env =>
    [(Spec.cppText (lineWord q line length 1) (if lineWords q line length = 2 then none else some (lineWord q line length 2)), env)]
  | _ => []

/-- The messages of the process functions. -/
def prMessages (v : Val) : Op → List (List Byte × LogEnv)
  | .prOpen command f i o e _ envs =>
    match v with
    | .pr out (some x) => (Spec.openTexts x.file (command.takeWhile (· ≠ 0)) f i o e out).map fun t => (t.2, envs t.1)
    | _ => []
  | .prSpawn command (some pid) _ programs envs =>
    match v with
    | .pr out (some x) =>
      (Spec.spawnTexts x.file (command.takeWhile (· ≠ 0)) pid (.ended (PrExec.childEnd programs x)) out.ret).map fun t => (t.2, envs t.1)
    | _ => []
  | .prClose _ _ w errno envs =>
    match v with
    | .pr out _ => out.events.flatMap fun
      | .waited pid => (Spec.waitTexts pid w errno out.ret).map fun t => (t.2, envs t.1)
      | _ => []
    | _ => []
  | _ => []

/-- What a program that logs the messages of a call itself does: nothing if the flag is off, `log_info` (level 6) for each otherwise; and, if the
call is one to log.c, that call. -/
def logOps (q : Quiet) (v : Val) (o : Op) : List LogOp :=
  match o with
  | .log o => [o]
  | o =>
    (if Flags.dbgTest q.dbg Lib.MAA_SRC = 0 then [] else (srcMessages q v o).map fun t => .message none 6 t.1 t.2) ++
    (if Flags.dbgTest q.dbg Lib.MAA_PR = 0 then [] else (prMessages v o).map fun t => .message none 6 t.1 t.2)

/-- All that is to be logged in a history. -/
def logHistory (q : Quiet) : List Op → List LogOp
  | [] => []
  | o :: os =>
    match quietStep q o with
    | .ok r => logOps q r.2 o ++ logHistory r.1 os
    | _ => []

/-! ## Logging several messages -/

/-- Calls on log.c one after the other. -/
def logAll (L : Out) : List LogOp → Res Out
  | [] => .ok L
  | o :: os => (Log.step L.log o).bind fun r => logAll { log := r.1, events := L.events ++ r.2 } os

theorem logAll_append (a : List LogOp) : ∀ (b : List LogOp) (L : Out), logAll L (a ++ b) = (logAll L a).bind fun L => logAll L b := by
  induction a with
  | nil => intro b L; rfl
  | cons o a ih =>
    intro b L
    simp only [List.cons_append, logAll]
    cases Log.step L.log o with
    | ok r => simp only [okBind]; exact ih b _
    | _ => rfl

theorem logAll_run : ∀ (ops : List LogOp) (L L' : Out),
    logAll L ops = .ok L' ↔ ∃ evs, Spec.run Log.step L.log ops = .ok (L'.log, evs) ∧ L'.events = L.events ++ evs.flatten := by
  intro ops
  induction ops with
  | nil =>
    intro L L'
    simp only [logAll, Spec.run, Res.ok.injEq, Prod.mk.injEq]
    constructor
    · rintro rfl; exact ⟨[], ⟨rfl, rfl⟩, by simp⟩
    · rintro ⟨evs, ⟨h1, rfl⟩, h2⟩
      cases L; cases L'; simp_all
  | cons o ops ih =>
    intro L L'
    simp only [logAll, Spec.run]
    cases h : Log.step L.log o with
    | ok r =>
      rw [okBind, ih]
      constructor
      · rintro ⟨evs, h1, h2⟩
        exact ⟨r.2 :: evs, by rw [okBind, h1]; rfl, by simp [h2]⟩
      · rintro ⟨evs, h1, h3⟩
        rw [okBind, Res.bind_ok_iff] at h1
        obtain ⟨q, h1, h2⟩ := h1
        simp only [Res.ok.injEq, Prod.mk.injEq] at h2
        obtain ⟨h2, rfl⟩ := h2
        exact ⟨q.2, by rw [h1, ← h2], by simp [h3]⟩
    | _ => simp [Res.bind]

/-- One message. -/
theorem say_ok (d : Flags.State) (flag : BitVec 64) (t : List Byte) (env : LogEnv) (L : Out) :
    say d flag (.ok t) env L = logAll L (if Flags.dbgTest d flag = 0 then [] else [.message none 6 t env]) := by
  unfold say
  split
  · rfl
  · simp only [logAll, Log.step, okBind]
    split
    · rename_i h
      have : Log.base L.log none 6 t env = .ok (L.log, []) := by unfold Log.base; rw [if_pos h]
      rw [this]; simp [okBind]
    · rfl

/-- A message whose text is found is that message. -/
theorem say_text {text : Res (List Byte)} {t : List Byte} (h : text = .ok t) (d : Flags.State) (flag : BitVec 64) (env : LogEnv) (L : Out) :
    say d flag text env L = logAll L (if Flags.dbgTest d flag = 0 then [] else [.message none 6 t env]) := by
  rw [h, say_ok]

/-! ## The functions -/

theorem regrow_get (a : List (Option (List Byte))) (u c : Nat) (i : Nat) (h : i < a.length) : Source.getLine (Source.regrow a u c).1 i = Source.getLine a i := by
  unfold Source.regrow
  split
  · unfold Source.getLine
    rw [List.getElem?_append_left h]
  · rfl

theorem srcLine_eq (d : Flags.State) (L : Out) (env : LogEnv) (σ : Source.State) (buf : List Byte) (len : Nat) (x : (Source.State × List Byte) × Out) :
    srcLine d L env σ buf len = .ok x ↔ Source.srcLine σ buf len = .ok x.1 ∧
      logAll L (if Flags.dbgTest d Lib.MAA_SRC = 0 then [] else [.message none 6 (Spec.storedText σ.used x.1.2) env]) = .ok x.2 := by
  unfold srcLine Source.srcLine
  cases he : Source.ensure σ with
  | ok σ' =>
    have hu : σ'.used = σ.used := by
      unfold Source.ensure Source.srcCreate at he
      cases hl : σ.lines with
      | none => simp only [hl, Res.ok.injEq] at he; rw [← he]
      | some _ => simp only [hl, Res.ok.injEq] at he; rw [← he]
    simp only [okBind]
    cases Source.copy buf len with
    | ok s =>
      simp only [okBind]
      cases Source.untab s with
      | ok s =>
        simp only [okBind]
        cases hs : Source.setLine (Source.arr σ') σ'.used s with
        | ok a =>
          have hlt : σ'.used < a.length := by
            unfold Source.setLine at hs
            split at hs
            · rename_i h; simp only [Res.ok.injEq] at hs; rw [← hs]; simpa using h
            · cases hs
          have hg : Source.getLine (Source.regrow a (σ'.used + 1) σ'.count).1 (σ'.used + 1 - 1) = Source.getLine a σ'.used := by
            rw [Nat.add_sub_cancel]; exact regrow_get a _ _ _ hlt
          simp only [okBind, hg]
          cases ht : Source.getLine a σ'.used with
          | ok t =>
            simp only [okBind]
            rw [say_ok]
            have : (ascii "Line " ++ decimal σ'.used ++ ascii ": " ++ t) = Spec.storedText σ.used t := by rw [hu]; rfl
            rw [this]
            obtain ⟨⟨x1, x2⟩, x3⟩ := x
            simp only [Res.bind_ok_iff, Res.ok.injEq, Prod.mk.injEq]
            constructor
            · rintro ⟨L', h1, ⟨h2, h3⟩, h4⟩
              subst h2; subst h3; subst h4
              exact ⟨⟨rfl, rfl⟩, h1⟩
            · rintro ⟨⟨h1, h2⟩, h3⟩
              subst h1; subst h2
              exact ⟨_, h3, ⟨rfl, rfl⟩, rfl⟩
          | _ =>
            simp only [Res.bind, reduceCtorEq, false_and, iff_false]
            split <;> simp_all
        | _ => simp [Res.bind]
      | _ => simp [Res.bind]
    | _ => simp [Res.bind]
  | _ => simp [Res.bind]

/-- The messages of `_src_print_error`. -/
def infoOps (d : Flags.State) (env : LogEnv) (s : Option Source.Info) : List LogOp :=
  match s with
  | some i => if Flags.dbgTest d Lib.MAA_SRC = 0 then [] else [.message none 6 (Spec.pointText i.offset i.length) env]
  | none => []

theorem printErrorLine_eq (d : Flags.State) (L : Out) (env : LogEnv) (σ : Source.State) (s : Option Source.Info) (x : List Byte × Out) :
    printErrorLine d L env σ s 0 = .ok x ↔ Source.printErrorLine σ s 0 = .ok x.1 ∧ logAll L (infoOps d env s) = .ok x.2 := by
  unfold printErrorLine Source.printErrorLine infoOps
  obtain ⟨x1, x2⟩ := x
  cases Source.printLine σ s with
  | ok a =>
    simp only [okBind]
    cases s with
    | none =>
      simp only [logAll]
      cases Source.prefix_ none with
      | ok p => simp [okBind]
      | _ => simp [Res.bind]
    | some i =>
      have : (ascii "s->offset = " ++ decimalInt i.offset ++ ascii ", fudge = " ++ decimalInt 0 ++ ascii ", s->length = " ++ decimalInt i.length ++ ascii "\n") =
          Spec.pointText i.offset i.length := by
        unfold Spec.pointText
        have : ascii ", fudge = 0, s->length = " = ascii ", fudge = " ++ decimalInt 0 ++ ascii ", s->length = " := by decide +kernel
        rw [this]; simp only [List.append_assoc]
      simp only [this, say_ok]
      cases Source.prefix_ (some i) with
      | ok p =>
        simp only [okBind, Res.bind_ok_iff, Res.ok.injEq, Prod.mk.injEq]
        constructor
        · rintro ⟨L', h1, h2, h3⟩; subst h3; exact ⟨h2, h1⟩
        · rintro ⟨h1, h2⟩; exact ⟨_, h2, h1, rfl⟩
      | _ => simp [Res.bind]; split <;> simp
  | _ => simp [Res.bind]

/-- Messages, if the flag is on. -/
def ops (d : Flags.State) (flag : BitVec 64) (ts : List (List Byte × LogEnv)) : List LogOp :=
  if Flags.dbgTest d flag = 0 then [] else ts.map fun t => .message none 6 t.1 t.2

theorem ops_append (d : Flags.State) (flag : BitVec 64) (a b : List (List Byte × LogEnv)) : ops d flag (a ++ b) = ops d flag a ++ ops d flag b := by
  unfold ops; split <;> simp

theorem ops_nil (d : Flags.State) (flag : BitVec 64) : ops d flag [] = [] := by
  unfold ops; split <;> rfl

theorem say_ops {text : Res (List Byte)} {t : List Byte} (h : text = .ok t) (d : Flags.State) (flag : BitVec 64) (env : LogEnv) (L : Out) :
    say d flag text env L = logAll L (ops d flag [(t, env)]) := by
  rw [say_text h]; rfl

theorem infoOps_eq (q : Quiet) (env : LogEnv) (h : Nat) (s : Option Source.Info) (e : Source.deref q.src h = .ok s) :
    infoOps q.dbg env s = ops q.dbg Lib.MAA_SRC ((tokenTexts q h).map (·, env)) := by
  unfold Source.deref at e
  unfold tokenTexts
  by_cases hz : h = 0
  · rw [if_pos hz] at e
    simp only [Res.ok.injEq] at e
    subst e
    rw [if_pos hz]; simp [infoOps, ops_nil]
  · rw [if_neg hz] at e
    rw [if_neg hz]
    cases ht : q.src.toks h with
    | none => rw [ht] at e; cases e
    | some i =>
      rw [ht] at e
      simp only [Res.ok.injEq] at e
      subst e
      rfl

theorem srcPrintError_eq (q : Quiet) (L : Out) (env : LogEnv) (stream : Bool) (h : Nat) (m : Option (List Byte)) (x : List Byte × Out) :
    srcPrintError q.dbg L env q.src stream h m = .ok x ↔ Source.srcPrintError q.src stream h m = .ok x.1 ∧
      logAll L (ops q.dbg Lib.MAA_SRC ((tokenTexts q h).map (·, env))) = .ok x.2 := by
  unfold srcPrintError Source.srcPrintError
  cases Source.message q.src stream h m with
  | ok a =>
    simp only [okBind]
    cases stream with
    | false => simp
    | true =>
      simp only [if_true]
      cases hd : Source.deref q.src h with
      | ok s =>
        rw [← infoOps_eq q env h s hd]
        simp only [okBind, Res.bind_ok_iff, printErrorLine_eq]
        obtain ⟨x1, x2⟩ := x
        simp only [Res.ok.injEq, Prod.mk.injEq]
        constructor
        · rintro ⟨b, ⟨h1, h2⟩, h3, h4⟩
          exact ⟨⟨_, h1, h3⟩, by rw [h2, h4]⟩
        · rintro ⟨⟨b, h1, h2⟩, h3⟩
          exact ⟨(b, x2), ⟨h1, h3⟩, h2, rfl⟩
      | _ => simp [Res.bind]
  | _ => simp [Res.bind]

theorem srcParseError_eq (q : Quiet) (L : Out) (env : LogEnv) (h : Nat) (m : Option (List Byte)) (x : (Prs.State × List Byte) × Out) :
    srcParseError q.dbg L env q.src q.prs h m = .ok x ↔ Source.srcParseError q.src q.prs h m = .ok x.1 ∧
      logAll L (ops q.dbg Lib.MAA_SRC ((tokenTexts q h).map (·, env))) = .ok x.2 := by
  unfold srcParseError Source.srcParseError
  cases hd : Source.deref q.src h with
  | ok s =>
    rw [← infoOps_eq q env h s hd]
    simp only [okBind]
    cases Source.prefix_ s with
    | ok p =>
      simp only [okBind]
      cases Source.printYyerror q.prs m with
      | ok y =>
        simp only [okBind, Res.bind_ok_iff, printErrorLine_eq]
        obtain ⟨x1, x2⟩ := x
        simp only [Res.ok.injEq, Prod.mk.injEq]
        constructor
        · rintro ⟨b, ⟨h1, h2⟩, h3, h4⟩
          exact ⟨⟨_, h1, h3⟩, by rw [h2, h4]⟩
        · rintro ⟨⟨b, h1, h2⟩, h3⟩
          exact ⟨(b, x2), ⟨h1, h3⟩, h2, rfl⟩
      | _ => simp [Res.bind]
    | _ => simp [Res.bind]
  | _ => simp [Res.bind]

theorem srcCppLine_eq (q : Quiet) (L : Out) (env : LogEnv) (line : List Byte) (length : Nat) (x : (Mem × Source.State) × Out) :
    srcCppLine q.dbg L env q.mem q.src line length = .ok x ↔ Source.srcCppLine q.mem q.src line length = .ok x.1 ∧
      logAll L (ops q.dbg Lib.MAA_SRC
        [(Spec.cppText (lineWord q line length 1) (if lineWords q line length = 2 then none else some (lineWord q line length 2)), env)]) = .ok x.2 := by
  unfold srcCppLine Source.srcCppLine
  cases ha : Source.strncpy line length with
  | ok tmp =>
    simp only [okBind]
    cases hb : Arg.argify q.mem (CStr.ofStr tmp) 0 with
    | ok args =>
      simp only [okBind]
      cases h1 : Arg.get args.2 1 with
      | ok a1 =>
        simp only [okBind]
        cases hs1 : Source.stringAt args.1 a1 with
        | ok s1 =>
          simp only [okBind]
          have w1 : lineWord q line length 1 = s1 := by
            unfold lineWord
            rw [ha, okBind, hb, okBind, Nat.cast_one, h1, okBind, hs1]
          have wn : lineWords q line length = Arg.count args.2 := by
            unfold lineWords
            rw [ha, okBind, hb, okBind]
          rw [w1, wn]
          cases Source.atoi s1 with
          | ok n =>
            simp only [okBind]
            by_cases hc : Arg.count args.2 = 2
            · simp only [if_pos hc]
              rw [say_ops (text := Res.ok (ascii "lineno " ++ s1 ++ ascii "\n")) (t := Spec.cppText s1 none) rfl]
              obtain ⟨⟨x1, x2⟩, x3⟩ := x
              simp only [Res.bind_ok_iff, Res.ok.injEq, Prod.mk.injEq]
              constructor
              · rintro ⟨L', h1, h, h2, ⟨h3, h4⟩, h5⟩
                exact ⟨⟨h, h2, h3, h4⟩, by rw [h1, h5]⟩
              · rintro ⟨⟨h, h2, h3, h4⟩, h1⟩
                exact ⟨_, h1, h, h2, ⟨h3, h4⟩, rfl⟩
            · simp only [if_neg hc]
              cases h2 : Arg.get args.2 2 with
              | ok a2 =>
                simp only [okBind]
                cases h3 : Source.stringAt args.1 a2 with
                | ok s2 =>
                  simp only [okBind]
                  have w2 : lineWord q line length 2 = s2 := by
                    unfold lineWord
                    rw [ha, okBind, hb, okBind, Nat.cast_ofNat, h2, okBind, h3]
                  rw [w2]
                  rw [say_ops (text := Res.ok (ascii "lineno " ++ s1 ++ ascii " in " ++ s2 ++ ascii "\n")) (t := Spec.cppText s1 (some s2)) rfl]
                  obtain ⟨⟨x1, x2⟩, x3⟩ := x
                  simp only [Res.bind_ok_iff, Res.ok.injEq, Prod.mk.injEq]
                  constructor
                  · rintro ⟨L', h1, h, h2, ⟨h3, h4⟩, h5⟩
                    exact ⟨⟨h, h2, h3, h4⟩, by rw [h1, h5]⟩
                  · rintro ⟨⟨h, h2, h3, h4⟩, h1⟩
                    exact ⟨_, h1, h, h2, ⟨h3, h4⟩, rfl⟩
                | _ => simp only [Res.bind_ok_iff, reduceCtorEq, false_and, and_false, exists_false]
              | _ => simp only [Res.bind_ok_iff, reduceCtorEq, false_and, and_false, exists_false]
          | _ => simp [Res.bind]
        | _ => simp [Res.bind]
      | _ => simp [Res.bind]
    | _ => simp [Res.bind]
  | _ => simp [Res.bind]

theorem firstWord_of_execArgs {h : Mem} {v : List (Option Nat)} {e : PrExec.Exec} (he : PrExec.execArgs h v = .ok e) : firstWord h v = .ok e.file := by
  unfold PrExec.execArgs at he
  cases v with
  | nil => simp [PrExec.readVector, Res.bind] at he
  | cons p v =>
    cases p with
    | none => simp [PrExec.readVector, Res.bind] at he
    | some p =>
      unfold firstWord
      unfold PrExec.readVector at he
      by_cases hz : p = 0
      · rw [if_pos hz] at he; simp [Res.bind] at he
      · rw [if_neg hz] at he
        simp only [if_neg hz]
        unfold Source.stringAt
        cases hm : h.mem p with
        | none => rw [hm] at he; simp [Res.bind] at he
        | some b =>
          rw [hm] at he
          simp only [Res.bind_ok_iff] at he
          obtain ⟨ws, ⟨s, h1, ss, h2, h3⟩, h4⟩ := he
          simp only [Res.ok.injEq] at h3
          subst h3
          simp only [Res.ok.injEq] at h4
          subst h4
          exact h1

theorem execSays_ok {h : Mem} {v : List (Option Nat)} {e : PrExec.Exec} (he : PrExec.execArgs h v = .ok e) (command : List Byte) :
    execSays h v (CStr.ofStr command) = .ok (Spec.execText e.file (command.takeWhile (· ≠ 0))) := by
  unfold execSays
  rw [firstWord_of_execArgs he, okBind]
  have : CStr.cstr (CStr.ofStr command) = .ok (command.takeWhile (· ≠ 0)) := by
    unfold CStr.ofStr
    induction command with
    | nil => rfl
    | cons c cs ih =>
      simp only [List.cons_append]
      unfold CStr.cstr
      by_cases hc : c = 0
      · simp [hc]
      · simp only [hc, if_false, ne_eq, not_false_eq_true, decide_true, List.takeWhile_cons_of_pos]
        have ih' : CStr.cstr (cs ++ [0]) = _ := ih
        simp [ih', Res.bind]
  rw [this]; rfl

/-- One end of a stream. -/
theorem parent_eq (d : Flags.State) (L : Out) (env : LogEnv) (k : Nat) (name : String) (σ : Pr.State) (flags create use : PrFlags)
    (hc : (flags &&& create != 0) = flags.getLsbD (4 + k)) (hu : (flags &&& use != 0) = flags.getLsbD k) (drop keep : Int) (fd : Option Int) (pid : Nat)
    (x : (Pr.State × Option Int × List PrEvent) × Out) :
    parent d L env name σ flags create use drop keep fd pid = .ok x ↔ Pr.parent σ flags create use drop keep fd pid = .ok x.1 ∧
      logAll L (ops d Lib.MAA_PR ((Spec.streamText flags k name fd x.1.2.1).map (·, env))) = .ok x.2 := by
  unfold parent Pr.parent Spec.streamText
  rw [hc, hu]
  obtain ⟨⟨x1, x2, x3⟩, x4⟩ := x
  by_cases h1 : flags.getLsbD (4 + k)
  · simp only [h1, if_true]
    cases fd with
    | none => simp
    | some v =>
      simp only [say_ops (text := Res.ok _) rfl, Res.bind_ok_iff, Res.ok.injEq, Prod.mk.injEq]
      constructor
      · rintro ⟨σ', h2, L', h3, ⟨h4, h5, h6⟩, h7⟩
        exact ⟨⟨σ', h2, h4, h5, h6⟩, by rw [← h5, ← h7]; exact h3⟩
      · rintro ⟨⟨σ', h2, h4, h5, h6⟩, h7⟩
        rw [← h5] at h7
        exact ⟨σ', h2, _, h7, ⟨h4, h5, h6⟩, rfl⟩
  · simp only [h1, if_false, Bool.false_eq_true]
    by_cases h2 : flags.getLsbD k
    · simp only [h2, if_true, true_and]
      cases fd with
      | none => simp [ops_nil, logAll]
      | some v =>
        by_cases hv : v = 0
        · simp [hv, ops_nil, logAll]
        · have hv' : (some v).getD 0 ≠ 0 := hv
          simp only [hv, hv', ne_eq, not_false_eq_true, if_true]
          simp only [say_ops (text := Res.ok _) rfl, Res.bind_ok_iff, Res.ok.injEq, Prod.mk.injEq]
          constructor
          · rintro ⟨L', h3, σ', h4, ⟨h5, h6, h7⟩, h8⟩
            exact ⟨⟨σ', h4, h5, h6, h7⟩, by rw [← h8]; exact h3⟩
          · rintro ⟨⟨σ', h4, h5, h6, h7⟩, h8⟩
            exact ⟨_, h8, σ', h4, ⟨h5, h6, h7⟩, rfl⟩
    · simp [h2, ops_nil, logAll]

theorem logAll_ops_append (d : Flags.State) (flag : BitVec 64) (a b : List (List Byte × LogEnv)) (L : Out) :
    logAll L (ops d flag (a ++ b)) = (logAll L (ops d flag a)).bind fun L => logAll L (ops d flag b) := by
  rw [ops_append, logAll_append]

theorem waitLoop_eq (d : Flags.State) (pid : Nat) (errno : Int) (env : LogEnv) (n : Nat) (w : WaitEnd) (L : Out) :
    waitLoop d pid errno env n w L =
      (logAll L (ops d Lib.MAA_PR ((Spec.waitTexts pid w errno (Pr.prWait n w)).tail.map fun t => (t.2, env)))).bind fun L => .ok (Pr.prWait n w, L) := by
  induction n with
  | zero =>
    cases w with
    | noChild => simp [waitLoop, Spec.waitTexts, ops_nil, logAll, Res.bind, Pr.prWait]
    | failed => simp [waitLoop, Spec.waitTexts, Pr.prWait, say_ops (text := Res.ok _) rfl]
    | ended e => simp [waitLoop, Spec.waitTexts, Pr.prWait, say_ops (text := Res.ok _) rfl]
  | succ n ih => rw [waitLoop, ih]; rfl

theorem prWait_eq (d : Flags.State) (L : Out) (envs : Nat → LogEnv) (pid n : Nat) (w : WaitEnd) (errno : Int) :
    prWait d L envs pid n w errno =
      (logAll L (ops d Lib.MAA_PR ((Spec.waitTexts pid w errno (Pr.prWait n w)).map fun t => (t.2, envs t.1)))).bind fun L => .ok (Pr.prWait n w, L) := by
  unfold prWait
  rw [say_ops (text := Res.ok _) rfl]
  have : (Spec.waitTexts pid w errno (Pr.prWait n w)).map (fun t => (t.2, envs t.1)) =
      [(ascii "waiting on pid " ++ decimal pid ++ ascii "\n", envs 0)] ++
        (Spec.waitTexts pid w errno (Pr.prWait n w)).tail.map fun t => (t.2, envs 1) := by
    cases w <;> rfl
  rw [this, logAll_ops_append]
  cases logAll L (ops d Lib.MAA_PR [(ascii "waiting on pid " ++ decimal pid ++ ascii "\n", envs 0)]) with
  | ok L' => rw [okBind, okBind, waitLoop_eq]
  | _ => rfl

theorem prClose_eq (d : Flags.State) (L : Out) (envs : Nat → LogEnv) (σ : Pr.State) (fd : Int) (n : Nat) (w : WaitEnd) (errno : Int) (x : (Pr.State × PrOut) × Out) :
    prClose d L envs σ fd n w errno = .ok x ↔ Pr.prClose σ fd n w = .ok x.1 ∧
      logAll L (ops d Lib.MAA_PR (prMessages (.pr x.1.2 none) (.prClose fd n w errno envs))) = .ok x.2 := by
  unfold prClose Pr.prClose
  have hev : ∀ r, Pr.closeNowait σ fd = .ok r → r.2.events = [.closed fd] := by
    intro r hr
    unfold Pr.closeNowait at hr
    cases ho : σ.objects with
    | none => rw [ho] at hr; cases hr
    | some l =>
      rw [ho] at hr
      simp only [Res.bind_ok_iff] at hr
      obtain ⟨p, -, hr⟩ := hr
      split at hr
      · cases hr
      · simp only [Res.bind_ok_iff, Res.ok.injEq] at hr
        obtain ⟨s, -, rfl⟩ := hr
        rfl
  cases hc : Pr.closeNowait σ fd with
  | ok r =>
    have he := hev r hc
    obtain ⟨⟨x1, x2⟩, x3⟩ := x
    simp only [okBind, prWait_eq, Res.ok.injEq, Prod.mk.injEq]
    constructor
    · intro h
      rw [Res.bind_ok_iff] at h
      obtain ⟨q, h1, h2⟩ := h
      rw [Res.bind_ok_iff] at h1
      obtain ⟨L', h1, h3⟩ := h1
      simp only [Res.ok.injEq, Prod.mk.injEq] at h2 h3
      subst h3
      obtain ⟨⟨h4, h5⟩, h6⟩ := h2
      refine ⟨⟨h4, h5⟩, ?_⟩
      subst h5; subst h6
      simpa [prMessages, he] using h1
    · rintro ⟨⟨h4, h5⟩, h6⟩
      subst h5; subst h4
      have h6' : logAll L (ops d Lib.MAA_PR ((Spec.waitTexts r.2.ret.toNat w errno (Pr.prWait n w)).map fun t => (t.2, envs t.1))) = .ok x3 := by
        simpa [prMessages, he] using h6
      rw [h6']
      rfl
  | _ => simp [Res.bind]

theorem prSpawn_eq (d : Flags.State) (L : Out) (envs : Nat → LogEnv) (h : Mem) (σ : Pr.State) (command : List Byte) (pid : Option Nat) (n : Nat)
    (programs : PrExec.Exec → Option Ended) (x : (Mem × Pr.State × PrOut × PrExec.Exec) × Out) :
    prSpawn d L envs h σ (CStr.ofStr command) pid n programs = .ok x ↔ PrExec.spawnCommand h σ (CStr.ofStr command) pid n programs = .ok x.1 ∧
      logAll L (ops d Lib.MAA_PR (prMessages (.pr x.1.2.2.1 (some x.1.2.2.2)) (.prSpawn command pid n programs envs))) = .ok x.2 := by
  unfold prSpawn PrExec.spawnCommand
  obtain ⟨⟨x1, x2, x3, x4⟩, x5⟩ := x
  cases Arg.argify h (CStr.ofStr command) 0 with
  | ok l =>
    simp only [okBind]
    cases pid with
    | none => simp only [Res.bind_ok_iff, reduceCtorEq, and_false, exists_false, false_and]
    | some p =>
      simp only []
      cases he : PrExec.execArgs l.1 (Arg.getVector l.2).2 with
      | ok e =>
        simp only [okBind, say_ops (execSays_ok he command), prWait_eq]
        simp only [say_ops (text := Res.ok _) rfl]
        cases hd : Arg.destroy l.1 l.2 with
        | ok h' =>
          simp only [okBind, Pr.prSpawn]
          rw [Res.ok.injEq, Prod.mk.injEq, Prod.mk.injEq, Prod.mk.injEq]
          constructor
          · intro hx
            simp only [Res.bind_ok_iff, Res.ok.injEq, Prod.mk.injEq] at hx
            obtain ⟨L1, h1, L2, h2, q, ⟨L3, h3, rfl⟩, ⟨rfl, rfl, rfl, rfl⟩, rfl⟩ := hx
            refine ⟨⟨rfl, rfl, rfl, rfl⟩, ?_⟩
            simp only [prMessages, Spec.spawnTexts, List.map_append, List.map_map]
            rw [logAll_ops_append]
            have e2 : List.map (fun t => (t.2, envs t.1)) [(0, Spec.execText e.file (command.takeWhile (· ≠ 0))), (1, Spec.startedText p)] =
              [(Spec.execText e.file (command.takeWhile (· ≠ 0)), envs 0)] ++ [(Spec.startedText p, envs 1)] := rfl
            rw [e2, logAll_ops_append, h1, okBind]
            have h2' : logAll L1 (ops d Lib.MAA_PR [(Spec.startedText p, envs 1)]) = .ok L2 := h2
            rw [h2', okBind]
            exact h3
          · rintro ⟨⟨rfl, rfl, rfl, rfl⟩, hx⟩
            simp only [prMessages, Spec.spawnTexts, List.map_append, List.map_map] at hx
            rw [logAll_ops_append] at hx
            have e2 : List.map (fun t => (t.2, envs t.1)) [(0, Spec.execText e.file (command.takeWhile (· ≠ 0))), (1, Spec.startedText p)] =
              [(Spec.execText e.file (command.takeWhile (· ≠ 0)), envs 0)] ++ [(Spec.startedText p, envs 1)] := rfl
            rw [e2, logAll_ops_append] at hx
            simp only [Res.bind_ok_iff] at hx
            obtain ⟨L2, ⟨L1, h1, h2⟩, h3⟩ := hx
            rw [h1, okBind]
            have h2' : logAll L1 (ops d Lib.MAA_PR [(ascii "child pid = " ++ decimalInt p ++ ascii "\n", envs 1)]) = .ok L2 := h2
            rw [h2', okBind]
            have h3' : logAll L2 (ops d Lib.MAA_PR (List.map (fun t => (t.2, envs (2 + t.1)))
                (Spec.waitTexts p (.ended (PrExec.childEnd programs e)) 0 (Pr.prWait n (.ended (PrExec.childEnd programs e)))))) = .ok x5 := h3
            rw [h3']
            rfl
        | _ => simp only [Res.bind_ok_iff, reduceCtorEq, and_false, exists_false, false_and]
      | _ => simp only [Res.bind_ok_iff, reduceCtorEq, and_false, exists_false, false_and]
  | _ => simp [Res.bind]

theorem prOpen_eq (d : Flags.State) (L : Out) (envs : Nat → LogEnv) (h : Mem) (σ : Pr.State) (command : List Byte) (flags : PrFlags)
    (infd outfd errfd : Option Int) (env : PrEnv) (x : (Mem × Pr.State × PrOut × PrExec.Exec) × Out) :
    prOpen d L envs h σ (CStr.ofStr command) flags infd outfd errfd env = .ok x ↔
      PrExec.openCommand h σ (CStr.ofStr command) flags infd outfd errfd env = .ok x.1 ∧
      logAll L (ops d Lib.MAA_PR (prMessages (.pr x.1.2.2.1 (some x.1.2.2.2)) (.prOpen command flags infd outfd errfd env envs))) = .ok x.2 := by
  unfold prOpen PrExec.openCommand Pr.prOpen
  obtain ⟨⟨x1, x2, x3, x4⟩, x5⟩ := x
  by_cases hb : Pr.badFlags flags
  · simp [hb]
  · simp only [hb, Bool.false_eq_true, if_false]
    cases Arg.argify h (CStr.ofStr command) 0 with
    | ok l =>
      simp only [okBind]
      split
      · simp only [Res.bind_ok_iff, reduceCtorEq, and_false, exists_false, false_and]
      split
      · simp only [Res.bind_ok_iff, reduceCtorEq, and_false, exists_false, false_and]
      split
      · simp only [Res.bind_ok_iff, reduceCtorEq, and_false, exists_false, false_and]
      cases env.pid with
      | none => simp only [Res.bind_ok_iff, reduceCtorEq, and_false, exists_false, false_and]
      | some pid =>
        cases he : PrExec.execArgs l.1 (Arg.getVector l.2).2 with
        | ok e =>
          simp only [say_ops (execSays_ok he command)]
          have p0 := fun L n s f dr k fd pd x => parent_eq d L n 0 s f flags Pr.CREATE_STDIN Pr.USE_STDIN (Pr.createIn flags) (Pr.useIn flags) dr k fd pd x
          have p1 := fun L n s f dr k fd pd x => parent_eq d L n 1 s f flags Pr.CREATE_STDOUT Pr.USE_STDOUT (Pr.createOut flags) (Pr.useOut flags) dr k fd pd x
          have p2 := fun L n s f dr k fd pd x => parent_eq d L n 2 s f flags Pr.CREATE_STDERR Pr.USE_STDERR (Pr.createErr flags) (Pr.useErr flags) dr k fd pd x
          have split5 : ∀ (out : PrOut) (ex : PrExec.Exec) (L L' : Out), logAll L (ops d Lib.MAA_PR (prMessages (.pr out (some ex)) (.prOpen command flags infd outfd errfd env envs))) = .ok L' ↔
              ∃ L1, logAll L (ops d Lib.MAA_PR [(Spec.execText ex.file (command.takeWhile (· ≠ 0)), envs 0)]) = .ok L1 ∧
              ∃ L2, logAll L1 (ops d Lib.MAA_PR ((Spec.streamText flags 0 "stdin" infd (out.fds.getD 0 none)).map (·, envs 1))) = .ok L2 ∧
              ∃ L3, logAll L2 (ops d Lib.MAA_PR ((Spec.streamText flags 1 "stdout" outfd (out.fds.getD 1 none)).map (·, envs 2))) = .ok L3 ∧
              ∃ L4, logAll L3 (ops d Lib.MAA_PR ((Spec.streamText flags 2 "stderr" errfd (out.fds.getD 2 none)).map (·, envs 3))) = .ok L4 ∧
              logAll L4 (ops d Lib.MAA_PR [(Spec.startedText out.ret, envs 4)]) = .ok L' := by
            intro out ex L L'
            simp only [prMessages, Spec.openTexts, List.map_append, List.map_map, logAll_ops_append, Res.bind_ok_iff, List.map_cons, List.map_nil]
            constructor
            · rintro ⟨L4, ⟨L3, ⟨L2, ⟨L1, h1, h2⟩, h3⟩, h4⟩, h5⟩
              exact ⟨L1, h1, L2, h2, L3, h3, L4, h4, h5⟩
            · rintro ⟨L1, h1, L2, h2, L3, h3, L4, h4, h5⟩
              exact ⟨L4, ⟨L3, ⟨L2, ⟨L1, h1, h2⟩, h3⟩, h4⟩, h5⟩
          simp only [split5]
          simp only [Res.bind_ok_iff, p0, p1, p2, say_ops (text := Res.ok _) rfl, okBind, Res.ok.injEq, Prod.mk.injEq]
          constructor
          · rintro ⟨L1, h1, a, ⟨ha, ha'⟩, b, ⟨hb, hb'⟩, c, ⟨hc, hc'⟩, L2, h2, h', hd, ⟨rfl, rfl, rfl, rfl⟩, rfl⟩
            exact ⟨⟨_, ⟨a.1, ha, b.1, hb, c.1, hc, rfl⟩, h', hd, rfl, rfl, rfl, rfl⟩, ⟨L1, h1, _, ha', _, hb', _, hc', h2⟩⟩
          · rintro ⟨⟨r, ⟨a, ha, b, hb, c, hc, rfl⟩, h', hd, rfl, rfl, rfl, rfl⟩, L1, h1, L2, h2, L3, h3, L4, h4, h5⟩
            exact ⟨L1, h1, (a, L2), ⟨ha, h2⟩, (b, L3), ⟨hb, h3⟩, (c, L4), ⟨hc, h4⟩, x5, h5, h', hd, ⟨rfl, rfl, rfl, rfl⟩, rfl⟩
        | _ => simp only [Res.bind_ok_iff, reduceCtorEq, and_false, exists_false, false_and]
    | _ => simp [Res.bind]

/-! ## The calls -/

theorem step_eq (q : Quiet) (L : Out) (o : Op) (x : (Quiet × Out) × Val) :
    step (q, L) o = .ok x ↔ quietStep q o = .ok (x.1.1, x.2) ∧ logAll L (logOps q x.2 o) = .ok x.1.2 := by
  obtain ⟨⟨q', L'⟩, v⟩ := x
  have plain : ∀ (o : Op), (∀ v, logOps q v o = []) → step (q, L) o = ((quietStep q o).bind fun r => .ok ((r.1, L), r.2)) →
      (step (q, L) o = .ok ((q', L'), v) ↔ quietStep q o = .ok (q', v) ∧ logAll L (logOps q v o) = .ok L') := by
    intro o h1 h2
    rw [h1, h2, Res.bind_ok_iff]
    simp only [logAll, Res.ok.injEq, Prod.mk.injEq]
    constructor
    · rintro ⟨r, h3, ⟨h4, h5⟩, h6⟩; exact ⟨by rw [h3, ← h4, ← h6], h5⟩
    · rintro ⟨h3, h4⟩; exact ⟨_, h3, ⟨rfl, h4⟩, rfl⟩
  have srcOnly : ∀ (o : Op) (v : Val), (∀ l, o ≠ .log l) → prMessages v o = [] → logOps q v o = ops q.dbg Lib.MAA_SRC (srcMessages q v o) := by
    intro o v h1 h2
    unfold logOps
    cases o <;> simp only [h2, List.map_nil, ite_self, List.append_nil] <;> first | rfl | exact absurd rfl (h1 _)
  have prOnly : ∀ (o : Op) (v : Val), (∀ l, o ≠ .log l) → srcMessages q v o = [] → logOps q v o = ops q.dbg Lib.MAA_PR (prMessages v o) := by
    intro o v h1 h2
    unfold logOps
    cases o <;> simp only [h2, List.map_nil, ite_self, List.nil_append] <;> first | rfl | exact absurd rfl (h1 _)
  have none_ : ∀ (o : Op), (∀ l, o ≠ .log l) → (∀ v, srcMessages q v o = [] ∧ prMessages v o = []) → ∀ v, logOps q v o = [] := by
    intro o h1 h2 v
    rw [srcOnly o v h1 (h2 v).2, (h2 v).1, ops_nil]
  cases o with
  | dbg o => exact plain _ (none_ _ (by simp) fun v => ⟨rfl, rfl⟩) rfl
  | prs o => exact plain _ (none_ _ (by simp) fun v => ⟨rfl, rfl⟩) rfl
  | prCloseNowait fd => exact plain _ (none_ _ (by simp) fun v => ⟨rfl, rfl⟩) rfl
  | prShutdown => exact plain _ (none_ _ (by simp) fun v => ⟨rfl, rfl⟩) rfl
  | log o =>
    simp only [step, quietStep, logOps, logAll, Res.bind_ok_iff, Res.ok.injEq, Prod.mk.injEq]
    constructor
    · rintro ⟨r, h1, ⟨h2, h3⟩, h4⟩; exact ⟨⟨h2, h4⟩, r, h1, h3⟩
    · rintro ⟨⟨h2, h4⟩, r, h1, h3⟩; exact ⟨r, h1, ⟨h2, h3⟩, h4⟩
  | src o env =>
    cases o with
    | line buf len =>
      rw [srcOnly _ _ (by simp) rfl]
      simp only [step, quietStep, Source.step, Res.bind_ok_iff, srcLine_eq, Res.ok.injEq, Prod.mk.injEq]
      constructor
      · rintro ⟨r, ⟨h1, h2⟩, ⟨h3, h4⟩, h5⟩
        subst h3; subst h4; subst h5
        exact ⟨⟨_, ⟨_, h1, rfl⟩, rfl, rfl⟩, h2⟩
      · rintro ⟨⟨_, ⟨r, h1, rfl⟩, rfl, rfl⟩, h2⟩
        exact ⟨(r, L'), ⟨h1, h2⟩, ⟨rfl, rfl⟩, rfl⟩
    | printError stream h m =>
      rw [srcOnly _ _ (by simp) rfl]
      simp only [step, quietStep, Source.step, Res.bind_ok_iff, srcPrintError_eq, Res.ok.injEq, Prod.mk.injEq]
      constructor
      · rintro ⟨r, ⟨h1, h2⟩, ⟨h3, h4⟩, h5⟩
        subst h3; subst h4; subst h5
        exact ⟨⟨_, ⟨_, h1, rfl⟩, rfl, rfl⟩, h2⟩
      · rintro ⟨⟨_, ⟨r, h1, rfl⟩, rfl, rfl⟩, h2⟩
        exact ⟨(r, L'), ⟨h1, h2⟩, ⟨rfl, rfl⟩, rfl⟩
    | _ => exact plain _ (none_ _ (by simp) fun v => ⟨rfl, rfl⟩) rfl
  | parseError h m env =>
    rw [srcOnly _ _ (by simp) rfl]
    simp only [step, quietStep, Res.bind_ok_iff, srcParseError_eq, Res.ok.injEq, Prod.mk.injEq]
    constructor
    · rintro ⟨r, ⟨h1, h2⟩, ⟨h3, h4⟩, h5⟩
      subst h3; subst h4; subst h5
      exact ⟨⟨_, h1, rfl, rfl⟩, h2⟩
    · rintro ⟨⟨r, h1, rfl, rfl⟩, h2⟩
      exact ⟨(r, L'), ⟨h1, h2⟩, ⟨rfl, rfl⟩, rfl⟩
  | cpp line length env =>
    rw [srcOnly _ _ (by simp) rfl]
    simp only [step, quietStep, Res.bind_ok_iff, srcCppLine_eq, Res.ok.injEq, Prod.mk.injEq]
    constructor
    · rintro ⟨r, ⟨h1, h2⟩, ⟨h3, h4⟩, h5⟩
      subst h3; subst h4; subst h5
      exact ⟨⟨_, h1, rfl, rfl⟩, h2⟩
    · rintro ⟨⟨r, h1, rfl, rfl⟩, h2⟩
      exact ⟨(r, L'), ⟨h1, h2⟩, ⟨rfl, rfl⟩, rfl⟩
  | prOpen command f i o e env envs =>
    rw [prOnly _ _ (by simp) rfl]
    simp only [step, quietStep, Res.bind_ok_iff, prOpen_eq, Res.ok.injEq, Prod.mk.injEq]
    constructor
    · rintro ⟨r, ⟨h1, h2⟩, ⟨h3, h4⟩, h5⟩
      subst h3; subst h4; subst h5
      exact ⟨⟨_, h1, rfl, rfl⟩, h2⟩
    · rintro ⟨⟨r, h1, rfl, rfl⟩, h2⟩
      exact ⟨(r, L'), ⟨h1, h2⟩, ⟨rfl, rfl⟩, rfl⟩
  | prSpawn command pid n programs envs =>
    rw [prOnly _ _ (by simp) rfl]
    simp only [step, quietStep, Res.bind_ok_iff, prSpawn_eq, Res.ok.injEq, Prod.mk.injEq]
    constructor
    · rintro ⟨r, ⟨h1, h2⟩, ⟨h3, h4⟩, h5⟩
      subst h3; subst h4; subst h5
      exact ⟨⟨_, h1, rfl, rfl⟩, h2⟩
    · rintro ⟨⟨r, h1, rfl, rfl⟩, h2⟩
      exact ⟨(r, L'), ⟨h1, h2⟩, ⟨rfl, rfl⟩, rfl⟩
  | prClose fd n w errno envs =>
    rw [prOnly _ _ (by simp) rfl]
    simp only [step, quietStep, Res.bind_ok_iff, prClose_eq, Res.ok.injEq, Prod.mk.injEq]
    constructor
    · rintro ⟨r, ⟨h1, h2⟩, ⟨h3, h4⟩, h5⟩
      subst h3; subst h4; subst h5
      exact ⟨⟨_, h1, rfl, rfl⟩, h2⟩
    · rintro ⟨⟨r, h1, rfl, rfl⟩, h2⟩
      exact ⟨(r, L'), ⟨h1, h2⟩, ⟨rfl, rfl⟩, rfl⟩

/-! ## C92 -/

theorem history_all : ∀ (hist : List Op) (q : Quiet) (L : Out) (q' : Quiet) (L' : Out) (vs : List Val),
    Spec.run step (q, L) hist = .ok ((q', L'), vs) ↔
      Spec.run quietStep q hist = .ok (q', vs) ∧ logAll L (logHistory q hist) = .ok L' := by
  intro hist
  induction hist with
  | nil =>
    intro q L q' L' vs
    simp only [Spec.run, logHistory, logAll, Res.ok.injEq, Prod.mk.injEq]
    tauto
  | cons o hist ih =>
    intro q L q' L' vs
    simp only [Spec.run, logHistory]
    constructor
    · intro h
      rw [Res.bind_ok_iff] at h
      obtain ⟨⟨⟨q1, L1⟩, v⟩, h1, h2⟩ := h
      rw [Res.bind_ok_iff] at h2
      obtain ⟨⟨⟨q2, L2⟩, vs'⟩, h2, h3⟩ := h2
      rw [step_eq] at h1
      rw [ih] at h2
      simp only [Res.ok.injEq, Prod.mk.injEq] at h3
      obtain ⟨⟨rfl, rfl⟩, rfl⟩ := h3
      obtain ⟨h1, h1'⟩ := h1
      obtain ⟨h2, h2'⟩ := h2
      rw [h1, okBind]
      simp only [] at h1 h1' h2 h2' ⊢
      rw [h2, logAll_append, h1']
      exact ⟨rfl, h2'⟩
    · rintro ⟨h1, h2⟩
      rw [Res.bind_ok_iff] at h1
      obtain ⟨⟨q1, v⟩, h1, h3⟩ := h1
      rw [Res.bind_ok_iff] at h3
      obtain ⟨⟨q2, vs'⟩, h3, h4⟩ := h3
      simp only [Res.ok.injEq, Prod.mk.injEq] at h4
      obtain ⟨rfl, rfl⟩ := h4
      rw [h1] at h2
      simp only [] at h2
      rw [logAll_append, Res.bind_ok_iff] at h2
      obtain ⟨L1, h2, h4⟩ := h2
      have h5 : step (q, L) o = .ok ((q1, L1), v) := (step_eq q L o _).2 ⟨h1, h2⟩
      rw [h5, okBind]
      have h6 : Spec.run step (q1, L1) hist = .ok ((q2, L'), vs') := (ih q1 L1 q2 L' vs').2 ⟨h3, h4⟩
      simp only []
      rw [h6]
      rfl

/-- C92: a history with messages runs and returns `vs` exactly if the history without messages runs and returns `vs`, and a program can log the
messages itself (`logHistory`: its own calls to log.c, and `log_info` for each message of a call made while the flag is set) from the same state of the
log; the log ends in the same state, and what comes out of it is the same. -/
theorem C92_history (hist : List Op) (q q' : Quiet) (L L' : Out) (vs : List Val) :
    Spec.run step (q, L) hist = .ok ((q', L'), vs) ↔
      Spec.run quietStep q hist = .ok (q', vs) ∧
      ∃ evs, Spec.run Log.step L.log (logHistory q hist) = .ok (L'.log, evs) ∧ L'.events = L.events ++ evs.flatten := by
  rw [history_all, logAll_run]

/-! ## `pr_readwrite` -/

/-- What waiting, among what was done, says. -/
def waitMessages (n : Nat) (w : WaitEnd) (errno : Int) (envs : Nat → LogEnv) (es : List PrEvent) : List (List Byte × LogEnv) :=
  es.flatMap fun
    | .waited pid => (Spec.waitTexts pid w errno (Pr.prWait n w)).map fun t => (t.2, envs t.1)
    | _ => []

/-- The messages of a round that leads from `s` to `s'`: how much was written and read, and the end of the child if it was waited for. -/
def roundMessages (n : Nat) (w : WaitEnd) (errno : Int) (envs : Nat → LogEnv) (s s' : Pr.Loop) : List (List Byte × LogEnv) :=
  (if s'.inLen < s.inLen then [(ascii "  wrote " ++ decimal (s.inLen - s'.inLen) ++ ascii "\n", envs 0)] else []) ++
  (if s.outLen < s'.outLen then [(ascii "  read " ++ decimal (s'.outLen - s.outLen) ++ ascii "\n", envs 1)] else []) ++
  waitMessages n w errno (fun i => envs (1 + i)) (s'.events.drop s.events.length)

/-- The state after a round. -/
def stateOf : Pr.Flow → Pr.Loop
  | .running s => s
  | .returned _ s => s

/-- The messages of all rounds. -/
def roundsMessages (inp out : Int) (inBuf : List Byte) (n : Nat) (w : WaitEnd) (errno : Int) (more : Nat → (Nat → LogEnv) × Select) :
    Nat → Pr.Loop → List Pr.Round → List (List Byte × LogEnv)
  | _, _, [] => []
  | i, s, r :: rs =>
    match Pr.round inp out inBuf n w s r with
    | .ok f => roundMessages n w errno (more i).1 s (stateOf f) ++
        (match f with
         | .running s => roundsMessages inp out inBuf n w errno more (i + 1) s rs
         | .returned _ _ => [])
    | _ => []

/-- What all rounds print. -/
def roundsPrinted (inp out : Int) (inBuf : List Byte) (n : Nat) (w : WaitEnd) (more : Nat → (Nat → LogEnv) × Select) :
    Nat → Pr.Loop → List Pr.Round → List Byte
  | _, _, [] => []
  | i, s, r :: rs => selectText s (more i).2 ++
    match Pr.round inp out inBuf n w s r with
    | .ok (.running s) => roundsPrinted inp out inBuf n w more (i + 1) s rs
    | _ => []

theorem closeNowait_events {σ : Pr.State} {fd : Int} {r : Pr.State × PrOut} (hr : Pr.closeNowait σ fd = .ok r) : r.2.events = [.closed fd] := by
  unfold Pr.closeNowait at hr
  cases ho : σ.objects with
  | none => rw [ho] at hr; cases hr
  | some l =>
    rw [ho] at hr
    simp only [Res.bind_ok_iff] at hr
    obtain ⟨p, -, hr⟩ := hr
    split at hr
    · cases hr
    · simp only [Res.bind_ok_iff, Res.ok.injEq] at hr
      obtain ⟨s, -, rfl⟩ := hr
      rfl

theorem waitMessages_append (n : Nat) (w : WaitEnd) (errno : Int) (envs : Nat → LogEnv) (a b : List PrEvent) :
    waitMessages n w errno envs (a ++ b) = waitMessages n w errno envs a ++ waitMessages n w errno envs b := by
  unfold waitMessages; rw [List.flatMap_append]

theorem writeHalf_eq (d : Flags.State) (L : Out) (env : LogEnv) (inp : Int) (inBuf : List Byte) (s : Pr.Loop) (r : Pr.Round) (x : Pr.Loop × Out) :
    writeHalf d L env inp inBuf s r = .ok x ↔ Pr.writeHalf inp inBuf s r = .ok x.1 ∧
      logAll L (ops d Lib.MAA_PR (if x.1.inLen < s.inLen then [(ascii "  wrote " ++ decimal (s.inLen - x.1.inLen) ++ ascii "\n", env)] else [])) = .ok x.2 := by
  unfold writeHalf Pr.writeHalf
  obtain ⟨x1, x2⟩ := x
  by_cases h0 : s.inLen = 0
  · simp only [h0, if_true, Res.ok.injEq, Prod.mk.injEq, Nat.not_lt_zero, if_false, ops_nil, logAll]
  simp only [if_neg h0]
  by_cases h1 : r.writeErr = true
  · simp only [h1, if_true, reduceCtorEq, false_and]
  simp only [h1, if_false, Bool.false_eq_true]
  by_cases h2 : min r.accept s.inLen = 0
  · simp only [h2, if_true, Res.ok.injEq, Prod.mk.injEq]
    constructor
    · rintro ⟨rfl, rfl⟩; simp [ops_nil, logAll]
    · rintro ⟨rfl, h⟩; simpa [ops_nil, logAll] using h
  simp only [if_neg h2]
  by_cases h3 : s.inPt + min r.accept s.inLen > inBuf.length
  · simp only [h3, if_true, reduceCtorEq, false_and]
  simp only [if_neg h3]
  rw [say_ops (text := Res.ok _) rfl]
  have hlt : s.inLen - min r.accept s.inLen < s.inLen := by omega
  have hsub : s.inLen - (s.inLen - min r.accept s.inLen) = min r.accept s.inLen := by omega
  by_cases h4 : s.inLen - min r.accept s.inLen = 0
  · simp only [h4, if_true, Res.bind_ok_iff, Res.ok.injEq, Prod.mk.injEq]
    have hpos : 0 < s.inLen := by omega
    have hm : min r.accept s.inLen = s.inLen := by omega
    constructor
    · rintro ⟨L', e1, q, e2, rfl, rfl⟩
      exact ⟨⟨q, e2, rfl⟩, by simp only [hpos, if_true, Nat.sub_zero]; rw [← e1, hm]⟩
    · rintro ⟨⟨q, e2, rfl⟩, e1⟩
      simp only [hpos, if_true, Nat.sub_zero] at e1
      exact ⟨x2, by rw [hm]; exact e1, q, e2, rfl, rfl⟩
  · simp only [if_neg h4, Res.bind_ok_iff, Res.ok.injEq, Prod.mk.injEq]
    constructor
    · rintro ⟨L', e1, rfl, rfl⟩
      refine ⟨rfl, ?_⟩
      simp only [hlt, if_true, hsub]; exact e1
    · rintro ⟨rfl, e1⟩
      simp only [hlt, if_true, hsub] at e1
      exact ⟨x2, e1, rfl, rfl⟩

theorem writeHalf_shape {inp : Int} {inBuf : List Byte} {s s1 : Pr.Loop} {r : Pr.Round} (h : Pr.writeHalf inp inBuf s r = .ok s1)
    (n : Nat) (w : WaitEnd) (errno : Int) (envs : Nat → LogEnv) :
    s1.outLen = s.outLen ∧ ∃ e, s1.events = s.events ++ e ∧ waitMessages n w errno envs e = [] := by
  unfold Pr.writeHalf at h
  split at h
  · simp only [Res.ok.injEq] at h; subst h; exact ⟨rfl, [], by simp, rfl⟩
  split at h
  · cases h
  simp only [] at h
  split at h
  · simp only [Res.ok.injEq] at h; subst h; exact ⟨rfl, [], by simp, rfl⟩
  split at h
  · cases h
  split at h
  · rw [Res.bind_ok_iff] at h
    obtain ⟨q, hq, h⟩ := h
    simp only [Res.ok.injEq] at h
    subst h
    exact ⟨rfl, _, rfl, by rw [closeNowait_events hq]; rfl⟩
  · simp only [Res.ok.injEq] at h; subst h; exact ⟨rfl, [], by simp, rfl⟩

theorem prClose_events {σ : Pr.State} {fd : Int} {n : Nat} {w : WaitEnd} {r : Pr.State × PrOut} (h : Pr.prClose σ fd n w = .ok r)
    (errno : Int) (envs : Nat → LogEnv) : prMessages (.pr r.2 none) (.prClose fd n w errno envs) = waitMessages n w errno envs r.2.events := by
  unfold Pr.prClose at h
  rw [Res.bind_ok_iff] at h
  obtain ⟨q, hq, h⟩ := h
  simp only [Res.ok.injEq] at h
  subst h
  rfl

theorem readHalf_eq (d : Flags.State) (L : Out) (envs : Nat → LogEnv) (out : Int) (n : Nat) (w : WaitEnd) (errno : Int) (s : Pr.Loop) (r : Pr.Round)
    (x : Pr.Flow × Out) :
    readHalf d L envs out n w errno s r = .ok x ↔ Pr.readHalf out n w s r = .ok x.1 ∧
      logAll L (ops d Lib.MAA_PR ((if s.outLen < (stateOf x.1).outLen then [(ascii "  read " ++ decimal ((stateOf x.1).outLen - s.outLen) ++ ascii "\n", envs 0)] else []) ++
        waitMessages n w errno envs ((stateOf x.1).events.drop s.events.length))) = .ok x.2 := by
  unfold readHalf Pr.readHalf
  obtain ⟨x1, x2⟩ := x
  cases hread : Pr.sysRead s.outMaxLen (s.written.length - s.taken) r with
  | error => simp only [reduceCtorEq, false_and]
  | again =>
    simp only [Res.ok.injEq, Prod.mk.injEq]
    constructor
    · rintro ⟨rfl, rfl⟩; simp [stateOf, waitMessages, ops_nil, logAll]
    · rintro ⟨rfl, h⟩; simpa [stateOf, waitMessages, ops_nil, logAll] using h
  | count c =>
    cases c with
    | zero =>
      simp only []
      by_cases hi : s.inLen ≠ 0
      · simp only [hi, ne_eq, not_false_eq_true, if_true, reduceCtorEq, false_and]
      · simp only [hi, if_false]
        simp only [Res.bind_ok_iff, prClose_eq, Res.ok.injEq, Prod.mk.injEq]
        constructor
        · rintro ⟨q, ⟨h1, h2⟩, rfl, rfl⟩
          refine ⟨⟨_, h1, rfl⟩, ?_⟩
          rw [prClose_events h1] at h2
          simpa [stateOf] using h2
        · rintro ⟨⟨q, h1, rfl⟩, h2⟩
          refine ⟨(q, x2), ⟨h1, ?_⟩, rfl, rfl⟩
          rw [prClose_events h1]
          simpa [stateOf] using h2
    | succ c =>
      simp only []
      by_cases h1 : s.outPt + (c + 1) > s.outBuf.length
      · simp only [h1, if_true, reduceCtorEq, false_and]
      simp only [if_neg h1]
      rw [say_ops (text := Res.ok _) rfl]
      by_cases h2 : (s.outMaxLen : Int) - ((c + 1 : Nat) : Int) < 0
      · simp only [h2, if_true, Res.bind_ok_iff, reduceCtorEq, and_false, exists_false, false_and]
      simp only [if_neg h2, Res.bind_ok_iff, Res.ok.injEq, Prod.mk.injEq]
      constructor
      · rintro ⟨L', e1, rfl, rfl⟩
        refine ⟨rfl, ?_⟩
        have : s.outLen < s.outLen + (c + 1) := by omega
        simp only [stateOf, this, if_true, Nat.add_sub_cancel_left]
        simpa [waitMessages] using e1
      · rintro ⟨rfl, e1⟩
        have : s.outLen < s.outLen + (c + 1) := by omega
        simp only [stateOf, this, if_true, Nat.add_sub_cancel_left] at e1
        exact ⟨x2, by simpa [waitMessages] using e1, rfl, rfl⟩

theorem readHalf_shape {out : Int} {n : Nat} {w : WaitEnd} {s : Pr.Loop} {r : Pr.Round} {f : Pr.Flow} (h : Pr.readHalf out n w s r = .ok f) :
    (stateOf f).inLen = s.inLen ∧ ∃ e, (stateOf f).events = s.events ++ e := by
  unfold Pr.readHalf at h
  split at h
  · cases h
  · simp only [Res.ok.injEq] at h; subst h; exact ⟨rfl, [], by simp [stateOf]⟩
  · split at h
    · cases h
    · rw [Res.bind_ok_iff] at h
      obtain ⟨q, -, h⟩ := h
      simp only [Res.ok.injEq] at h; subst h; exact ⟨rfl, _, rfl⟩
  · split at h
    · cases h
    split at h
    · cases h
    simp only [Res.ok.injEq] at h; subst h; exact ⟨rfl, [], by simp [stateOf]⟩

theorem round_eq (d : Flags.State) (L : Out2) (envs : Nat → LogEnv) (a : Select) (inp out : Int) (inBuf : List Byte) (n : Nat) (w : WaitEnd) (errno : Int)
    (s : Pr.Loop) (r : Pr.Round) (x : Pr.Flow × Out2) :
    round d L envs a inp out inBuf n w errno s r = .ok x ↔ Pr.round inp out inBuf n w s r = .ok x.1 ∧
      logAll L.out (ops d Lib.MAA_PR (roundMessages n w errno envs s (stateOf x.1))) = .ok x.2.out ∧
      x.2.stdout = L.stdout ++ (if Flags.dbgTest d Lib.MAA_PR = 0 then [] else selectText { s with written := s.written ++ r.written } a) := by
  unfold round Pr.round
  obtain ⟨x1, x2, x3⟩ := x
  split
  · simp only [reduceCtorEq, false_and]
  split
  · simp only [reduceCtorEq, false_and]
  simp only [Res.bind_ok_iff, writeHalf_eq, readHalf_eq, Res.ok.injEq, Prod.mk.injEq, Out2.mk.injEq]
  constructor
  · rintro ⟨q, ⟨h1, h2⟩, f, ⟨h3, h4⟩, rfl, rfl, rfl⟩
    refine ⟨⟨_, h1, h3⟩, ?_, rfl⟩
    obtain ⟨g1, e, g2, g3⟩ := writeHalf_shape h1 n w errno fun i => envs (1 + i)
    obtain ⟨g4, e', g5⟩ := readHalf_shape h3
    unfold roundMessages
    have ev : waitMessages n w errno (fun i => envs (1 + i)) ((stateOf f.1).events.drop s.events.length) =
        waitMessages n w errno (fun i => envs (1 + i)) ((stateOf f.1).events.drop q.1.events.length) := by
      rw [g5, g2]
      simp [List.append_assoc, waitMessages_append, g3]
    rw [ev, List.append_assoc, logAll_ops_append, g4, ← g1]
    rw [h2]
    exact h4
  · rintro ⟨⟨s1, h1, h3⟩, h2, rfl⟩
    obtain ⟨g1, e, g2, g3⟩ := writeHalf_shape h1 n w errno fun i => envs (1 + i)
    obtain ⟨g4, e', g5⟩ := readHalf_shape h3
    unfold roundMessages at h2
    have ev : waitMessages n w errno (fun i => envs (1 + i)) ((stateOf x1).events.drop s.events.length) =
        waitMessages n w errno (fun i => envs (1 + i)) ((stateOf x1).events.drop s1.events.length) := by
      rw [g5, g2]
      simp [List.append_assoc, waitMessages_append, g3]
    rw [ev, List.append_assoc, logAll_ops_append, g4, ← g1, Res.bind_ok_iff] at h2
    obtain ⟨L1, h2, h4⟩ := h2
    exact ⟨(s1, L1), ⟨h1, h2⟩, (x1, x2), ⟨h3, h4⟩, rfl, rfl, rfl⟩

theorem rounds_eq (d : Flags.State) (inp out : Int) (inBuf : List Byte) (n : Nat) (w : WaitEnd) (errno : Int) (more : Nat → (Nat → LogEnv) × Select) :
    ∀ (rs : List Pr.Round) (i : Nat) (L : Out2) (s : Pr.Loop) (x : Pr.Flow × Out2),
    rounds d inp out inBuf n w errno more i L s rs = .ok x ↔ Pr.rounds inp out inBuf n w s rs = .ok x.1 ∧
      logAll L.out (ops d Lib.MAA_PR (roundsMessages inp out inBuf n w errno more i s rs)) = .ok x.2.out ∧
      x.2.stdout = L.stdout ++ (if Flags.dbgTest d Lib.MAA_PR = 0 then [] else roundsPrinted inp out inBuf n w more i s rs) := by
  intro rs
  induction rs with
  | nil =>
    intro i L s x
    obtain ⟨x1, x2, x3⟩ := x
    obtain ⟨L1, L2⟩ := L
    simp only [rounds, Pr.rounds, roundsMessages, roundsPrinted, ops_nil, logAll, Res.ok.injEq, Prod.mk.injEq, Out2.mk.injEq, ite_self, List.append_nil]
    constructor
    · rintro ⟨rfl, rfl, rfl⟩; exact ⟨rfl, rfl, rfl⟩
    · rintro ⟨rfl, rfl, rfl⟩; exact ⟨rfl, rfl, rfl⟩
  | cons r rs ih =>
    intro i L s x
    simp only [rounds, Pr.rounds, roundsMessages, roundsPrinted]
    cases hr : Pr.round inp out inBuf n w s r with
    | ok f =>
      simp only [okBind]
      have key : ∀ (L' : Out2), round d L (more i).1 (more i).2 inp out inBuf n w errno s r = .ok (f, L') ↔
          logAll L.out (ops d Lib.MAA_PR (roundMessages n w errno (more i).1 s (stateOf f))) = .ok L'.out ∧
          L'.stdout = L.stdout ++ (if Flags.dbgTest d Lib.MAA_PR = 0 then [] else selectText s (more i).2) := by
        intro L'
        rw [round_eq]
        simp only [hr, true_and]
        rfl
      have uniq : ∀ g, round d L (more i).1 (more i).2 inp out inBuf n w errno s r = .ok g → g.1 = f := by
        intro g hg
        have := ((round_eq d L _ _ inp out inBuf n w errno s r g).1 hg).1
        rw [hr] at this
        exact (Res.ok.inj this).symm
      rw [Res.bind_ok_iff]
      cases f with
      | running s' =>
        simp only [stateOf] at key ⊢
        constructor
        · rintro ⟨g, hg, h⟩
          have e := uniq g hg
          obtain ⟨g1, L'⟩ := g
          simp only at e
          subst e
          obtain ⟨k1, k2⟩ := (key L').1 hg
          obtain ⟨h1, h2, h3⟩ := (ih (i + 1) L' s' x).1 h
          refine ⟨h1, by rw [logAll_ops_append, k1, okBind, h2], ?_⟩
          rw [h3, k2]
          split <;> simp
        · rintro ⟨h1, h2, h3⟩
          rw [logAll_ops_append, Res.bind_ok_iff] at h2
          obtain ⟨L1, h2, h4⟩ := h2
          refine ⟨(.running s', { out := L1, stdout := L.stdout ++ (if Flags.dbgTest d Lib.MAA_PR = 0 then [] else selectText s (more i).2) }), (key _).2 ⟨h2, rfl⟩, ?_⟩
          refine (ih (i + 1) _ s' x).2 ⟨h1, h4, ?_⟩
          rw [h3]
          split <;> simp
      | returned k s' =>
        simp only [stateOf, List.append_nil] at key ⊢
        obtain ⟨x1, x2⟩ := x
        constructor
        · rintro ⟨g, hg, h⟩
          have e := uniq g hg
          obtain ⟨g1, L'⟩ := g
          simp only at e
          subst e
          obtain ⟨k1, k2⟩ := (key L').1 hg
          simp only [Res.ok.injEq, Prod.mk.injEq] at h
          obtain ⟨rfl, rfl⟩ := h
          exact ⟨rfl, k1, k2⟩
        · rintro ⟨h1, h2, h3⟩
          simp only [Res.ok.injEq] at h1
          subst h1
          exact ⟨_, (key x2).2 ⟨h2, h3⟩, rfl⟩
    | _ =>
      simp only [Res.bind, reduceCtorEq, false_and, iff_false]
      intro h
      have hx := fun g => (round_eq d L (more i).1 (more i).2 inp out inBuf n w errno s r g)
      cases hg : round d L (more i).1 (more i).2 inp out inBuf n w errno s r with
      | ok g => have := ((hx g).1 hg).1; rw [hr] at this; cases this
      | _ => rw [hg] at h; cases h

/-- C92: `pr_readwrite` returns (or goes on) with messages exactly if it does without them, with the same result, and its messages can be logged: how
much was written and read in each round, and the end of the child. What it says about `select` is printed. -/
theorem C92_readwrite (d : Flags.State) (L : Out2) (σ : Pr.State) (inp out : Int) (inBuf : List Byte) (inLen : Nat) (outBuf : List Byte) (outMaxLen : Nat)
    (n : Nat) (w : WaitEnd) (errno : Int) (rs : List Pr.Round) (more : Nat → (Nat → LogEnv) × Select) (f : Pr.Flow) (L' : Out2) :
    let s : Pr.Loop :=
      { σ := σ, inPt := 0, inLen := inLen, outPt := 0, outLen := 0, outMaxLen := outMaxLen, outBuf := outBuf, sent := [], written := [], taken := 0, events := [] }
    readwrite d L σ inp out inBuf inLen outBuf outMaxLen true n w errno rs more = .ok (f, L') ↔
      Pr.readwrite σ inp out inBuf inLen outBuf outMaxLen true n w rs = .ok f ∧
      (∃ evs, Spec.run Log.step L.out.log (if Flags.dbgTest d Lib.MAA_PR = 0 then [] else
          (roundsMessages inp out inBuf n w errno more 0 s rs).map fun t => .message none 6 t.1 t.2) = .ok (L'.out.log, evs) ∧
        L'.out.events = L.out.events ++ evs.flatten) ∧
      L'.stdout = L.stdout ++ (if Flags.dbgTest d Lib.MAA_PR = 0 then [] else roundsPrinted inp out inBuf n w more 0 s rs) := by
  intro s
  have h := rounds_eq d inp out inBuf n w errno more rs 0 L s (f, L')
  simp only [logAll_run] at h
  exact h

/-- C92: what `pr_readwrite` prints in a round. -/
theorem C92_select_text (s : Pr.Loop) (a : Select) :
    selectText s a = Spec.roundText a.retval s.inLen s.outLen s.outMaxLen a.outRead a.inWrite a.inError a.outError := rfl

example : Spec.roundText 2 0 7 10 true false false true =
    Spec.Report.ascii "select(2) returns 2, inLen = 0, outLen = 7, outMaxLen = 10\n  out/read\n  out/error\n" := by decide +kernel

/-! ### How calls end -/

/-- The same way of ending and the same result; the log is left in a state in `K`. -/
def Q {α : Type} (K : Out → Prop) (x : Res (α × Out)) (y : Res α) : Prop := Spec.ResRel (fun a b => a.1 = b ∧ K a.2) x y

/-- A message leaves the log in a state in `K`, or its text is not found. -/
def Says (K : Out → Prop) (d : Flags.State) (flag : BitVec 64) : Prop :=
  ∀ (text : Res (List Byte)) (env : LogEnv) (L : Out), K L →
    (∃ L', say d flag text env L = .ok L' ∧ K L') ∨ ((∀ t, text ≠ .ok t) ∧ say d flag text env L = text.bind fun _ => .ub)

variable {K : Out → Prop} {d : Flags.State} {α β γ : Type}

theorem Q.ret {L : Out} (h : K L) (a : α) : Q K (.ok (a, L)) (.ok a) := ⟨rfl, h⟩

theorem Q.abort : Q (α := α) K .abort .abort := trivial
theorem Q.fatal : Q (α := α) K .fatal .fatal := trivial
theorem Q.ub : Q (α := α) K .ub .ub := trivial

theorem Q.same (x : Res β) {f : β → Res (α × Out)} {g : β → Res α} (h : ∀ b, x = .ok b → Q K (f b) (g b)) : Q K (x.bind f) (x.bind g) := by
  cases x with
  | ok b => exact h b rfl
  | _ => trivial

theorem Q.bind {x : Res (β × Out)} {y : Res β} (hx : Q K x y) {f : β × Out → Res (α × Out)} {g : β → Res α}
    (h : ∀ b L, K L → Q K (f (b, L)) (g b)) : Q K (x.bind f) (y.bind g) := by
  unfold Q at hx
  cases x <;> cases y <;> simp only [Spec.ResRel] at hx
  · rename_i a b
    obtain ⟨a, L⟩ := a
    obtain ⟨rfl, hk⟩ := hx
    exact h a L hk
  all_goals trivial

theorem Q.say {flag : BitVec 64} (hs : Says K d flag) {L : Out} (hk : K L) (t : List Byte) (env : LogEnv) {f : Out → Res (α × Out)} {y : Res α}
    (h : ∀ L', K L' → Q K (f L') y) : Q K ((say d flag (.ok t) env L).bind f) y := by
  rcases hs (.ok t) env L hk with ⟨L', h1, h2⟩ | ⟨h1, -⟩
  · rw [h1]; exact h L' h2
  · exact absurd rfl (h1 t)

theorem srcLine_q (hs : Says K d Lib.MAA_SRC) {L : Out} (hk : K L) (env : LogEnv) (σ : Source.State) (buf : List Byte) (len : Nat) :
    Q K (srcLine d L env σ buf len) (Source.srcLine σ buf len) := by
  unfold srcLine Source.srcLine
  refine Q.same _ fun σ' _ => ?_
  refine Q.same _ fun s _ => ?_
  refine Q.same _ fun s _ => ?_
  refine Q.same _ fun a ha => ?_
  have hlt : σ'.used < a.length := by
    unfold Source.setLine at ha
    split at ha
    · rename_i h; simp only [Res.ok.injEq] at ha; rw [← ha]; simpa using h
    · cases ha
  have hg : Source.getLine (Source.regrow a (σ'.used + 1) σ'.count).1 (σ'.used + 1 - 1) = Source.getLine a σ'.used := by
    rw [Nat.add_sub_cancel]; exact regrow_get a _ _ _ hlt
  simp only [hg]
  cases ht : Source.getLine a σ'.used with
  | ok t =>
    rw [okBind]
    exact Q.say hs hk _ env fun L' hk' => Q.ret hk' _
  | _ =>
    rcases hs ((Source.getLine a σ'.used).bind fun t => .ok (ascii "Line " ++ decimal σ'.used ++ ascii ": " ++ t)) env L hk with ⟨L', h1, h2⟩ | ⟨-, h1⟩
    · rw [ht] at h1; rw [h1]; trivial
    · rw [ht] at h1; rw [h1]; trivial

theorem printErrorLine_q (hs : Says K d Lib.MAA_SRC) {L : Out} (hk : K L) (env : LogEnv) (σ : Source.State) (s : Option Source.Info) :
    Q K (printErrorLine d L env σ s 0) (Source.printErrorLine σ s 0) := by
  unfold printErrorLine Source.printErrorLine
  refine Q.same _ fun a _ => ?_
  cases s with
  | none => exact Q.same _ fun p _ => Q.ret hk _
  | some i => exact Q.say hs hk _ env fun L' hk' => Q.same _ fun p _ => Q.ret hk' _

theorem srcPrintError_q (hs : Says K d Lib.MAA_SRC) {L : Out} (hk : K L) (env : LogEnv) (σ : Source.State) (stream : Bool) (h : Nat) (m : Option (List Byte)) :
    Q K (srcPrintError d L env σ stream h m) (Source.srcPrintError σ stream h m) := by
  unfold srcPrintError Source.srcPrintError
  refine Q.same _ fun a _ => ?_
  cases stream with
  | false => exact Q.abort
  | true => exact Q.same _ fun s _ => (printErrorLine_q hs hk env σ s).bind fun b L' hk' => Q.ret hk' _

theorem srcParseError_q (hs : Says K d Lib.MAA_SRC) {L : Out} (hk : K L) (env : LogEnv) (σ : Source.State) (π : Prs.State) (h : Nat) (m : Option (List Byte)) :
    Q K (srcParseError d L env σ π h m) (Source.srcParseError σ π h m) := by
  unfold srcParseError Source.srcParseError
  refine Q.same _ fun s _ => Q.same _ fun p _ => Q.same _ fun y _ => ?_
  exact (printErrorLine_q hs hk env σ s).bind fun b L' hk' => Q.ret hk' _

theorem srcCppLine_q (hs : Says K d Lib.MAA_SRC) {L : Out} (hk : K L) (env : LogEnv) (h : Mem) (σ : Source.State) (line : List Byte) (length : Nat) :
    Q K (srcCppLine d L env h σ line length) (Source.srcCppLine h σ line length) := by
  unfold srcCppLine Source.srcCppLine
  refine Q.same _ fun tmp _ => Q.same _ fun args _ => Q.same _ fun a1 h1 => Q.same _ fun s1 h2 => Q.same _ fun n _ => ?_
  simp only [h1, h2, okBind]
  by_cases hc : Arg.count args.2 = 2
  · simp only [if_pos hc]
    exact Q.say hs hk _ env fun L' hk' => Q.same _ fun p _ => Q.ret hk' _
  · simp only [if_neg hc]
    cases h3 : Arg.get args.2 2 with
    | ok a2 =>
      simp only [okBind]
      cases h4 : Source.stringAt args.1 a2 with
      | ok s2 =>
        simp only [okBind]
        exact Q.say hs hk _ env fun L' hk' => Q.same _ fun p _ => Q.ret hk' _
      | _ =>
        rcases hs ((Source.stringAt args.1 a2).bind fun f => .ok (ascii "lineno " ++ s1 ++ ascii " in " ++ f ++ ascii "\n")) env L hk with ⟨L', e1, e2⟩ | ⟨-, e1⟩
        · rw [h4] at e1; rw [e1]; trivial
        · rw [h4] at e1; rw [e1]; trivial
    | _ =>
      rcases hs ((Arg.get args.2 2).bind fun q => (Source.stringAt args.1 q).bind fun f => .ok (ascii "lineno " ++ s1 ++ ascii " in " ++ f ++ ascii "\n")) env L hk with ⟨L', e1, e2⟩ | ⟨-, e1⟩
      · rw [h3] at e1; rw [e1]; trivial
      · rw [h3] at e1; rw [e1]; trivial

theorem parent_q (hs : Says K d Lib.MAA_PR) {L : Out} (hk : K L) (env : LogEnv) (name : String)
    (σ : Pr.State) (flags create use : PrFlags) (drop keep : Int) (fd : Option Int) (pid : Nat) :
    Q K (parent d L env name σ flags create use drop keep fd pid) (Pr.parent σ flags create use drop keep fd pid) := by
  unfold parent Pr.parent
  split
  · cases fd with
    | none => exact Q.ub
    | some v => exact Q.same _ fun σ' _ => Q.say hs hk _ env fun L' hk' => Q.ret hk' _
  · split
    · cases fd with
      | none => exact Q.ret hk _
      | some v =>
        simp only []
        split
        · exact Q.say hs hk _ env fun L' hk' => Q.same _ fun σ' _ => Q.ret hk' _
        · exact Q.ret hk _
    · exact Q.ret hk _

theorem waitLoop_q (hs : Says K d Lib.MAA_PR) {L : Out} (hk : K L) (pid : Nat) (errno : Int) (env : LogEnv) (n : Nat)
    (w : WaitEnd) : Q K (waitLoop d pid errno env n w L) (.ok (Pr.prWait n w)) := by
  induction n with
  | zero =>
    cases w with
    | noChild => exact Q.ret hk _
    | _ => exact Q.say hs hk _ env fun L' hk' => Q.ret hk' _
  | succ n ih => exact ih

theorem prWait_q (hs : Says K d Lib.MAA_PR) {L : Out} (hk : K L) (pid : Nat) (errno : Int) (envs : Nat → LogEnv) (n : Nat)
    (w : WaitEnd) : Q K (prWait d L envs pid n w errno) (.ok (Pr.prWait n w)) :=
  Q.say hs hk _ _ fun _ hk' => waitLoop_q hs hk' pid errno _ n w

theorem prClose_q (hs : Says K d Lib.MAA_PR) {L : Out} (hk : K L) (errno : Int) (envs : Nat → LogEnv) (σ : Pr.State) (fd : Int) (n : Nat)
    (w : WaitEnd) : Q K (prClose d L envs σ fd n w errno) (Pr.prClose σ fd n w) := by
  unfold prClose Pr.prClose
  refine Q.same _ fun r _ => ?_
  exact Q.bind (g := fun ret : Int => Res.ok (r.1, ({ ret := ret, events := r.2.events ++ [.waited r.2.ret.toNat] } : PrOut))) (prWait_q hs hk _ errno envs n w) fun b L' hk' => Q.ret hk' _

/-- The message about a command does not fail. -/
def SaysCommand (K : Out → Prop) (d : Flags.State) (h : Mem) (command : List Byte) : Prop :=
  ∀ l, Arg.argify h command 0 = .ok l → ∀ env L, K L → ∃ L', say d Lib.MAA_PR (execSays l.1 (Arg.getVector l.2).2 command) env L = .ok L' ∧ K L'

theorem prSpawn_q (hs : Says K d Lib.MAA_PR) {L : Out} (hk : K L) (envs : Nat → LogEnv) (h : Mem) (σ : Pr.State) (command : List Byte)
    (hw : SaysCommand K d h command) (pid : Option Nat) (n : Nat) (programs : PrExec.Exec → Option Ended) :
    Q K (prSpawn d L envs h σ command pid n programs) (PrExec.spawnCommand h σ command pid n programs) := by
  unfold prSpawn PrExec.spawnCommand
  refine Q.same _ fun l hl => ?_
  obtain ⟨L', e, hk'⟩ := hw l hl (envs 0) L hk
  rw [e, okBind]
  cases pid with
  | none => exact Q.fatal
  | some p =>
    refine Q.say hs hk' _ _ fun L'' hk'' => Q.same _ fun x _ => Q.same _ fun h' _ => ?_
    exact Q.bind (g := fun ret : Int => Res.ok (h', Pr.prInit σ, ({ ret := ret, events := [.waited p] } : PrOut), x)) (prWait_q hs hk'' _ _ _ n _) fun b L' hk' => Q.ret hk' _

theorem prOpen_q (hs : Says K d Lib.MAA_PR) {L : Out} (hk : K L) (envs : Nat → LogEnv) (h : Mem) (σ : Pr.State) (command : List Byte)
    (hw : SaysCommand K d h command) (flags : PrFlags) (infd outfd errfd : Option Int) (env : PrEnv) :
    Q K (prOpen d L envs h σ command flags infd outfd errfd env) (PrExec.openCommand h σ command flags infd outfd errfd env) := by
  unfold prOpen PrExec.openCommand Pr.prOpen
  by_cases hb : Pr.badFlags flags
  · simp only [hb, if_true]; exact Q.abort
  simp only [hb, Bool.false_eq_true, if_false]
  refine Q.same _ fun l hl => ?_
  obtain ⟨L', e, hk'⟩ := hw l hl (envs 0) L hk
  rw [e, okBind]
  split
  · exact Q.fatal
  split
  · exact Q.fatal
  split
  · exact Q.fatal
  cases env.pid with
  | none => exact Q.fatal
  | some pid =>
    have assoc : ∀ {α β γ : Type} (x : Res α) (f : α → Res β) (g : β → Res γ), (x.bind f).bind g = x.bind fun a => (f a).bind g := by
      intro α β γ x f g; cases x <;> rfl
    simp only [assoc, okBind]
    exact (parent_q hs hk' _ _ _ _ _ _ _ _ _ _).bind fun a La hka =>
      (parent_q hs hka _ _ _ _ _ _ _ _ _ _).bind fun b Lb hkb =>
      (parent_q hs hkb _ _ _ _ _ _ _ _ _ _).bind fun c Lc hkc =>
      Q.say hs hkc _ _ fun L'' hk'' => Q.same _ fun x _ => Q.same _ fun h' _ => Q.ret hk'' _

/-- `Q` with what was printed. -/
def Q2 {α : Type} (K : Out → Prop) (x : Res (α × Out2)) (y : Res α) : Prop := Spec.ResRel (fun a b => a.1 = b ∧ K a.2.out) x y

theorem Q.print {x : Res (α × Out)} {y : Res α} (h : Q K x y) (p : List Byte) :
    Q2 K (x.bind fun f => .ok (f.1, { out := f.2, stdout := p })) y := by
  unfold Q at h
  unfold Q2
  cases x <;> cases y <;> simp only [Spec.ResRel] at h
  · exact h
  all_goals trivial

theorem bind_assoc (x : Res α) (f : α → Res β) (g : β → Res γ) : (x.bind f).bind g = x.bind fun a => (f a).bind g := by
  cases x <;> rfl

theorem writeHalf_q (hs : Says K d Lib.MAA_PR) {L : Out} (hk : K L) (env : LogEnv) (inp : Int) (inBuf : List Byte) (s : Pr.Loop) (r : Pr.Round) :
    Q K (writeHalf d L env inp inBuf s r) (Pr.writeHalf inp inBuf s r) := by
  unfold writeHalf Pr.writeHalf
  split
  · exact Q.ret hk _
  split
  · exact Q.fatal
  simp only []
  split
  · exact Q.ret hk _
  split
  · exact Q.ub
  refine Q.say hs hk _ _ fun L' hk' => ?_
  split
  · exact Q.same _ fun q _ => Q.ret hk' _
  · exact Q.ret hk' _

theorem readHalf_q (hs : Says K d Lib.MAA_PR) {L : Out} (hk : K L) (envs : Nat → LogEnv) (out : Int) (n : Nat) (w : WaitEnd) (errno : Int) (s : Pr.Loop)
    (r : Pr.Round) : Q K (readHalf d L envs out n w errno s r) (Pr.readHalf out n w s r) := by
  unfold readHalf Pr.readHalf
  cases Pr.sysRead s.outMaxLen (s.written.length - s.taken) r with
  | error => exact Q.fatal
  | again => exact Q.ret hk _
  | count c =>
    cases c with
    | zero =>
      simp only []
      split
      · exact Q.fatal
      · exact (prClose_q hs hk errno envs s.σ out n w).bind fun q L' hk' => Q.ret hk' _
    | succ c =>
      simp only []
      split
      · exact Q.ub
      refine Q.say hs hk _ _ fun L' hk' => ?_
      split
      · exact Q.fatal
      · exact Q.ret hk' _

theorem rounds_q (hs : Says K d Lib.MAA_PR) (inp out : Int) (inBuf : List Byte) (n : Nat) (w : WaitEnd) (errno : Int) (more : Nat → (Nat → LogEnv) × Select) :
    ∀ (rs : List Pr.Round) (i : Nat) (L : Out2) (_ : K L.out) (s : Pr.Loop),
    Q2 K (rounds d inp out inBuf n w errno more i L s rs) (Pr.rounds inp out inBuf n w s rs) := by
  intro rs
  induction rs with
  | nil => intro i L hk s; exact ⟨rfl, hk⟩
  | cons r rs ih =>
    intro i L hk s
    simp only [rounds, Pr.rounds]
    have hround : Q2 K (round d L (more i).1 (more i).2 inp out inBuf n w errno s r) (Pr.round inp out inBuf n w s r) := by
      unfold round Pr.round
      split
      · trivial
      split
      · trivial
      have hq := (writeHalf_q hs hk ((more i).1 0) inp inBuf { s with written := s.written ++ r.written } r).bind
        (f := fun q => readHalf d q.2 (fun j => (more i).1 (1 + j)) out n w errno q.1 r) (g := fun s => Pr.readHalf out n w s r)
        fun s1 L1 hk1 => readHalf_q hs hk1 (fun j => (more i).1 (1 + j)) out n w errno s1 r
      have := hq.print (L.stdout ++ (if Flags.dbgTest d Lib.MAA_PR = 0 then [] else selectText { s with written := s.written ++ r.written } (more i).2))
      rw [bind_assoc] at this
      exact this
    unfold Q2 at hround
    cases hx : round d L (more i).1 (more i).2 inp out inBuf n w errno s r <;> rw [hx] at hround <;>
      cases hy : Pr.round inp out inBuf n w s r <;> rw [hy] at hround <;> simp only [Spec.ResRel] at hround
    · rename_i a b
      obtain ⟨a1, a2⟩ := a
      obtain ⟨rfl, hk'⟩ := hround
      simp only [okBind]
      cases a1 with
      | running s' => exact ih (i + 1) a2 hk' s'
      | returned k s' => exact ⟨rfl, hk'⟩
    all_goals trivial

/-- The command of a call, if it runs one. -/
def commandOf : Op → Option (List Byte)
  | .prOpen command .. => some command
  | .prSpawn command .. => some command
  | _ => none

theorem step_q (q : Quiet) (L : Out) (hk : K L) (o : Op) (ho : ∀ l, o ≠ .log l) (hs : Says K q.dbg Lib.MAA_SRC) (hp : Says K q.dbg Lib.MAA_PR)
    (hw : ∀ c, commandOf o = some c → SaysCommand K q.dbg q.mem (CStr.ofStr c)) :
    Spec.ResRel (fun x r => x.1.1 = r.1 ∧ x.2 = r.2 ∧ K x.1.2) (step (q, L) o) (quietStep q o) := by
  have fin : ∀ {α : Type} {x : Res (α × Out)} {y : Res α} (hq : Q K x y) (f : α → Quiet × Val),
      Spec.ResRel (fun x r => x.1.1 = r.1 ∧ x.2 = r.2 ∧ K x.1.2) (x.bind fun r => .ok (((f r.1).1, r.2), (f r.1).2)) (y.bind fun r => .ok (f r)) := by
    intro α x y hq f
    unfold Q at hq
    cases x <;> cases y <;> simp only [Spec.ResRel] at hq
    · obtain ⟨h1, h2⟩ := hq
      exact ⟨by rw [h1], by rw [h1], h2⟩
    all_goals trivial
  have plain : ∀ (y : Res (Quiet × Val)), Spec.ResRel (fun x r => x.1.1 = r.1 ∧ x.2 = r.2 ∧ K x.1.2) (y.bind fun r => Res.ok ((r.1, L), r.2)) y := by
    intro y
    cases y with
    | ok r => exact ⟨rfl, rfl, hk⟩
    | _ => trivial
  cases o with
  | dbg o => exact plain (quietStep q _)
  | prs o => exact plain (quietStep q _)
  | prCloseNowait fd => exact plain (quietStep q _)
  | prShutdown => exact ⟨rfl, rfl, hk⟩
  | log o => exact absurd rfl (ho o)
  | src o env =>
    cases o with
    | line buf len =>
      have := fin (srcLine_q hs hk env q.src buf len) fun r => ({ q with src := r.1 }, .src (.str (some r.2)))
      simp only [step, quietStep, Source.step]
      cases h : Source.srcLine q.src buf len <;> rw [h] at this <;> exact this
    | printError stream h m =>
      have := fin (srcPrintError_q hs hk env q.src stream h m) fun r => (q, .src (.text r))
      simp only [step, quietStep, Source.step]
      cases h : Source.srcPrintError q.src stream h m <;> rw [h] at this <;> exact this
    | _ => first | exact plain (quietStep q _) | exact ⟨rfl, rfl, hk⟩
  | parseError h m env => exact fin (srcParseError_q hs hk env q.src q.prs h m) fun r => ({ q with prs := r.1 }, .text r.2)
  | cpp line length env => exact fin (srcCppLine_q hs hk env q.mem q.src line length) fun r => ({ q with mem := r.1, src := r.2 }, .unit)
  | prOpen command f i o e env envs =>
    exact fin (prOpen_q hp hk envs q.mem q.pr _ (hw _ rfl) f i o e env) fun r => ({ q with mem := r.1, pr := r.2.1 }, .pr r.2.2.1 (some r.2.2.2))
  | prSpawn command pid n programs envs =>
    exact fin (prSpawn_q hp hk envs q.mem q.pr _ (hw _ rfl) pid n programs) fun r => ({ q with mem := r.1, pr := r.2.1 }, .pr r.2.2.1 (some r.2.2.2))
  | prClose fd n w errno envs =>
    exact fin (prClose_q hp hk errno envs q.pr fd n w) fun r => ({ q with pr := r.1 }, .pr r.2 none)

theorem say_off {d : Flags.State} {flag : BitVec 64} {L : Out} (h : Flags.dbgTest d flag = 0 ∨ L.log.logOpen = 0) (text : Res (List Byte)) (env : LogEnv) :
    say d flag text env L = .ok L := by
  unfold say
  by_cases h1 : Flags.dbgTest d flag = 0
  · rw [if_pos h1]
  · rw [if_neg h1, if_pos (h.resolve_left h1)]

/-- C92: if the flags are off, or no log is open, every call is what it is without messages, however it ends, and the log stays as it is. -/
theorem C92_off (q : Quiet) (L : Out) (o : Op) (ho : ∀ l, o ≠ .log l)
    (h : (Flags.dbgTest q.dbg Lib.MAA_SRC = 0 ∧ Flags.dbgTest q.dbg Lib.MAA_PR = 0) ∨ L.log.logOpen = 0) :
    step (q, L) o = (quietStep q o).bind fun r => .ok ((r.1, L), r.2) := by
  have hs : Flags.dbgTest q.dbg Lib.MAA_SRC = 0 ∨ L.log.logOpen = 0 := h.imp (·.1) id
  have hp : Flags.dbgTest q.dbg Lib.MAA_PR = 0 ∨ L.log.logOpen = 0 := h.imp (·.2) id
  have := step_q (K := (· = L)) q L rfl o ho (fun text env L' hk => Or.inl ⟨L', by rw [hk]; exact say_off hs text env, hk⟩)
    (fun text env L' hk => Or.inl ⟨L', by rw [hk]; exact say_off hp text env, hk⟩)
    (fun c _ l _ env L' hk => ⟨L', by rw [hk]; exact say_off hp _ env, hk⟩)
  cases h1 : step (q, L) o <;> cases h2 : quietStep q o <;> rw [h1, h2] at this <;> simp only [Spec.ResRel] at this
  · rename_i a b
    obtain ⟨⟨a1, a2⟩, a3⟩ := a
    obtain ⟨h3, h4, h5⟩ := this
    simp only at h3 h4 h5
    subst h3; subst h4; subst h5
    rfl
  all_goals rfl

/-- A log that does not write to a file writes a message whatever it is, and stays as it is. -/
theorem base_no_file (σ : Log.State) (hf : σ.logFd < 0) (hi : σ.logUserStream ≠ none → σ.inhibitFull = 0 → σ.logIdent ≠ none) (routine : Option (List Byte))
    (level : Int) (text : List Byte) (env : LogEnv) : ∃ evs, Log.base σ routine level text env = .ok (σ, evs) := by
  have hf' : ¬ σ.logFd ≥ 0 := by omega
  unfold Log.base
  by_cases h0 : σ.logOpen = 0
  · rw [if_pos h0]; exact ⟨_, rfl⟩
  rw [if_neg h0]
  cases hu : σ.logUserStream with
  | none =>
    simp only [hf', Option.isSome_none, Bool.false_eq_true, or_self, if_false, okBind]
    split <;> exact ⟨_, rfl⟩
  | some s =>
    have hpre : ∃ p, Log.preamble σ env = .ok p := by
      unfold Log.preamble
      by_cases hi0 : σ.inhibitFull = 0
      · simp only [hi0, ne_eq, not_true_eq_false, if_false]
        cases hid : σ.logIdent with
        | none => exact absurd hid (hi (by rw [hu]; simp) hi0)
        | some i => exact ⟨_, rfl⟩
      · simp only [hi0, ne_eq, not_false_eq_true, if_true]; exact ⟨_, rfl⟩
    obtain ⟨p, hp⟩ := hpre
    simp only [hf', Option.isSome_some, or_true, if_true, if_false, okBind, hp]
    split <;> simp only [okBind] <;> split <;> exact ⟨_, rfl⟩

theorem says_no_file {l : Log.State} (hf : l.logFd < 0) (hi : l.logUserStream ≠ none → l.inhibitFull = 0 → l.logIdent ≠ none) (d : Flags.State)
    (flag : BitVec 64) : Says (fun L' => L'.log = l) d flag := by
  intro text env L' hk
  unfold say
  by_cases h1 : Flags.dbgTest d flag = 0
  · rw [if_pos h1]; exact Or.inl ⟨_, rfl, hk⟩
  rw [if_neg h1]
  by_cases h2 : L'.log.logOpen = 0
  · rw [if_pos h2]; exact Or.inl ⟨_, rfl, hk⟩
  rw [if_neg h2]
  cases text with
  | ok t =>
    obtain ⟨evs, e⟩ := base_no_file L'.log (by rw [hk]; exact hf) (by rw [hk]; exact hi) none 6 t env
    rw [okBind, e, okBind]
    exact Or.inl ⟨_, rfl, hk⟩
  | _ => exact Or.inr ⟨by simp, rfl⟩

/-- C92: the same for `pr_readwrite`: with a log that does not write to a file messages do not change how it ends. -/
theorem C92_readwrite_no_file (d : Flags.State) (L : Out2) (hf : L.out.log.logFd < 0)
    (hi : L.out.log.logUserStream ≠ none → L.out.log.inhibitFull = 0 → L.out.log.logIdent ≠ none) (σ : Pr.State) (inp out : Int) (inBuf : List Byte) (inLen : Nat)
    (outBuf : List Byte) (outMaxLen : Nat) (flagsOk : Bool) (n : Nat) (w : WaitEnd) (errno : Int) (rs : List Pr.Round) (more : Nat → (Nat → LogEnv) × Select) :
    Spec.ResRel (fun x f => x.1 = f ∧ x.2.out.log = L.out.log) (readwrite d L σ inp out inBuf inLen outBuf outMaxLen flagsOk n w errno rs more)
      (Pr.readwrite σ inp out inBuf inLen outBuf outMaxLen flagsOk n w rs) := by
  unfold readwrite Pr.readwrite
  cases flagsOk with
  | false => exact trivial
  | true =>
    exact rounds_q (K := fun L' => L'.log = L.out.log) (says_no_file hf hi d _) inp out inBuf n w errno more rs 0 L rfl _

/-- `command` has a first word, or what splits it fails. -/
def HasWord (h : Mem) (command : List Byte) : Prop :=
  ∀ l, Arg.argify h (CStr.ofStr command) 0 = .ok l → ∃ e, PrExec.execArgs l.1 (Arg.getVector l.2).2 = .ok e

/-- C92: if the log does not write to a file (and, as after `log_stream`, has an ident for its stream), messages never change how a call ends, be
it by returning or not, provided a command that is run has a word. -/
theorem C92_no_file (q : Quiet) (L : Out) (o : Op) (ho : ∀ l, o ≠ .log l) (hf : L.log.logFd < 0)
    (hi : L.log.logUserStream ≠ none → L.log.inhibitFull = 0 → L.log.logIdent ≠ none) (hw : ∀ c, commandOf o = some c → HasWord q.mem c) :
    Spec.ResRel (fun x r => x.1.1 = r.1 ∧ x.2 = r.2 ∧ x.1.2.log = L.log) (step (q, L) o) (quietStep q o) := by
  have hsay := says_no_file hf hi q.dbg
  refine step_q (K := fun L' => L'.log = L.log) q L rfl o ho (hsay _) (hsay _) fun c hc l hl env L' hk => ?_
  obtain ⟨e, he⟩ := hw c hc l hl
  rcases hsay Lib.MAA_PR (execSays l.1 (Arg.getVector l.2).2 (CStr.ofStr c)) env L' hk with h | ⟨h, -⟩
  · exact h
  · exact absurd (execSays_ok he c) (h _)

/-! ### Examples -/

/-- Program start. -/
def start : Quiet := { dbg := Flags.State.init, src := Source.State.init, prs := Prs.State.init, pr := Pr.State.init 16, mem := Heap.init }

/-- Program start; no log. -/
def silent : Out := { log := Log.State.init, events := [] }

/-- A system in which everything is called `x`. -/
def anEnv : LogEnv := { expand := id, fd := 5, host := [120], date := [120], pid := [49] }

/-- Turn the messages of the source manager and of the process functions on. -/
def turnOn : List Op :=
  [.dbg (.registerInternal Lib.MAA_SRC (some (ascii ".src"))), .dbg (.registerInternal Lib.MAA_PR (some (ascii ".pr"))),
   .dbg (.set (some (ascii ".src"))), .dbg (.set (some (ascii ".pr")))]

/-- A history with every kind of message: a line is stored, a token printed, a preprocessor line read, a command run and a command waited for. -/
def talk : List Op :=
  turnOn ++
  [.log (.stream (some [112]) (some Spec.stdout) anEnv), .src (.newFile [102]) anEnv, .src (.line ([97, 9, 98] ++ [0]) 3) anEnv, .src (.get 2) anEnv,
   .src (.printError true 1 (some [109])) anEnv, .cpp (ascii "# 12 g" ++ [0]) 6 anEnv, .prSpawn (ascii "ls a") (some 7) 1 (fun _ => some (.exited 3)) fun _ => anEnv]

example : ((Spec.run step (start, silent) talk).bind fun x => .ok x.1.2.events) = .ok
    [.printed 1 (ascii "Line 0: a b"), .printed 1 (ascii "s->offset = 0, fudge = 0, s->length = 2\n"), .printed 1 (ascii "lineno 12 in g\n"),
     .printed 1 (ascii "Execing ls with \"ls a\"\n"), .printed 1 (ascii "child pid = 7\n"), .printed 1 (ascii "waiting on pid 7\n"),
     .printed 1 (ascii "Child 7 exited with status 0x0003\n")] := by decide +kernel

/-- The children's pipes are reported, and the end of the child. -/
def piped : List Op :=
  turnOn ++
  [.log (.stream (some [112]) (some Spec.stderr) anEnv),
   .prOpen (ascii "cat") (Pr.CREATE_STDIN ||| Pr.CREATE_STDOUT) (some 0) (some 0) none { pipeIn := some (3, 4), pipeOut := some (5, 6), pipeErr := none, pid := some 9 } fun _ => anEnv,
   .prClose 4 0 (.ended (.exited 1)) 0 fun _ => anEnv]

example : ((Spec.run step (start, silent) piped).bind fun x => .ok x.1.2.events) = .ok
    [.printed 2 (ascii "Execing cat with \"cat\"\n"), .printed 2 (ascii "stdin = 4; "), .printed 2 (ascii "stdout = 5; "),
     .printed 2 (ascii "child pid = 9\n"), .printed 2 (ascii "waiting on pid 9\n"), .printed 2 (ascii "Child 9 exited with status 0x0001\n")] := by decide +kernel

/-- The flags as `turnOn` leaves them, and the log as `log_stream` to the standard error leaves it. -/
def flagsOn : Flags.State :=
  match Spec.run quietStep start turnOn with
  | .ok r => r.1.dbg
  | _ => Flags.State.init

/-- The log as `log_stream` to the standard error leaves it. -/
def logOn : Log.State :=
  match Log.logStream Log.State.init (some [112]) (some Spec.stderr) anEnv with
  | .ok r => r.1
  | _ => Log.State.init

/-- Two bytes are sent, three come back, the child ends. -/
example : ((readwrite flagsOn { out := { log := logOn, events := [] }, stdout := [] } { maxFd := 8, objects := some [0, 0, 0, 0, 9, 9, 0, 0] } 4 5 [97, 98] 2
      [0, 0, 0, 0] 4 true 0 (.ended (.exited 0)) 0
      [{ accept := 2, written := [65, 66, 67], closed := false, give := 2 }, { accept := 0, written := [], closed := true, give := 2 },
       { accept := 0, written := [], closed := true, give := 2 }]
      fun _ => (fun _ => anEnv, { retval := 1, outRead := true, inWrite := false, inError := false, outError := false })).bind fun x =>
        .ok (x.2.out.events, (stateOf x.1).outBuf, x.2.stdout.length)) = .ok
    ([.printed 2 (ascii "  wrote 2\n"), .printed 2 (ascii "  read 2\n"), .printed 2 (ascii "  read 1\n"), .printed 2 (ascii "waiting on pid 9\n"),
      .printed 2 (ascii "Child 9 exited with status 0x0000\n")], [65, 66, 67, 0], 207) := by decide +kernel

/-- A log file whose name changes and that cannot be opened again. -/
def rotates (n : Nat) : LogEnv := { expand := fun _ => if n = 0 then [97] else [98], fd := if n = 0 then 3 else -1, host := [120], date := [120], pid := [49] }

/-- A log file is opened; a line is stored when its name has changed and it cannot be opened. -/
def rotation : List Op := turnOn ++ [.log (.file (some [112]) (some [37]) (rotates 0)), .src (.line [0] 0) (rotates 1)]

theorem fatal_of {α : Type} {x : Res α} (h : (match x with | .fatal => true | _ => false) = true) : x = .fatal := by
  cases x <;> simp_all

/-- C92: messages can end a program: the line is stored without them, and with them the program ends. -/
theorem C92_rotation_ends_program :
    Spec.run step (start, silent) rotation = .fatal ∧ (Spec.observe (Spec.run quietStep start rotation)).bind (fun vs => .ok vs.length) = .ok 6 :=
  ⟨fatal_of (by decide +kernel), by decide +kernel⟩

theorem ub_of {α : Type} {x : Res α} (h : (match x with | .ub => true | _ => false) = true) : x = .ub := by
  cases x <;> simp_all

/-- C92: running a command without a word is reported with `%s` of NULL, before it is found that no child can be started. -/
theorem C92_no_word :
    Spec.run step (start, silent) (turnOn ++ [.log (.stream (some [112]) (some Spec.stdout) anEnv), .prSpawn [] none 0 (fun _ => none) fun _ => anEnv]) = .ub ∧
    Spec.run quietStep start (turnOn ++ [.log (.stream (some [112]) (some Spec.stdout) anEnv), .prSpawn [] none 0 (fun _ => none) fun _ => anEnv]) = .fatal :=
  ⟨ub_of (by decide +kernel), fatal_of (by decide +kernel)⟩

/-- The hypotheses of `C92_off` and of `C92_no_file` are met: at program start no log is open; and a log that writes to a stream only. -/
example : (start.dbg, silent.log.logOpen) = (Flags.State.init, 0) := rfl

example : ((Log.logStream Log.State.init (some [112]) (some 1) anEnv).bind fun r =>
    .ok (r.1.logFd, r.1.logOpen, r.1.logUserStream, r.1.logIdent)) = .ok (-1, 1, some 1, some [112]) := by decide +kernel

example : HasWord Heap.init (ascii "ls a") := by
  intro l hl
  have : ((Arg.argify Heap.init (CStr.ofStr (ascii "ls a")) 0).bind fun l => (PrExec.execArgs l.1 (Arg.getVector l.2).2).bind fun e => .ok e) =
    .ok { file := ascii "ls", argv := [ascii "ls", ascii "a"] } := by decide +kernel
  rw [hl, okBind, Res.bind_ok_iff] at this
  obtain ⟨e, he, -⟩ := this
  exact ⟨e, he⟩

end Maa.DebugOut
