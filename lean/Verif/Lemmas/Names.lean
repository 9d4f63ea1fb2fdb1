import Verif.Model.Names
import Verif.Lemmas.StrPool
import Verif.Props.Log
import Verif.Props.Source
import Verif.Props.StrPool

namespace Maa.Names

open Spec (NameOp NameOut LogEvent LogEnv SrcVal ResRel Sinks Src)
open StrPool (Global GInv)
open Log (okBind)

/-- interned strings: content and address -/
abbrev Interned := List (List Byte × Nat)

theorem nameAt_ok {g : Global} {M : Interned} (h : GInv g M) {t : List Byte} {p : Nat} (hx : (t, p) ∈ M) : nameAt g p = .ok t := by
  unfold GInv at h
  cases hp : g.pool with
  | none =>
    rw [hp] at h
    rw [h.2.2.2] at hx
    simp at hx
  | some q =>
    rw [hp] at h
    obtain ⟨h0, hh0, v, -, -, -, i⟩ := h
    obtain ⟨rest, h1, h2⟩ := i.stringAt hx
    have h1 : g.mem.mem p = some (t ++ 0 :: rest, 0) := h1
    unfold nameAt
    rw [h1]
    exact CStr.cstr_append t h2 rest

/-- what a call may do to the pool: intern more strings -/
structure Grows (g : Global) (M : Interned) (g' : Global) (M' : Interned) : Prop where
  inv : GInv g' M'
  sub : ∀ x ∈ M, x ∈ M'
  pool : g.pool.isSome → g'.pool.isSome
  later : StrPool.Later g g'

theorem Grows.refl {g : Global} {M : Interned} (h : GInv g M) : Grows g M g M := ⟨h, fun _ h => h, id, .refl g⟩

theorem Later.trans {g g' g'' : Global} (h : StrPool.Later g g') (h' : StrPool.Later g' g'') : StrPool.Later g g'' := by
  induction h' with
  | refl => exact h
  | call _ ho hs ih => exact .call ih ho hs

theorem Grows.trans {g g' g'' : Global} {M M' M'' : Interned} (h : Grows g M g' M') (h' : Grows g' M' g'' M'') : Grows g M g'' M'' :=
  ⟨h'.inv, fun x hx => h'.sub x (h.sub x hx), fun hp => h'.pool (h.pool hp), Later.trans h.later h'.later⟩

theorem strFind_ok {g : Global} {M : Interned} (h : GInv g M) {t : List Byte} (ht : (0 : Byte) ∉ t) :
    ∃ g' d M', StrPool.strFind g (CStr.ofStr t) = .ok (g', d) ∧ Grows g M g' M' ∧ (t, d) ∈ M' := by
  obtain ⟨g1, e1, i1, s1, -, -⟩ := h.checkGlobal
  obtain ⟨g2, d, M', e2, i2, s2, h1, h2, -⟩ := i1.find s1 (CStr.cstr_ofStr t ht)
  have e3 : StrPool.strFind g (CStr.ofStr t) = .ok (g2, d) := by simp only [StrPool.strFind, e1, okBind, e2]
  refine ⟨g2, d, M', e3, ⟨i2, h2, fun _ => s2, .call (o := .find (CStr.ofStr t)) (r := .ptr d) (.refl g) ?_ ?_⟩, h1⟩
  · simp [Spec.GlobalOp.Permitted, CStr.ofStr]
  · simp only [StrPool.gstep, e3, okBind]

theorem ResRel.comp {α β γ : Type} {R : α → β → Prop} {Q : β → γ → Prop} {x : Res α} {y : Res β} {z : Res γ}
    (h : ResRel R x y) (h' : ResRel Q y z) : ResRel (fun a c => ∃ b, R a b ∧ Q b c) x z := by
  cases x <;> cases y <;> simp only [ResRel] at h <;> cases z <;> simp only [ResRel] at h' ⊢
  exact ⟨_, h, h'⟩

theorem ResRel.mono {α β : Type} {R Q : α → β → Prop} {x : Res α} {y : Res β} (h : ResRel R x y) (hi : ∀ a b, R a b → Q a b) :
    ResRel Q x y := by
  cases x <;> cases y <;> simp only [ResRel] at h ⊢
  exact hi _ _ h

theorem ResRel.refl {α : Type} {R : α → α → Prop} {x : Res α} (h : ∀ a, x = .ok a → R a a) : ResRel R x x := by
  cases x <;> simp only [ResRel]
  exact h _ rfl

/-! ## log.c -/

/-- the variables with the names as contents -/
def LogVars.as (s : LogVars) (a b : Option (List Byte)) : Log.State := { s.vars with logIdent := a, logFilenameOrig := b }

/-- the pointers lead to the names -/
structure LRel (M : Interned) (s : LogVars) (σ : Log.State) : Prop where
  vars : σ = s.as σ.logIdent σ.logFilenameOrig
  ident : ∀ t, σ.logIdent = some t → (t, s.logIdent) ∈ M
  orig : ∀ t, σ.logFilenameOrig = some t → (t, s.logFilenameOrig) ∈ M

theorem LRel.mono {M M' : Interned} {s : LogVars} {σ : Log.State} (h : LRel M s σ) (hs : ∀ x ∈ M, x ∈ M') : LRel M' s σ :=
  ⟨h.vars, fun t e => hs _ (h.ident t e), fun t e => hs _ (h.orig t e)⟩

theorem check_rel {g : Global} {s : LogVars} {a : Option (List Byte)} {t : List Byte} (h : nameAt g s.logFilenameOrig = .ok t) (env : LogEnv) :
    ResRel (fun (c : LogVars × List LogEvent) (d : Log.State × List LogEvent) => c.2 = d.2 ∧ d.1 = c.1.as a (some t) ∧ c.1.logIdent = s.logIdent ∧
      c.1.logFilenameOrig = s.logFilenameOrig) (checkFilename g s env) (Log.checkFilename (s.as a (some t)) env) := by
  unfold checkFilename
  cases h1 : s.vars.logFilename with
  | none =>
    have : Log.checkFilename (s.as a (some t)) env = .ok (s.as a (some t), []) := by simp only [Log.checkFilename, LogVars.as, h1]
    rw [this]
    exact ⟨rfl, rfl, rfl, rfl⟩
  | some fn =>
    cases h2 : s.vars.logFilenameTmp with
    | none =>
      have : Log.checkFilename (s.as a (some t)) env = .ok (s.as a (some t), []) := by simp only [Log.checkFilename, LogVars.as, h1, h2]
      rw [this]
      exact ⟨rfl, rfl, rfl, rfl⟩
    | some tmp =>
      simp only
      by_cases h3 : s.vars.logFilenameLen = 0
      · have : Log.checkFilename (s.as a (some t)) env = .ok (s.as a (some t), []) := by
          simp only [Log.checkFilename, LogVars.as, h1, h2, h3, if_true]
        rw [this, if_pos h3]
        exact ⟨rfl, rfl, rfl, rfl⟩
      · rw [if_neg h3, h, okBind]
        simp only [Log.checkFilename, LogVars.as, h1, h2, if_neg h3]
        by_cases h4 : s.vars.logFilenameLen < (env.expand t).length + 1
        · rw [if_pos h4, if_pos h4]; exact trivial
        rw [if_neg h4, if_neg h4]
        by_cases h5 : env.expand t ≠ fn
        · rw [if_pos h5, if_pos h5]
          by_cases h6 : env.fd < 0
          · rw [if_pos h6, if_pos h6]; exact trivial
          · rw [if_neg h6, if_neg h6, okBind]
            exact ⟨rfl, rfl, rfl, rfl⟩
        · rw [if_neg h5, if_neg h5, okBind]
          exact ⟨rfl, rfl, rfl, rfl⟩

theorem hostname_as (s : LogVars) (a b : Option (List Byte)) (env : LogEnv) :
    Log.setHostname (s.as a b) env = { s with vars := Log.setHostname s.vars env : LogVars }.as a b := by
  unfold Log.setHostname LogVars.as
  by_cases h : s.vars.hostnameSet = 0
  · simp only [h, if_true]
  · simp only [h, if_false]

/-- after the call: related log, related pool, the same events -/
abbrev LOut (g : Global) (M : Interned) (c : (Global × LogVars) × List LogEvent) (d : Log.State × List LogEvent) : Prop :=
  c.2 = d.2 ∧ ∃ M', Grows g M c.1.1 M' ∧ LRel M' c.1.2 d.1

/-- the functions that do not touch the names -/
theorem same_rel {g : Global} {M : Interned} {s : LogVars} {σ : Log.State} (hg : GInv g M) (h : LRel M s σ) {x y : Res (Log.State × List LogEvent)}
    (hxy : y = x.bind fun r => .ok ({ s with vars := r.1 : LogVars }.as σ.logIdent σ.logFilenameOrig, r.2)) :
    ResRel (LOut g M) (x.bind fun r => .ok ((g, { s with vars := r.1 }), r.2)) y := by
  rw [hxy]
  cases x <;> simp only [Res.bind, ResRel]
  exact ⟨rfl, M, Grows.refl hg, rfl, h.ident, h.orig⟩

theorem closeFile_as (s : LogVars) (a b : Option (List Byte)) (env : LogEnv) : Log.logFile (s.as a b) none none env =
    (Log.logFile s.vars none none env).bind fun r => .ok ({ s with vars := r.1 : LogVars }.as a b, r.2) := by
  simp only [Log.logFile]
  by_cases h : s.vars.logFd < 0
  · have h' : (s.as a b).logFd < 0 := h
    rw [if_pos h, if_pos h']; rfl
  · have h' : ¬ (s.as a b).logFd < 0 := h
    rw [if_neg h, if_neg h']; rfl

theorem closeStream_as (s : LogVars) (a b : Option (List Byte)) (env : LogEnv) : Log.logStream (s.as a b) none none env =
    (Log.logStream s.vars none none env).bind fun r => .ok ({ s with vars := r.1 : LogVars }.as a b, r.2) := by
  simp only [Log.logStream, LogVars.as]
  cases h : s.vars.logUserStream <;> simp only [Res.bind, h]

theorem syslog_as (s : LogVars) (a b : Option (List Byte)) (ident : Option (List Byte)) : Log.logSyslog (s.as a b) ident =
    (Log.logSyslog s.vars ident).bind fun r => .ok ({ s with vars := r.1 : LogVars }.as a b, r.2) := by
  simp only [Log.logSyslog]
  cases ident with
  | none =>
    by_cases h : s.vars.logSyslog = 0
    · have h' : (s.as a b).logSyslog = 0 := h
      simp only [if_pos h, if_pos h', Res.bind]
    · have h' : ¬ (s.as a b).logSyslog = 0 := h
      simp only [if_neg h, if_neg h', Res.bind]; rfl
  | some t =>
    by_cases h : s.vars.logSyslog ≠ 0
    · have h' : (s.as a b).logSyslog ≠ 0 := h
      simp only [if_pos h, if_pos h', Res.bind]
    · have h' : ¬ (s.as a b).logSyslog ≠ 0 := h
      simp only [if_neg h, if_neg h', Res.bind]; rfl

theorem facility_as (s : LogVars) (a b : Option (List Byte)) (name : List Byte) (l : List (List Byte × Int)) : Log.setLoop (s.as a b) name l =
    (Log.setLoop s.vars name l).bind fun r => .ok ({ s with vars := r : LogVars }.as a b) := by
  induction l with
  | nil => rfl
  | cons x l ih =>
    simp only [Log.setLoop]
    split
    · rfl
    · exact ih

theorem close_as (s : LogVars) (a b : Option (List Byte)) (env : LogEnv) : Log.logClose (s.as a b) env =
    (Log.logClose s.vars env).bind fun r => .ok ({ s with vars := r.1 : LogVars }.as a b, r.2) := by
  simp only [Log.logClose, closeFile_as]
  cases h1 : Log.logFile s.vars none none env <;> simp only [Res.bind]
  rename_i r1
  have := closeStream_as { s with vars := r1.1 } a b env
  simp only at this
  rw [this]
  cases h2 : Log.logStream r1.1 none none env <;> simp only [Res.bind]
  rename_i r2
  have := syslog_as { s with vars := r2.1 } a b none
  simp only at this
  rw [this]
  cases h3 : Log.logSyslog r2.1 none <;> simp only [Res.bind]

theorem preamble_rel {g : Global} {M : Interned} {s : LogVars} {σ : Log.State} (hg : GInv g M) (h : LRel M s σ) (env : LogEnv)
    (hid : ∃ t, σ.logIdent = some t) : preamble g s env = Log.preamble σ env := by
  obtain ⟨t, ht⟩ := hid
  have hi : σ.inhibitFull = s.vars.inhibitFull := by rw [h.vars]; rfl
  have hh : σ.logHostname = s.vars.logHostname := by rw [h.vars]; rfl
  unfold preamble Log.preamble
  rw [hi, ht, nameAt_ok hg (h.ident t ht), okBind]
  by_cases h0 : s.vars.inhibitFull ≠ 0
  · rw [if_pos h0, if_pos h0]
  · rw [if_neg h0, if_neg h0]
    simp only [if_neg h0, hh]

theorem log_rel {g : Global} {M : Interned} {s : LogVars} {σ : Log.State} {S : Sinks} (hg : GInv g M) (h : LRel M s σ) (hS : Log.Sim σ S)
    (o : Spec.LogOp) (ho : (NameOp.log o).Strings) : ResRel (LOut g M) (logStep g s o) (Log.step σ o) := by
  have hv := h.vars
  have e1 : σ.logFd = s.vars.logFd := by rw [hv]; rfl
  have e2 : σ.logUserStream = s.vars.logUserStream := by rw [hv]; rfl
  have e3 : σ.logOpen = s.vars.logOpen := by rw [hv]; rfl
  cases o with
  | file ident name env =>
    have hclose : ∀ id nm, (id = none ∨ nm = none) → ResRel (LOut g M) (logFile g s id nm env) (Log.logFile σ id nm env) := by
      intro id nm hor
      have a1 : logFile g s id nm env = (Log.logFile s.vars none none env).bind fun r => .ok ((g, { s with vars := r.1 }), r.2) := by
        rcases hor with rfl | rfl
        · rfl
        · cases id <;> rfl
      have a2 : Log.logFile σ id nm env = Log.logFile σ none none env := by
        rcases hor with rfl | rfl
        · rfl
        · cases id <;> rfl
      rw [a1, a2]
      refine same_rel hg h ?_
      rw [← closeFile_as, ← hv]
    cases ident with
    | none => exact hclose none name (Or.inl rfl)
    | some id =>
      cases name with
      | none => exact hclose (some id) none (Or.inr rfl)
      | some pat =>
        simp only [NameOp.Strings] at ho
        simp only [logStep, Log.step, logFile, Log.logFile]
        by_cases hf : s.vars.logFd ≥ 0
        · rw [if_pos hf, if_pos (by rw [e1]; exact hf)]; exact trivial
        rw [if_neg hf, if_neg (by rw [e1]; exact hf)]
        obtain ⟨g1, p1, M1, f1, i1, m1⟩ := strFind_ok hg ho.1
        obtain ⟨g2, p2, M2, f2, i2, m2⟩ := strFind_ok i1.inv ho.2
        rw [f1, okBind]
        simp only
        rw [f2, okBind]
        simp only
        have hn := nameAt_ok i2.inv m2
        have hc := check_rel (s := LogVars.mk { s.vars with logFilenameLen := pat.length * 3 + 1024, logFilename := some [], logFilenameTmp := some [] } p1 p2)
          (a := some id) hn env
        have hσ : (LogVars.mk { s.vars with logFilenameLen := pat.length * 3 + 1024, logFilename := some [], logFilenameTmp := some [] } p1 p2).as (some id) (some pat) =
            { σ with logIdent := some id, logFilenameOrig := some pat, logFilenameLen := pat.length * 3 + 1024, logFilename := some [], logFilenameTmp := some [] } := by
          rw [hv]; rfl
        rw [hσ] at hc
        refine Spec.ResRel.bind hc ?_
        rintro ⟨c, ev⟩ ⟨d, ev'⟩ ⟨k1, k2, k3, k4⟩
        simp only at k1 k2 k3 k4
        subst k1
        subst k2
        have hh := hostname_as c (some id) (some pat) env
        refine ⟨rfl, M2, i1.trans i2, ?_, ?_, ?_⟩
        · simp only [hh]; rfl
        · intro t e
          simp only [hh] at e
          obtain rfl : id = t := Option.some.inj e
          simp only [k3]
          exact i2.sub _ m1
        · intro t e
          simp only [hh] at e
          obtain rfl : pat = t := Option.some.inj e
          simp only [k4]
          exact m2
  | stream ident f env =>
    have hclose : ∀ id nm, (id = none ∨ nm = none) → ResRel (LOut g M) (logStream g s id nm env) (Log.logStream σ id nm env) := by
      intro id nm hor
      have a1 : logStream g s id nm env = (Log.logStream s.vars none none env).bind fun r => .ok ((g, { s with vars := r.1 }), r.2) := by
        rcases hor with rfl | rfl
        · rfl
        · cases id <;> rfl
      have a2 : Log.logStream σ id nm env = Log.logStream σ none none env := by
        rcases hor with rfl | rfl
        · rfl
        · cases id <;> rfl
      rw [a1, a2]
      refine same_rel hg h ?_
      rw [← closeStream_as, ← hv]
    cases ident with
    | none => exact hclose none f (Or.inl rfl)
    | some id =>
      cases f with
      | none => exact hclose (some id) none (Or.inr rfl)
      | some f =>
        simp only [NameOp.Strings] at ho
        simp only [logStep, Log.step, logStream, Log.logStream, e2]
        by_cases hf : s.vars.logUserStream.isSome = true
        · rw [if_pos hf, if_pos hf]; exact trivial
        rw [if_neg hf, if_neg hf]
        obtain ⟨g1, p1, M1, f1, i1, m1⟩ := strFind_ok hg ho
        rw [f1, okBind]
        simp only
        have hσ : (LogVars.mk { s.vars with logUserStream := some f } p1 s.logFilenameOrig).as (some id) σ.logFilenameOrig =
            { σ with logUserStream := some f, logIdent := some id } := by
          rw [hv]; rfl
        have hh := hostname_as (LogVars.mk { s.vars with logUserStream := some f } p1 s.logFilenameOrig) (some id) σ.logFilenameOrig env
        rw [hσ] at hh
        refine ⟨rfl, M1, i1, ?_, ?_, ?_⟩
        · simp only [hh]; rfl
        · intro t e
          simp only [hh] at e
          obtain rfl : id = t := Option.some.inj e
          exact m1
        · intro t e
          simp only [hh] at e
          exact i1.sub _ (h.orig t e)
  | syslog ident =>
    refine same_rel hg h ?_
    simp only [Log.step]
    rw [← syslog_as, ← hv]
  | close =>
    refine same_rel hg h ?_
    simp only [Log.step]
    rw [← close_as, ← hv]
  | option o =>
    refine same_rel (x := Log.step s.vars (.option o)) hg h ?_
    simp only [Log.step, okBind, Res.ok.injEq, Prod.mk.injEq, and_true]
    rw [hv]
    unfold Log.logOption LogVars.as
    split <;> rfl
  | facility name =>
    refine same_rel hg h ?_
    simp only [Log.step, Log.setFacility]
    conv => lhs; rw [hv]
    rw [facility_as]
    cases Log.setLoop s.vars name Log.facilitynames <;> rfl
  | message routine level text env =>
    simp only [logStep, Log.step, base, Log.base, e1, e2, e3]
    by_cases h0 : s.vars.logOpen = 0
    · rw [if_pos h0, if_pos h0]
      exact ⟨rfl, M, Grows.refl hg, h⟩
    rw [if_neg h0, if_neg h0]
    -- the part before syslog
    have key : ∀ (x : Res (LogVars × List LogEvent)) (y : Res (Log.State × List LogEvent)),
        ResRel (fun c d => c.2 = d.2 ∧ LRel M c.1 d.1) x y →
        ResRel (LOut g M) ((x.bind fun r => if r.1.vars.logSyslog ≠ 0 then .ok (r.1, r.2 ++ [LogEvent.syslog level text]) else .ok r).bind
            fun r => .ok ((g, r.1), r.2))
          (y.bind fun r => if r.1.logSyslog ≠ 0 then .ok (r.1, r.2 ++ [LogEvent.syslog level text]) else .ok r) := by
      intro x y hxy
      cases x <;> cases y <;> simp only [ResRel] at hxy <;> simp only [Res.bind]
      · rename_i c d
        have hsy : d.1.logSyslog = c.1.vars.logSyslog := by rw [hxy.2.vars]; rfl
        rw [hsy]
        by_cases hz : c.1.vars.logSyslog ≠ 0
        · simp only [if_pos hz]
          exact ⟨by rw [hxy.1], M, Grows.refl hg, hxy.2⟩
        · simp only [if_neg hz]
          exact ⟨hxy.1, M, Grows.refl hg, hxy.2⟩
      all_goals exact trivial
    refine key _ _ ?_
    by_cases hopen : s.vars.logFd ≥ 0 ∨ s.vars.logUserStream.isSome = true
    · rw [if_pos hopen, if_pos hopen]
      have hid : ∃ t, σ.logIdent = some t := by
        rcases hS.ident with hi | ⟨n1, n2⟩
        · exact ⟨_, hi⟩
        · exfalso
          rcases hopen with ho | ho
          · have := hS.file
            rw [n1, e1] at this
            simp only at this
            omega
          · rw [← e2, hS.stream, n2] at ho
            simp at ho
      rw [preamble_rel hg h env hid]
      cases hp : Log.preamble σ env <;> simp only [Res.bind]
      · rename_i pre
        have hfile : ResRel (fun (c : LogVars × List LogEvent) (d : Log.State × List LogEvent) => c.2 = d.2 ∧ LRel M c.1 d.1)
            (if s.vars.logFd ≥ 0 then (checkFilename g s env).bind fun r => .ok (r.1, r.2 ++ [LogEvent.wrote r.1.vars.logFd (Log.lineBuf pre routine (Log.snprintf 4096 text))]) else .ok (s, []))
            (if s.vars.logFd ≥ 0 then (Log.checkFilename σ env).bind fun r => .ok (r.1, r.2 ++ [LogEvent.wrote r.1.logFd (Log.lineBuf pre routine (Log.snprintf 4096 text))]) else .ok (σ, [])) := by
          by_cases hfd : s.vars.logFd ≥ 0
          · rw [if_pos hfd, if_pos hfd]
            obtain ⟨pat, hpat⟩ : ∃ t, σ.logFilenameOrig = some t := by
              have := hS.file
              cases hF : S.file with
              | none => rw [hF, e1] at this; simp only at this; omega
              | some f => obtain ⟨a, b, c⟩ := f; rw [hF] at this; exact ⟨_, this.2.2.2.2.1⟩
            have hc := check_rel (a := σ.logIdent) (nameAt_ok hg (h.orig pat hpat)) env
            rw [← hpat, ← hv] at hc
            refine Spec.ResRel.bind hc ?_
            rintro ⟨c, ev⟩ ⟨d, ev'⟩ ⟨k1, k2, k3, k4⟩
            simp only at k1 k2 k3 k4
            subst k1
            subst k2
            refine ⟨rfl, rfl, ?_, ?_⟩
            · intro t e
              simp only [k3]
              exact h.ident t e
            · intro t e
              simp only [k4]
              exact h.orig t e
          · rw [if_neg hfd, if_neg hfd]
            exact ⟨rfl, h⟩
        refine Spec.ResRel.bind hfile ?_
        rintro ⟨c, ev⟩ ⟨d, ev'⟩ ⟨k1, k2⟩
        simp only at k1 k2
        subst k1
        cases s.vars.logUserStream with
        | none => exact ⟨rfl, k2⟩
        | some f =>
          simp only
          by_cases hx : f = Spec.stdout ∨ f = Spec.stderr
          · rw [if_pos hx, if_pos hx]; exact ⟨rfl, k2⟩
          · rw [if_neg hx, if_neg hx]; exact ⟨rfl, k2⟩
      all_goals exact trivial
    · rw [if_neg hopen, if_neg hopen]
      exact ⟨rfl, h⟩

/-- a log call against its specification -/
theorem log_spec {g : Global} {M : Interned} {s : LogVars} {S : Sinks} (hg : GInv g M) (hs : ∃ σ, LRel M s σ ∧ Log.Sim σ S)
    (o : Spec.LogOp) (ho : (NameOp.log o).Strings) :
    ResRel (fun c d => c.2 = d.2 ∧ ∃ M', Grows g M c.1.1 M' ∧ ∃ σ, LRel M' c.1.2 σ ∧ Log.Sim σ d.1)
      (logStep g s o) (Spec.logStep Log.facilitynames S o) := by
  obtain ⟨σ, h, hS⟩ := hs
  refine ResRel.mono (ResRel.comp (log_rel hg h hS o ho) (Log.step_sim σ S o hS)) ?_
  rintro a c ⟨b, ⟨h1, M', h2, h4⟩, h5, h6⟩
  exact ⟨h1.trans h5, M', h2, b.1, h4, h6⟩

/-! ## source.c -/

/-- a file name and its pointer -/
def RFile (M : Interned) : Option Ptr → Option (List Byte) → Prop
  | none, none => True
  | some p, some t => (t, p) ∈ M
  | _, _ => False

/-- a token and its content -/
structure RInfo (M : Interned) (i : Source.InfoOf Ptr) (j : Source.Info) : Prop where
  file : RFile M i.file j.file
  line : i.line = j.line
  offset : i.offset = j.offset
  length : i.length = j.length
  index : i.index = j.index

/-- the same for tokens that may not exist -/
def ROpt (M : Interned) : Option (Source.InfoOf Ptr) → Option Source.Info → Prop
  | none, none => True
  | some i, some j => RInfo M i j
  | _, _ => False

/-- source managers that differ only in pointers for names -/
structure SRel (M : Interned) (σ : Source.StateOf Ptr) (τ : Source.State) : Prop where
  lines : σ.lines = τ.lines
  count : σ.count = τ.count
  used : σ.used = τ.used
  bytes : σ.bytes = τ.bytes
  total : σ.total = τ.total
  fresh : σ.fresh = τ.fresh
  info : RInfo M σ.info τ.info
  toks : ∀ p, ROpt M (σ.toks p) (τ.toks p)

theorem RFile.mono {M M' : Interned} (hs : ∀ x ∈ M, x ∈ M') {a : Option Ptr} {b : Option (List Byte)} (h : RFile M a b) : RFile M' a b := by
  cases a <;> cases b <;> simp only [RFile] at h ⊢
  exact hs _ h

theorem RInfo.mono {M M' : Interned} (hs : ∀ x ∈ M, x ∈ M') {i : Source.InfoOf Ptr} {j : Source.Info} (h : RInfo M i j) : RInfo M' i j :=
  ⟨h.file.mono hs, h.line, h.offset, h.length, h.index⟩

theorem ROpt.mono {M M' : Interned} (hs : ∀ x ∈ M, x ∈ M') {a : Option (Source.InfoOf Ptr)} {b : Option Source.Info} (h : ROpt M a b) : ROpt M' a b := by
  cases a <;> cases b <;> simp only [ROpt] at h ⊢
  exact h.mono hs

theorem SRel.mono {M M' : Interned} (hs : ∀ x ∈ M, x ∈ M') {σ : Source.StateOf Ptr} {τ : Source.State} (h : SRel M σ τ) : SRel M' σ τ :=
  ⟨h.lines, h.count, h.used, h.bytes, h.total, h.fresh, h.info.mono hs, fun p => (h.toks p).mono hs⟩

theorem SRel.init (M : Interned) : SRel M Source.StateOf.init Source.State.init :=
  ⟨rfl, rfl, rfl, rfl, rfl, rfl, ⟨trivial, rfl, rfl, rfl, rfl⟩, fun _ => trivial⟩

section
variable {g : Global} {M : Interned} {σ : Source.StateOf Ptr} {τ : Source.State}

theorem deref_rel (h : SRel M σ τ) (p : Nat) : ResRel (ROpt M) (Source.deref σ p) (Source.deref τ p) := by
  unfold Source.deref
  by_cases hp : p = 0
  · rw [if_pos hp, if_pos hp]; exact trivial
  · rw [if_neg hp, if_neg hp]
    have := h.toks p
    cases h1 : σ.toks p <;> cases h2 : τ.toks p <;> rw [h1, h2] at this <;> simp only [ROpt] at this ⊢
    · exact trivial
    · exact this

theorem access_rel (h : SRel M σ τ) (p : Nat) : ResRel (ROpt M) (Source.access σ p) (Source.access τ p) := by
  unfold Source.access
  rw [h.lines]
  cases τ.lines with
  | none => exact trivial
  | some a => exact deref_rel h p

theorem named_ok (hg : GInv g M) {i : Source.InfoOf Ptr} {j : Source.Info} (h : RInfo M i j) : named g i = .ok j := by
  unfold named
  have hf := h.file
  obtain ⟨f, l, o, n, x⟩ := j
  cases h1 : i.file <;> cases f <;> rw [h1] at hf <;> simp only [RFile] at hf
  · simp only [h.line, h.offset, h.length, h.index]
  · simp only [nameAt_ok hg hf, okBind, h.line, h.offset, h.length, h.index]

theorem namedArg_ok (hg : GInv g M) {a : Option (Source.InfoOf Ptr)} {b : Option Source.Info} (h : ROpt M a b) : namedArg g a = .ok b := by
  cases a <;> cases b <;> simp only [ROpt] at h
  · rfl
  · simp only [namedArg, named_ok hg h, okBind]

/-- dereferencing and reading the name is dereferencing -/
theorem arg_ok (hg : GInv g M) (h : SRel M σ τ) (p : Nat) {α : Type} (k : Option Source.Info → Res α) :
    ((Source.deref σ p).bind fun s => (namedArg g s).bind k) = (Source.deref τ p).bind k := by
  have := deref_rel h p
  cases h1 : Source.deref σ p <;> cases h2 : Source.deref τ p <;> rw [h1, h2] at this <;> simp only [ResRel] at this
  · simp only [Res.bind, namedArg_ok hg this]
  all_goals rfl

theorem arr_lines (h : SRel M σ τ) : Source.arr (linesOnly σ) = Source.arr τ := by
  unfold Source.arr linesOnly
  rw [h.lines]

theorem printLine_lines (h : SRel M σ τ) (s : Option Source.Info) : Source.printLine (linesOnly σ) s = Source.printLine τ s := by
  unfold Source.printLine
  rw [arr_lines h]

theorem printErrorLine_lines (h : SRel M σ τ) (s : Option Source.Info) (n : Int) :
    Source.printErrorLine (linesOnly σ) s n = Source.printErrorLine τ s n := by
  unfold Source.printErrorLine
  rw [printLine_lines h]

theorem message_ok (hg : GInv g M) (h : SRel M σ τ) (stream : Bool) (p : Nat) (m : Option (List Byte)) :
    message g σ stream p m = Source.message τ stream p m := by
  cases m with
  | none => rfl
  | some m =>
    cases stream with
    | false => rfl
    | true =>
      simp only [message, Source.message, if_true]
      exact arg_ok hg h p _

theorem printError_ok (hg : GInv g M) (h : SRel M σ τ) (stream : Bool) (p : Nat) (m : Option (List Byte)) :
    srcPrintError g σ stream p m = Source.srcPrintError τ stream p m := by
  unfold srcPrintError Source.srcPrintError
  rw [message_ok hg h]
  congr 1
  funext a
  cases stream with
  | false => rfl
  | true =>
    simp only [if_true]
    have : ∀ s, (Source.printErrorLine (linesOnly σ) s 0) = Source.printErrorLine τ s 0 := fun s => printErrorLine_lines h s 0
    simp only [this]
    exact arg_ok hg h p _

theorem create_rel (h : SRel M σ τ) : ResRel (SRel M) (Source.srcCreate σ) (Source.srcCreate τ) := by
  unfold Source.srcCreate
  rw [h.lines]
  cases τ.lines with
  | some a => exact trivial
  | none => exact ⟨rfl, rfl, h.used, rfl, rfl, h.fresh, h.info, fun _ => trivial⟩

theorem ensure_rel (h : SRel M σ τ) : ResRel (SRel M) (Source.ensure σ) (Source.ensure τ) := by
  unfold Source.ensure
  rw [h.lines]
  cases τ.lines with
  | some a => exact h
  | none => exact create_rel h

theorem line_rel (h : SRel M σ τ) (buf : List Byte) (len : Nat) :
    ResRel (fun c d => c.2 = d.2 ∧ SRel M c.1 d.1) (Source.srcLine σ buf len) (Source.srcLine τ buf len) := by
  unfold Source.srcLine
  refine Spec.ResRel.bind (ensure_rel h) ?_
  intro c d hcd
  have ha : Source.arr c = Source.arr d := by unfold Source.arr; rw [hcd.lines]
  cases Source.copy buf len <;> simp only [Res.bind]
  · rename_i s
    cases Source.untab s <;> simp only
    · rename_i s
      rw [ha, hcd.used, hcd.count]
      cases Source.setLine (Source.arr d) d.used s <;> simp only
      · rename_i a
        cases Source.getLine (Source.regrow a (d.used + 1) d.count).1 (d.used + 1 - 1) <;> simp only
        · exact ⟨rfl, rfl, rfl, rfl, by simp only [hcd.bytes], hcd.total, hcd.fresh,
            ⟨hcd.info.file, by simp only [hcd.info.line], rfl, hcd.info.length, rfl⟩, hcd.toks⟩
        all_goals exact trivial
      all_goals exact trivial
    all_goals exact trivial
  all_goals exact trivial

theorem get_rel (h : SRel M σ τ) (n : Int) :
    ResRel (fun c d => c.2 = d.2 ∧ SRel M c.1 d.1) (Source.srcGet σ n) (Source.srcGet τ n) := by
  unfold Source.srcGet
  rw [h.lines]
  cases hl : τ.lines with
  | none => exact trivial
  | some a =>
    refine ⟨h.fresh, by simp only [Source.srcAdvance], h.count, h.used, h.bytes, ?_, ?_, ?_, ?_⟩
    · simp only [Source.srcAdvance, h.total]
    · simp only [Source.srcAdvance, h.fresh]
    · exact ⟨h.info.file, h.info.line, by simp only [Source.srcAdvance, h.info.offset], rfl, h.info.index⟩
    · intro p
      simp only [Source.srcAdvance, h.fresh]
      by_cases hp : p = τ.fresh
      · rw [if_pos hp, if_pos hp]
        exact ⟨h.info.file, h.info.line, h.info.offset, rfl, h.info.index⟩
      · rw [if_neg hp, if_neg hp]
        exact h.toks p

/-- after the call: related managers, related pool, the same result -/
abbrev SOut (g : Global) (M : Interned) (c : (Global × Source.StateOf Ptr) × SrcVal) (d : Source.State × SrcVal) : Prop :=
  c.2 = d.2 ∧ ∃ M', Grows g M c.1.1 M' ∧ SRel M' c.1.2 d.1

theorem val_rel (hg : GInv g M) (h : SRel M σ τ) {α : Type} (x y : Res α) (f : α → SrcVal) (hxy : x = y) :
    ResRel (SOut g M) (x.bind fun v => .ok ((g, σ), f v)) (y.bind fun v => .ok (τ, f v)) := by
  subst hxy
  cases x <;> simp only [Res.bind, ResRel]
  exact ⟨rfl, M, Grows.refl hg, h⟩

theorem field_rel {α : Type} (h : SRel M σ τ) (p : Nat) (k : Option (Source.InfoOf Ptr) → Res α) (k' : Option Source.Info → Res α)
    (hk : ∀ i j, ROpt M i j → k i = k' j) : (Source.access σ p).bind k = (Source.access τ p).bind k' := by
  have := access_rel h p
  cases h1 : Source.access σ p <;> cases h2 : Source.access τ p <;> rw [h1, h2] at this <;> simp only [ResRel] at this
  · simp only [Res.bind, hk _ _ this]
  all_goals rfl

theorem src_rel (hg : GInv g M) (h : SRel M σ τ) (o : Spec.SrcOp) (ho : (NameOp.src o).Strings) :
    ResRel (SOut g M) (srcStep g σ o) (Source.step τ o) := by
  cases o with
  | create => exact Spec.ResRel.bind (create_rel h) fun a b hab => ⟨rfl, M, Grows.refl hg, hab⟩
  | destroy =>
    refine ⟨rfl, M, Grows.refl hg, ?_⟩
    simp only [Source.srcDestroy, h.lines]
    cases hl : τ.lines with
    | none => exact h
    | some a => exact ⟨rfl, h.count, h.used, h.bytes, h.total, h.fresh, h.info, fun _ => trivial⟩
  | line buf len => exact Spec.ResRel.bind (line_rel h buf len) fun a b hab => ⟨by rw [hab.1], M, Grows.refl hg, hab.2⟩
  | newFile name =>
    obtain ⟨g1, p, M1, f1, i1, m1⟩ := strFind_ok hg (t := name) (by simpa only [NameOp.Strings] using ho)
    simp only [srcStep, Source.step, f1, okBind]
    refine ⟨rfl, M1, i1, ?_⟩
    have h' := h.mono i1.sub
    exact ⟨h'.lines, h'.count, h'.used, h'.bytes, h'.total, h'.fresh, ⟨m1, h'.info.line, h'.info.offset, h'.info.length, h'.info.index⟩, h'.toks⟩
  | newLine n =>
    exact ⟨rfl, M, Grows.refl hg, h.lines, h.count, h.used, h.bytes, h.total, h.fresh,
      ⟨h.info.file, rfl, h.info.offset, h.info.length, h.info.index⟩, h.toks⟩
  | advance n =>
    exact ⟨rfl, M, Grows.refl hg, h.lines, h.count, h.used, h.bytes, h.total, h.fresh,
      ⟨h.info.file, h.info.line, by simp only [Source.srcAdvance, h.info.offset], h.info.length, h.info.index⟩, h.toks⟩
  | get n => exact Spec.ResRel.bind (get_rel h n) fun a b hab => ⟨by rw [hab.1], M, Grows.refl hg, hab.2⟩
  | filename p =>
    refine val_rel hg h _ _ _ (field_rel h p _ _ ?_)
    intro i j hij
    cases i <;> cases j <;> simp only [ROpt] at hij
    · rfl
    · rename_i i j
      have hf := hij.file
      simp only
      cases h1 : i.file <;> cases h2 : j.file <;> rw [h1, h2] at hf <;> simp only [RFile] at hf
      simp only [nameAt_ok hg hf, okBind]
  | linenumber p =>
    refine val_rel hg h _ _ _ (field_rel h p _ _ ?_)
    intro i j hij
    cases i <;> cases j <;> simp only [ROpt] at hij
    · rfl
    · simp only [hij.line]
  | offset p =>
    refine val_rel hg h _ _ _ (field_rel h p _ _ ?_)
    intro i j hij
    cases i <;> cases j <;> simp only [ROpt] at hij
    · rfl
    · simp only [hij.offset]
  | length p =>
    refine val_rel hg h _ _ _ (field_rel h p _ _ ?_)
    intro i j hij
    cases i <;> cases j <;> simp only [ROpt] at hij
    · rfl
    · simp only [hij.length]
  | sourceLine p =>
    refine val_rel hg h _ _ _ (field_rel h p _ _ ?_)
    intro i j hij
    have ha : Source.arr σ = Source.arr τ := by unfold Source.arr; rw [h.lines]
    cases i <;> cases j <;> simp only [ROpt] at hij
    · rfl
    · simp only [hij.index, ha]
  | stats =>
    refine ⟨?_, M, Grows.refl hg, h⟩
    simp only [Source.srcStats, h.lines, h.used, h.count, h.bytes, h.total]
  | printLine p =>
    simp only [srcStep, Source.step]
    have := fun k : Option Source.Info → Res ((Global × Source.StateOf Ptr) × SrcVal) => arg_ok hg h p k
    rw [this]
    simp only [printLine_lines h]
    cases Source.deref τ p with
    | ok s => exact val_rel hg h _ _ _ rfl
    | _ => exact trivial
  | printError stream p m => exact val_rel hg h _ _ _ (printError_ok hg h stream p m)
  | printMessage stream p m => exact val_rel hg h _ _ _ (message_ok hg h stream p m)

end

/-- a source manager call against its specification -/
theorem src_spec {g : Global} {M : Interned} {σ : Source.StateOf Ptr} {S : Src} (hg : GInv g M) (hs : ∃ τ, SRel M σ τ ∧ Source.Sim τ S)
    (o : Spec.SrcOp) (ho : (NameOp.src o).Strings) :
    ResRel (fun c d => c.2 = d.2 ∧ ∃ M', Grows g M c.1.1 M' ∧ ∃ τ, SRel M' c.1.2 τ ∧ Source.Sim τ d.1)
      (srcStep g σ o) (Spec.srcStep S o) := by
  obtain ⟨τ, h, hS⟩ := hs
  refine ResRel.mono (ResRel.comp (src_rel hg h o ho) (Source.step_sim τ S o hS)) ?_
  rintro a c ⟨b, ⟨h1, M', h2, h4⟩, h5, h6⟩
  exact ⟨h1.trans h5, M', h2, b.1, h4, h6⟩

end Maa.Names
