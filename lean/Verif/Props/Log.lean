import Verif.Model.Log
import Verif.Lemmas.NameTab
import Mathlib.Data.List.Nodup

/-! # Properties C45, C57, C58: logging, maa/log.c -/

namespace Maa.Log

open Spec (LogEvent LogEnv LogOp Sinks)

/-- model and specification states agree -/
structure Sim (σ : State) (S : Sinks) : Prop where
  file : match S.file with
    | none => σ.logFd < 0
    | some (pat, n, fd) => 0 ≤ fd ∧ σ.logFd = fd ∧ σ.logFilename = some n ∧ (∃ x, σ.logFilenameTmp = some x) ∧
        σ.logFilenameOrig = some pat ∧ σ.logFilenameLen = pat.length * 3 + 1024
  stream : σ.logUserStream = S.stream
  syslog : σ.logSyslog = if S.syslog then 1 else 0
  ident : σ.logIdent = some S.ident ∨ (S.file = none ∧ S.stream = none)
  host : match S.host with
    | none => σ.hostnameSet = 0 ∧ S.file = none ∧ S.stream = none
    | some h => σ.hostnameSet ≠ 0 ∧ σ.logHostname = h
  full : S.full = decide (σ.inhibitFull = 0)
  facility : σ.logFacility = S.facility
  count : (if S.file = none then 0 else 1) + (if S.stream = none then 0 else 1) + (if S.syslog then 1 else 0) ≤ σ.logOpen

theorem Sim.init : Sim State.init Sinks.init where
  file := by simp [Sinks.init, State.init]
  stream := rfl
  syslog := rfl
  ident := Or.inr ⟨rfl, rfl⟩
  host := ⟨rfl, rfl, rfl⟩
  full := rfl
  facility := rfl
  count := by simp [Sinks.init, State.init]

theorem mkpathLoop_eq (done rest : List Byte) :
    mkpathLoop done rest = (((List.range rest.length).filter fun i => (done.length + i ≠ 0) ∧ rest[i]? = some 47).map fun i => LogEvent.mkdir (done ++ rest.take i)) := by
  induction rest generalizing done with
  | nil => rfl
  | cons c rest ih =>
    simp only [mkpathLoop]
    rw [ih, List.length_cons, List.range_succ_eq_map, List.filter_cons, List.filter_map]
    have hd : done ≠ [] ↔ done.length + 0 ≠ 0 := by simp
    have e : (List.filter ((fun i => decide ((done.length + i ≠ 0) ∧ (c :: rest)[i]? = some 47)) ∘ Nat.succ) (List.range rest.length)) =
        List.filter (fun i => decide (((done ++ [c]).length + i ≠ 0) ∧ rest[i]? = some 47)) (List.range rest.length) := by
      apply List.filter_congr
      intro i _
      simp only [Function.comp_apply, List.getElem?_cons_succ, List.length_append, List.length_cons, List.length_nil]
      congr 1
      have : (done.length + i.succ ≠ 0) = (done.length + (0 + 1) + i ≠ 0) := by
        apply propext; omega
      rw [this]
    rw [e]
    by_cases h : c = 47 ∧ done ≠ []
    · rw [if_pos h, if_pos (by simp [h.1]; exact fun e => h.2 e)]
      simp [List.map_map, Function.comp_def]
    · rw [if_neg h, if_neg]
      · simp [List.map_map, Function.comp_def]
      · simp only [List.getElem?_cons_zero, decide_eq_true_eq, Option.some.injEq]
        rintro ⟨h1, h2⟩
        exact h ⟨h2, hd.2 h1⟩

theorem mkpath_eq (n : List Byte) : mkpath n = (Spec.parents n).map .mkdir := by
  unfold mkpath Spec.parents
  rw [mkpathLoop_eq]
  simp [List.map_map, Function.comp_def]

theorem okBind {α β : Type} (a : α) (f : α → Res β) : (Res.ok a).bind f = f a := rfl

/-- outcome-wise agreement -/
abbrev Rel := Spec.ResRel (fun (c : State × List LogEvent) (b : Sinks × List LogEvent) => c.2 = b.2 ∧ Sim c.1 b.1)

theorem setHostname_facts (σ : State) (env : LogEnv) : let σ' := setHostname σ env
    σ'.logFd = σ.logFd ∧ σ'.logFilename = σ.logFilename ∧ σ'.logFilenameTmp = σ.logFilenameTmp ∧ σ'.logFilenameOrig = σ.logFilenameOrig ∧
    σ'.logFilenameLen = σ.logFilenameLen ∧ σ'.logUserStream = σ.logUserStream ∧ σ'.logSyslog = σ.logSyslog ∧ σ'.logIdent = σ.logIdent ∧
    σ'.inhibitFull = σ.inhibitFull ∧ σ'.logFacility = σ.logFacility ∧ σ'.logOpen = σ.logOpen ∧ σ'.hostnameSet ≠ 0 ∧
    σ'.logHostname = if σ.hostnameSet = 0 then Spec.shortHost env.host else σ.logHostname := by
  unfold setHostname
  by_cases h : σ.hostnameSet = 0
  · rw [if_pos h]; simp [h, Spec.shortHost]
  · rw [if_neg h]; simp [h]

theorem Sim.hostFact {σ : State} {S : Sinks} (h : Sim σ S) (env : LogEnv) :
    (if σ.hostnameSet = 0 then Spec.shortHost env.host else σ.logHostname) = S.host.getD (Spec.shortHost env.host) := by
  have := h.host
  cases hh : S.host with
  | none => rw [hh] at this; rw [if_pos this.1]; rfl
  | some x => rw [hh] at this; rw [if_neg this.1, this.2]; rfl

theorem file_sim {σ : State} {S : Sinks} (h : Sim σ S) (ident name : Option (List Byte)) (env : LogEnv) (fac : List (List Byte × Int)) :
    Rel (logFile σ ident name env) (Spec.logStep fac S (.file ident name env)) := by
  have hclose : ∀ id nm, (id = none ∨ nm = none) → Rel (logFile σ id nm env) (Spec.logStep fac S (.file id nm env)) := by
    intro id nm hor
    have e1 : logFile σ id nm env = if σ.logFd < 0 then .ok (σ, []) else .ok ({ σ with logFd := -1, logFilename := none, logFilenameTmp := none, logFilenameLen := 0, logOpen := σ.logOpen - 1 }, [.closed σ.logFd]) := by
      rcases hor with rfl | rfl
      · rfl
      · cases id <;> rfl
    have e2 : Spec.logStep fac S (.file id nm env) = .ok S.closeFile := by
      rcases hor with rfl | rfl
      · rfl
      · cases id <;> rfl
    rw [e1, e2]
    have hf := h.file
    cases hS : S.file with
    | none =>
      rw [hS] at hf
      simp only at hf
      rw [if_pos hf]
      simp only [Sinks.closeFile, hS]
      exact ⟨rfl, h⟩
    | some f =>
      obtain ⟨pat, n, fd⟩ := f
      rw [hS] at hf
      obtain ⟨h0, h1, h2, h3, h4, h5⟩ := hf
      have : ¬ σ.logFd < 0 := by omega
      rw [if_neg this]
      simp only [Sinks.closeFile, hS]
      refine ⟨by simp [h1], ?_, h.stream, h.syslog, ?_, ?_, h.full, h.facility, ?_⟩
      · show (-1 : Int) < 0; omega
      · rcases h.ident with hi | hi
        · exact Or.inl hi
        · rw [hS] at hi; exact absurd hi.1 (by simp)
      · have := h.host
        cases hh : S.host with
        | none => rw [hh] at this; rw [hS] at this; exact absurd this.2.1 (by simp)
        | some x => rw [hh] at this; exact this
      · have := h.count
        rw [hS] at this
        simp only at this ⊢
        simp only [reduceCtorEq, if_false] at this
        simp only [if_true]
        omega
  cases ident with
  | none => exact hclose _ _ (Or.inl rfl)
  | some id =>
    cases name with
    | none => exact hclose _ _ (Or.inr rfl)
    | some pat =>
      have hf := h.file
      simp only [logFile, Spec.logStep]
      cases hS : S.file with
      | some f =>
        obtain ⟨p, n, fd⟩ := f
        rw [hS] at hf
        obtain ⟨h0, h1, -⟩ := hf
        rw [if_pos (by omega), if_pos (by simp)]
        exact trivial
      | none =>
        rw [hS] at hf
        simp only at hf
        rw [if_neg (by omega), if_neg (by simp)]
        have hhost := h.hostFact env
        have hcount := h.count
        rw [hS] at hcount
        simp only [if_true] at hcount
        simp only [checkFilename]
        rw [if_neg (by omega)]
        by_cases hlong : 3 * pat.length + 1023 < (env.expand pat).length
        · rw [if_pos (by omega), if_pos (by simpa [Spec.tooLong] using hlong)]
          exact trivial
        have ht : Spec.tooLong pat (env.expand pat) = false := by simpa [Spec.tooLong] using hlong
        rw [if_neg (by omega), ht, if_neg Bool.false_ne_true]
        by_cases he : env.expand pat = []
        · rw [if_neg (by simp [he]), if_pos he]
          simp only [okBind]
          refine ⟨rfl, ?_⟩
          obtain ⟨a1, a2, a3, a4, a5, a6, a7, a8, a9, a10, a11, a12, a13⟩ :=
            setHostname_facts { σ with logIdent := some id, logFilenameOrig := some pat, logFilenameLen := pat.length * 3 + 1024, logFilename := some [], logFilenameTmp := some (env.expand pat) } env
          refine ⟨?_, ?_, ?_, ?_, ?_, ?_, ?_, ?_⟩
          · simp only [hS, a1]; exact hf
          · simp only [a6]; exact h.stream
          · simp only [a7]; exact h.syslog
          · left; simp only [a8]
          · exact ⟨a12, by simp only [a13, hhost]⟩
          · simp only [a9]; exact h.full
          · simp only [a10]; exact h.facility
          · simp only [a11, hS, if_true]; omega
        · rw [if_pos (by exact he), if_neg he]
          by_cases hfd : env.fd < 0
          · rw [if_pos hfd, if_pos hfd]
            exact trivial
          rw [if_neg hfd, if_neg hfd]
          simp only [okBind]
          refine ⟨?_, ?_⟩
          · have : ¬ σ.logFd ≥ 0 := by omega
            simp only [this, if_false, mkpath_eq, Spec.openEvents, List.nil_append]
          · obtain ⟨a1, a2, a3, a4, a5, a6, a7, a8, a9, a10, a11, a12, a13⟩ :=
              setHostname_facts { σ with logIdent := some id, logFilenameOrig := some pat, logFilenameLen := pat.length * 3 + 1024, logFilename := some (env.expand pat), logFilenameTmp := some (env.expand pat), logFd := env.fd } env
            refine ⟨?_, ?_, ?_, ?_, ?_, ?_, ?_, ?_⟩
            · simp only [a1, a2, a3, a4, a5]
              exact ⟨by omega, by simp, by simp, ⟨env.expand pat, rfl⟩, by simp, trivial⟩
            · simp only [a6]; exact h.stream
            · simp only [a7]; exact h.syslog
            · left; simp only [a8]
            · exact ⟨a12, by simp only [a13, hhost]⟩
            · simp only [a9]; exact h.full
            · simp only [a10]; exact h.facility
            · simp only [a11, reduceCtorEq, if_false]; omega

theorem stream_sim {σ : State} {S : Sinks} (h : Sim σ S) (ident : Option (List Byte)) (s : Option Nat) (env : LogEnv) (fac : List (List Byte × Int)) :
    Rel (logStream σ ident s env) (Spec.logStep fac S (.stream ident s env)) := by
  have hclose : ∀ id nm, (id = none ∨ nm = none) → Rel (logStream σ id nm env) (Spec.logStep fac S (.stream id nm env)) := by
    intro id nm hor
    have e1 : logStream σ id nm env = match σ.logUserStream with
        | none => .ok (σ, [])
        | some s => .ok ({ σ with logUserStream := none, logOpen := σ.logOpen - 1 }, if s ≠ Spec.stdout ∧ s ≠ Spec.stderr then [LogEvent.fclosed s] else []) := by
      rcases hor with rfl | rfl
      · rfl
      · cases id <;> rfl
    have e2 : Spec.logStep fac S (.stream id nm env) = .ok S.closeStream := by
      rcases hor with rfl | rfl
      · rfl
      · cases id <;> rfl
    rw [e1, e2]
    have hs := h.stream
    cases hS : S.stream with
    | none =>
      rw [hs, hS]
      simp only [Sinks.closeStream, hS]
      exact ⟨rfl, h⟩
    | some x =>
      rw [hs, hS]
      simp only [Sinks.closeStream, hS]
      refine ⟨?_, h.file, rfl, h.syslog, ?_, ?_, h.full, h.facility, ?_⟩
      · by_cases hx : x = Spec.stdout ∨ x = Spec.stderr
        · rw [if_pos hx, if_neg (by rintro ⟨h1, h2⟩; rcases hx with hx | hx; exact h1 hx; exact h2 hx)]
        · rw [if_neg hx, if_pos ⟨fun e => hx (Or.inl e), fun e => hx (Or.inr e)⟩]
      · rcases h.ident with hi | hi
        · exact Or.inl hi
        · rw [hS] at hi; exact absurd hi.2 (by simp)
      · have := h.host
        cases hh : S.host with
        | none => rw [hh] at this; rw [hS] at this; exact absurd this.2.2 (by simp)
        | some x => rw [hh] at this; exact this
      · have := h.count
        rw [hS] at this
        simp only [reduceCtorEq, if_false] at this
        simp only [if_true]
        omega
  cases ident with
  | none => exact hclose _ _ (Or.inl rfl)
  | some id =>
    cases s with
    | none => exact hclose _ _ (Or.inr rfl)
    | some x =>
      have hs := h.stream
      simp only [logStream, Spec.logStep]
      cases hS : S.stream with
      | some y =>
        rw [hs, hS, if_pos (by simp), if_pos (by simp)]
        exact trivial
      | none =>
        rw [hs, hS, if_neg (by simp), if_neg (by simp)]
        have hhost := h.hostFact env
        obtain ⟨a1, a2, a3, a4, a5, a6, a7, a8, a9, a10, a11, a12, a13⟩ :=
          setHostname_facts { σ with logUserStream := some x, logIdent := some id } env
        have hf := h.file
        have hcount := h.count
        rw [hS] at hcount
        simp only [if_true] at hcount
        refine ⟨rfl, ?_, ?_, ?_, ?_, ?_, ?_, ?_, ?_⟩
        · cases hF : S.file with
          | none => rw [hF] at hf; simp only [hF, a1]; exact hf
          | some f => rw [hF] at hf; simp only [hF, a1, a2, a3, a4, a5]; exact hf
        · simp only [a6]
        · simp only [a7]; exact h.syslog
        · left; simp only [a8]
        · exact ⟨a12, by simp only [a13, hhost]⟩
        · simp only [a9]; exact h.full
        · simp only [a10]; exact h.facility
        · simp only [a11, reduceCtorEq, if_false]; omega

theorem syslog_sim {σ : State} {S : Sinks} (h : Sim σ S) (ident : Option (List Byte)) (fac : List (List Byte × Int)) :
    Rel (logSyslog σ ident) (Spec.logStep fac S (.syslog ident)) := by
  have hs := h.syslog
  have hc := h.count
  cases ident with
  | some id =>
    simp only [logSyslog, Spec.logStep]
    cases hS : S.syslog with
    | true =>
      rw [hs, hS, if_pos (by simp), if_pos rfl]
      exact trivial
    | false =>
      rw [hs, hS, if_neg (by simp), if_neg (by simp)]
      rw [hS] at hc
      simp only [Bool.false_eq_true, if_false] at hc
      exact ⟨by rw [h.facility], h.file, h.stream, by simp, h.ident, h.host, h.full, h.facility, by simp only [if_true]; omega⟩
  | none =>
    simp only [logSyslog, Spec.logStep, Sinks.closeSyslog]
    cases hS : S.syslog with
    | true =>
      rw [hs, hS, if_neg (by simp), if_pos rfl]
      rw [hS] at hc
      simp only [if_true] at hc
      exact ⟨rfl, h.file, h.stream, by simp, h.ident, h.host, h.full, h.facility, by simp; omega⟩
    | false =>
      rw [hs, hS, if_pos (by simp), if_neg (by simp)]
      exact ⟨rfl, h⟩

theorem close_sim {σ : State} {S : Sinks} (h : Sim σ S) (env : LogEnv) (fac : List (List Byte × Int)) :
    Rel (logClose σ env) (Spec.logStep fac S .close) := by
  have h1 := file_sim h none none env fac
  simp only [Spec.logStep] at h1 ⊢
  unfold logClose
  cases ha : logFile σ none none env <;> rw [ha] at h1 <;> simp only [Rel, Spec.ResRel] at h1
  rename_i a
  have h2 := stream_sim h1.2 none none env fac
  simp only [Spec.logStep] at h2
  simp only [okBind]
  cases hb : logStream a.1 none none env <;> rw [hb] at h2 <;> simp only [Rel, Spec.ResRel] at h2
  rename_i b
  have h3 := syslog_sim h2.2 none fac
  simp only [Spec.logStep] at h3
  simp only [okBind]
  cases hc : logSyslog b.1 none <;> rw [hc] at h3 <;> simp only [Rel, Spec.ResRel] at h3
  rename_i c
  simp only [okBind, Rel, Spec.ResRel]
  have e1 : S.closeFile.1.closeStream.2 = S.closeStream.2 := by
    unfold Sinks.closeFile Sinks.closeStream
    cases S.file <;> cases S.stream <;> rfl
  have e2 : S.closeFile.1.closeStream.1.closeSyslog.2 = S.closeSyslog.2 := by
    unfold Sinks.closeFile Sinks.closeStream Sinks.closeSyslog
    cases S.file <;> cases S.stream <;> cases S.syslog <;> rfl
  have e3 : S.closeFile.1.closeStream.1.closeSyslog.1 = { S with file := none, stream := none, syslog := false } := by
    unfold Sinks.closeFile Sinks.closeStream Sinks.closeSyslog
    cases h1 : S.file <;> cases h2 : S.stream <;> cases h3 : S.syslog <;> simp only [h1, h2, h3] <;> cases S <;> simp_all
  refine ⟨by rw [h1.1, h2.1, h3.1, e1, e2], ?_⟩
  rw [← e3]
  exact h3.2

theorem pad_eq (date : List Byte) : List.replicate (24 - (date.take 24).length) (32 : Byte) = List.replicate (24 - date.length) 32 := by
  rw [List.length_take]
  congr 1
  omega

theorem preamble_sim {σ : State} {S : Sinks} (h : Sim σ S) (hopen : S.file ≠ none ∨ S.stream ≠ none) (env : LogEnv) :
    preamble σ env = .ok (S.preamble env) := by
  unfold preamble Sinks.preamble
  rw [h.full]
  by_cases hi : σ.inhibitFull = 0
  · rw [if_neg (by simp [hi])]
    simp only [hi, decide_true, if_true]
    have hid : σ.logIdent = some S.ident := by
      rcases h.ident with hi | ⟨h1, h2⟩
      · exact hi
      · rcases hopen with ho | ho
        · exact absurd h1 ho
        · exact absurd h2 ho
    have hh : σ.logHostname = S.host.getD [] := by
      have := h.host
      cases hS : S.host with
      | none =>
        rw [hS] at this
        rcases hopen with ho | ho
        · exact absurd this.2.1 ho
        · exact absurd this.2.2 ho
      | some x => rw [hS] at this; exact this.2
    rw [hid]
    simp only [pad_eq, hh]
    rfl
  · rw [if_pos hi]
    simp only [hi, decide_false]
    rfl

/-- the file name check, on an open file -/
theorem check_sim {σ : State} {S : Sinks} (h : Sim σ S) (env : LogEnv) {pat n : List Byte} {fd : Int} (hS : S.file = some (pat, n, fd)) (line : List Byte) :
    Rel ((checkFilename σ env).bind fun r => .ok (r.1, r.2 ++ [LogEvent.wrote r.1.logFd line])) (S.toFile line env) := by
  have hf := h.file
  rw [hS] at hf
  obtain ⟨h0, h1, h2, ⟨x, h3⟩, h4, h5⟩ := hf
  have hhost := h.host
  have hcount := h.count
  unfold checkFilename Sinks.toFile
  rw [h2, h3, h4]
  simp only [hS]
  rw [if_neg (by omega)]
  by_cases hlong : 3 * pat.length + 1023 < (env.expand pat).length
  · rw [if_pos (by omega), if_pos (by simpa [Spec.tooLong] using hlong)]
    exact trivial
  have ht : Spec.tooLong pat (env.expand pat) = false := by simpa [Spec.tooLong] using hlong
  rw [if_neg (by omega), ht, if_neg Bool.false_ne_true]
  by_cases he : env.expand pat = n
  · rw [if_neg (by simp [he]), if_pos he]
    simp only [okBind]
    refine ⟨by simp [h1], ?_, h.stream, h.syslog, h.ident, h.host, h.full, h.facility, h.count⟩
    rw [hS]
    exact ⟨h0, h1, rfl, ⟨_, rfl⟩, rfl, h5⟩
  · rw [if_pos (by exact he), if_neg he]
    by_cases hfd : env.fd < 0
    · rw [if_pos hfd, if_pos hfd]
      exact trivial
    rw [if_neg hfd, if_neg hfd]
    simp only [okBind]
    refine ⟨?_, ?_, h.stream, h.syslog, ?_, ?_, h.full, h.facility, ?_⟩
    · have : σ.logFd ≥ 0 := by omega
      rw [h1] at this
      simp only [this, if_true, mkpath_eq, Spec.openEvents, h1, List.append_assoc]
    · exact ⟨by omega, rfl, rfl, ⟨_, rfl⟩, rfl, h5⟩
    · rcases h.ident with hi | hi
      · exact Or.inl hi
      · rw [hS] at hi; exact absurd hi.1 (by simp)
    · cases hh : S.host with
      | none => rw [hh] at hhost; rw [hS] at hhost; exact absurd hhost.2.1 (by simp)
      | some x => rw [hh] at hhost; exact hhost
    · rw [hS] at hcount
      exact hcount

theorem toFile_sinks {S S' : Sinks} {line : List Byte} {env : LogEnv} {ev : List LogEvent} (h : S.toFile line env = .ok (S', ev)) :
    S'.stream = S.stream ∧ S'.syslog = S.syslog := by
  unfold Sinks.toFile at h
  cases hS : S.file with
  | none => rw [hS] at h; simp only [Res.ok.injEq, Prod.mk.injEq] at h; rw [← h.1]; exact ⟨rfl, rfl⟩
  | some f =>
    obtain ⟨p, n, fd⟩ := f
    rw [hS] at h
    simp only at h
    split at h
    · simp at h
    split at h
    · simp only [Res.ok.injEq, Prod.mk.injEq] at h; rw [← h.1]; exact ⟨rfl, rfl⟩
    · split at h
      · simp at h
      · simp only [Res.ok.injEq, Prod.mk.injEq] at h; rw [← h.1]; exact ⟨rfl, rfl⟩

theorem message_sim {σ : State} {S : Sinks} (h : Sim σ S) (routine : Option (List Byte)) (level : Int) (text : List Byte) (env : LogEnv)
    (fac : List (List Byte × Int)) :
    Rel (base σ routine level text env) (Spec.logStep fac S (.message routine level text env)) := by
  have hc := h.count
  have hf := h.file
  unfold base
  simp only [Spec.logStep]
  by_cases h0 : σ.logOpen = 0
  · rw [if_pos h0]
    have : S.file = none ∧ S.stream = none ∧ S.syslog = false := by
      rw [h0] at hc
      refine ⟨?_, ?_, ?_⟩
      · by_contra hx; rw [if_neg hx] at hc; split at hc <;> split at hc <;> omega
      · by_contra hx; rw [if_neg hx] at hc; split at hc <;> split at hc <;> omega
      · cases hx : S.syslog with
        | false => rfl
        | true => rw [hx] at hc; simp only [if_true] at hc; split at hc <;> split at hc <;> omega
    obtain ⟨h1, h2, h3⟩ := this
    simp only [Sinks.toFile, h1, okBind, Sinks.toStream, h2, h3, Bool.false_eq_true, if_false, List.append_nil]
    exact ⟨rfl, h⟩
  rw [if_neg h0]
  have hsys : ∀ (c : State) (b : Sinks) (ev : List LogEvent), Sim c b → b.syslog = S.syslog →
      Rel (if c.logSyslog ≠ 0 then .ok (c, ev ++ [LogEvent.syslog level text]) else .ok (c, ev))
        (.ok (b, ev ++ if S.syslog then [LogEvent.syslog level text] else [])) := by
    intro c b ev hcb hb
    rw [hcb.syslog, hb]
    cases S.syslog with
    | true => rw [if_pos (by simp), if_pos rfl]; exact ⟨rfl, hcb⟩
    | false => rw [if_neg (by simp), if_neg (by simp)]; exact ⟨by simp, hcb⟩
  by_cases hopen : S.file ≠ none ∨ S.stream ≠ none
  · have hcond : σ.logFd ≥ 0 ∨ σ.logUserStream.isSome := by
      rcases hopen with ho | ho
      · left
        cases hS : S.file with
        | none => exact absurd hS ho
        | some f => obtain ⟨p, n, fd⟩ := f; rw [hS] at hf; have := hf.1; have := hf.2.1; omega
      · right
        rw [h.stream]
        cases hS : S.stream with
        | none => exact absurd hS ho
        | some f => rfl
    rw [if_pos hcond, preamble_sim h hopen env]
    simp only [okBind]
    have hline : lineBuf (S.preamble env) routine (snprintf 4096 text) = S.line routine text env := by
      unfold Sinks.line lineBuf
      cases routine <;> simp [snprintf, Spec.fit]
    rw [hline]
    have hmain : snprintf 4096 text = Spec.fit 4096 text := rfl
    rw [hmain]
    have hfile : Rel (if σ.logFd ≥ 0 then (checkFilename σ env).bind fun r => .ok (r.1, r.2 ++ [LogEvent.wrote r.1.logFd (S.line routine text env)])
        else .ok (σ, [])) (S.toFile (S.line routine text env) env) := by
      cases hS : S.file with
      | none =>
        rw [hS] at hf
        simp only at hf
        rw [if_neg (by omega)]
        simp only [Sinks.toFile, hS]
        exact ⟨rfl, h⟩
      | some f =>
        obtain ⟨p, n, fd⟩ := f
        rw [hS] at hf
        rw [if_pos (by have := hf.1; have := hf.2.1; omega)]
        exact check_sim h env hS _
    revert hfile
    generalize (if σ.logFd ≥ 0 then (checkFilename σ env).bind fun r => Res.ok (r.1, r.2 ++ [LogEvent.wrote r.1.logFd (S.line routine text env)])
        else Res.ok (σ, [])) = x
    intro hfile
    cases hy : S.toFile (S.line routine text env) env <;> rw [hy] at hfile <;> cases x <;> simp only [Rel, Spec.ResRel] at hfile
    · rename_i b c
      simp only [okBind]
      have hb := toFile_sinks (S := S) (S' := b.1) (ev := b.2) hy
      rw [h.stream]
      cases hs : S.stream with
      | none =>
        simp only [okBind, Sinks.toStream, hs, List.append_nil, hfile.1]
        have := hsys c.1 b.1 b.2 hfile.2 hb.2
        rw [← hfile.1] at this ⊢
        exact this
      | some s =>
        simp only [Sinks.toStream, hs]
        by_cases hstd : s = Spec.stdout ∨ s = Spec.stderr
        · rw [if_pos hstd, if_pos hstd]
          simp only [okBind]
          rw [hfile.1]
          exact hsys c.1 b.1 _ hfile.2 hb.2
        · rw [if_neg hstd, if_neg hstd]
          simp only [okBind]
          rw [hfile.1]
          exact hsys c.1 b.1 _ hfile.2 hb.2
    · exact trivial
    · exact trivial
    · exact trivial
  · have h1 : S.file = none := by by_contra hx; exact hopen (Or.inl hx)
    have h2 : S.stream = none := by by_contra hx; exact hopen (Or.inr hx)
    rw [h1] at hf
    simp only at hf
    have hcond : ¬ (σ.logFd ≥ 0 ∨ σ.logUserStream.isSome) := by
      rw [h.stream, h2]
      simp; omega
    rw [if_neg hcond]
    simp only [okBind, Sinks.toFile, h1, Sinks.toStream, h2, List.append_nil]
    exact hsys σ S [] h rfl

theorem setLoop_sim {σ : State} {S : Sinks} (h : Sim σ S) (name : List Byte) (fac : List (List Byte × Int)) :
    Spec.ResRel Sim (setLoop σ name fac) (match fac.find? fun p => p.1 = name with
      | none => .fatal
      | some p => .ok { S with facility := p.2 }) := by
  induction fac with
  | nil => exact trivial
  | cons p fac ih =>
    simp only [setLoop, List.find?_cons]
    by_cases hp : p.1 = name
    · simp only [hp, if_true, decide_true]
      exact ⟨h.file, h.stream, h.syslog, h.ident, h.host, h.full, rfl, h.count⟩
    · simp only [hp, if_false, decide_false]
      exact ih

theorem step_sim (σ : State) (S : Sinks) (o : LogOp) (h : Sim σ S) : Rel (step σ o) (Spec.logStep facilitynames S o) := by
  cases o with
  | file ident name env => exact file_sim h ident name env _
  | stream ident s env => exact stream_sim h ident s env _
  | syslog ident => exact syslog_sim h ident _
  | close => exact close_sim h _ _
  | option o =>
    refine ⟨rfl, ?_⟩
    unfold logOption
    by_cases ho : o = 2
    · rw [if_pos ho]
      exact ⟨h.file, h.stream, h.syslog, h.ident, h.host, by simp [ho], h.facility, h.count⟩
    · rw [if_neg ho]
      exact ⟨h.file, h.stream, h.syslog, h.ident, h.host, by simp [ho], h.facility, h.count⟩
  | facility name =>
    have := setLoop_sim h name facilitynames
    simp only [step, Spec.logStep, setFacility]
    cases hx : facilitynames.find? fun p => p.1 = name <;> rw [hx] at this <;> cases hy : setLoop σ name facilitynames <;> rw [hy] at this <;>
      simp only [Spec.ResRel] at this
    · exact trivial
    · exact ⟨rfl, this⟩
  | message routine level text env => exact message_sim h routine level text env _

/-! ## C45 -/

/-- C45: for every history of calls (and whatever the system returns), the calls end and act on the outside world exactly
as the specification `Spec.logStep` says: a message is written once to every sink that is open and nowhere else, sinks that are
open cannot be opened again, closing closes what is open. -/
theorem C45_log_history (hist : List LogOp) :
    Spec.observe (Spec.run step State.init hist) = Spec.observe (Spec.run (Spec.logStep facilitynames) Sinks.init hist) :=
  (Spec.run_sim Sim _ _ step_sim _ _ hist Sim.init).observe

/-- A state some history leads to. -/
def Reach (σ : State) : Prop := ∃ hist xs, Spec.run step State.init hist = .ok (σ, xs)

theorem Reach.sim {σ : State} (h : Reach σ) : ∃ S, Sim σ S := by
  obtain ⟨hist, xs, h⟩ := h
  have := Spec.run_sim Sim _ _ step_sim _ _ hist Sim.init
  rw [h] at this
  cases hx : Spec.run (Spec.logStep facilitynames) Sinks.init hist <;> rw [hx] at this <;> simp only [Spec.ResRel] at this
  exact ⟨_, this.2⟩

/-- C45: `log_close` returns in every state a program can reach, and afterwards messages have no effect until a sink is
opened again. -/
theorem C45_silent_after_close (σ : State) (h : Reach σ) (quiet : List LogOp)
    (hq : ∀ o ∈ quiet, (∃ r l t e, o = .message r l t e) ∨ (∃ n, o = .option n) ∨ o = .close) :
    ∃ ev evs, Spec.observe (Spec.run step σ (.close :: quiet)) = .ok (ev :: evs) ∧ ∀ e ∈ evs, e = [] := by
  obtain ⟨S, hs⟩ := h.sim
  rw [(Spec.run_sim Sim _ _ step_sim σ S (.close :: quiet) hs).observe]
  have key : ∀ (quiet : List LogOp) (T : Sinks), T.file = none → T.stream = none → T.syslog = false →
      (∀ o ∈ quiet, (∃ r l t e, o = LogOp.message r l t e) ∨ (∃ n, o = .option n) ∨ o = .close) →
      ∃ T' evs, Spec.run (Spec.logStep facilitynames) T quiet = .ok (T', evs) ∧ ∀ e ∈ evs, e = [] := by
    intro quiet
    induction quiet with
    | nil => intro T _ _ _ _; exact ⟨T, [], rfl, by simp⟩
    | cons o os ih =>
      intro T h1 h2 h3 hq
      have hstep : ∃ T', Spec.logStep facilitynames T o = .ok (T', []) ∧ T'.file = none ∧ T'.stream = none ∧ T'.syslog = false := by
        rcases hq o (by simp) with ⟨r, l, t, e, rfl⟩ | ⟨n, rfl⟩ | rfl
        · refine ⟨T, ?_, h1, h2, h3⟩
          simp [Spec.logStep, Sinks.toFile, Sinks.toStream, h1, h2, h3, Res.bind]
        · exact ⟨_, rfl, h1, h2, h3⟩
        · exact ⟨{ T with file := none, stream := none, syslog := false }, by simp [Spec.logStep, Sinks.closeFile, Sinks.closeStream, Sinks.closeSyslog, h1, h2, h3], rfl, rfl, rfl⟩
      obtain ⟨T', e1, e2, e3, e4⟩ := hstep
      obtain ⟨T2, evs, e5, e6⟩ := ih T' e2 e3 e4 (fun o ho => hq o (by simp [ho]))
      refine ⟨T2, [] :: evs, ?_, ?_⟩
      · simp only [Spec.run, e1, Res.bind, e5]
      · intro e he
        rcases List.mem_cons.1 he with rfl | he
        · rfl
        · exact e6 e he
  obtain ⟨T2, evs, e5, e6⟩ := key quiet { S with file := none, stream := none, syslog := false } rfl rfl rfl hq
  refine ⟨S.closeFile.2 ++ S.closeStream.2 ++ S.closeSyslog.2, evs, ?_, e6⟩
  simp only [Spec.run, Spec.logStep, okBind, e5, Spec.observe]

/-- C45: a name that expands to nothing opens nothing: `log_file` returns, but no file is opened (recorded here because the
call reports no error). -/
theorem C45_empty_name (ident pat : List Byte) (env : LogEnv) (h : env.expand pat = []) :
    Spec.observe (Spec.run step State.init [.file (some ident) (some pat) env]) = .ok [[]] := by
  rw [C45_log_history]
  simp [Spec.run, Spec.logStep, Sinks.init, h, Spec.tooLong, Spec.observe, Res.bind]

/-- C45: file names are patterns, and there is room for names of three times the pattern's length and 1023 bytes.  A pattern that stands for a
longer name (glibc's "%c" is 12 times as long as the pattern, so 114 times "%c" does) makes `log_file` compare bytes nobody has written. -/
theorem C45_long_name_refuted (hist : List LogOp) (S : Sinks) (xs : List (List LogEvent)) (hr : Spec.run (Spec.logStep facilitynames) Sinks.init hist = .ok (S, xs))
    (hf : S.file = none) (ident pat : List Byte) (env : LogEnv) (h : 3 * pat.length + 1023 < (env.expand pat).length) :
    Spec.observe (Spec.run step State.init (hist ++ [.file (some ident) (some pat) env])) = .ub := by
  rw [C45_log_history, Spec.run_append, hr]
  simp [Spec.run, Spec.logStep, hf, h, Spec.tooLong, Spec.observe, Res.bind]

/-- 114 times "%c" and what glibc makes of it: more than 1023 + 3 * 228 bytes. -/
example : ∃ (pat : List Byte) (env : LogEnv), pat = (List.replicate 114 [37, 99]).flatten ∧
    env.expand pat = (List.replicate 114 (List.replicate 24 97)).flatten ∧ 3 * pat.length + 1023 < (env.expand pat).length :=
  ⟨_, { expand := fun _ => (List.replicate 114 (List.replicate 24 97)).flatten, fd := 3, host := [], date := [], pid := [] }, rfl, rfl, by decide +kernel⟩

/-- Non-vacuity: a file whose name changes between two messages, a user stream and syslog. -/
example :
    let env (n : List Byte) (fd : Int) : LogEnv := { expand := fun _ => n, fd := fd, host := [104, 46, 120], date := [], pid := [55] }
    Spec.observe (Spec.run step State.init [.option 2, .file (some [105]) (some [112]) (env [97, 47, 98] 3), .stream (some [106]) (some 9) (env [] 0),
      .message none 6 [120] (env [97, 47, 98] 4), .message (some [114]) 3 [121] (env [99] 5), .syslog (some [107]), .close,
      .message none 6 [122] (env [99] 5)]) =
    .ok [[], [.mkdir [97], .opened [97, 47, 98] 3], [], [.wrote 3 [120, 10], .printed 9 [120, 10]],
      [.closed 3, .opened [99] 5, .wrote 5 [40, 114, 41, 32, 121, 10], .printed 9 [40, 114, 41, 32, 121, 10]],
      [.openlog [107] 8], [.closed 5, .fclosed 9, .closelog], []] := by
  decide +kernel

/-! ## C57: what a line is -/

/-- A line of the specification has at most 8191 bytes; a message and routine name that fit are in it in full. -/
theorem line_fits (S : Sinks) (routine : Option (List Byte)) (text : List Byte) (env : LogEnv) :
    (S.line routine text env).length ≤ 8191 ∧ (Spec.fit 4096 text).length ≤ 4095 ∧ (S.preamble env).length ≤ 319 ∧
    (text.length ≤ 4095 → (∀ r, routine = some r → r.length ≤ 3773) →
      S.line routine text env = S.preamble env ++ (match routine with | some r => [40] ++ r ++ [41, 32] | none => []) ++ text ++ [10]) := by
  have hpre : (S.preamble env).length ≤ 319 := by
    unfold Sinks.preamble
    split
    · simp only [Spec.fit, List.length_take]; omega
    · simp
  refine ⟨by simp only [Sinks.line, Spec.fit, List.length_take]; omega, by simp only [Spec.fit, List.length_take]; omega, hpre, ?_⟩
  intro ht hr
  have h1 : Spec.fit 4096 text = text := List.take_of_length_le (by omega)
  unfold Sinks.line
  rw [h1]
  refine List.take_of_length_le ?_
  cases routine with
  | none => simp only [List.length_append, List.length_cons, List.length_nil]; omega
  | some r => have := hr r rfl; simp only [List.length_append, List.length_cons, List.length_nil]; omega

/-- C57: after any history, what one message makes the library write: every line written to the log file, and every line
written to a user stream other than stdout and stderr, has at most 8191 bytes and, when the message has at most 4095 bytes
and the routine name at most 3773, is exactly a preamble of at most 319 bytes, the routine in parentheses if there is one,
the message and a newline; stdout and stderr get the first 4095 bytes of the message and nothing else; syslog gets level
and message unchanged. -/
theorem C57_message (σ : State) (h : Reach σ) (routine : Option (List Byte)) (level : Int) (text : List Byte) (env : LogEnv)
    (σ' : State) (ev : List LogEvent) (he : step σ (.message routine level text env) = .ok (σ', ev)) :
    ∃ pre line : List Byte, pre.length ≤ 319 ∧ line.length ≤ 8191 ∧
      (text.length ≤ 4095 → (∀ r, routine = some r → r.length ≤ 3773) →
        line = pre ++ (match routine with | some r => [40] ++ r ++ [41, 32] | none => []) ++ text ++ [10]) ∧
      (∀ fd l, LogEvent.wrote fd l ∈ ev → l = line) ∧
      (∀ s l, LogEvent.printed s l ∈ ev → l = if s = Spec.stdout ∨ s = Spec.stderr then text.take 4095 else line) ∧
      (∀ p t, LogEvent.syslog p t ∈ ev → p = level ∧ t = text) := by
  obtain ⟨S, hs⟩ := h.sim
  obtain ⟨l1, l2, l3, l4⟩ := line_fits S routine text env
  have hrel := step_sim σ S (.message routine level text env) hs
  rw [he] at hrel
  refine ⟨S.preamble env, S.line routine text env, l3, l1, l4, ?_⟩
  simp only [Spec.logStep] at hrel
  have hev : ∃ a : List LogEvent, (∀ s l, LogEvent.printed s l ∉ a) ∧ (∀ p t, LogEvent.syslog p t ∉ a) ∧
      (∀ fd l, LogEvent.wrote fd l ∈ a → l = S.line routine text env) ∧
      ev = a ++ S.toStream (S.line routine text env) text ++ if S.syslog then [.syslog level text] else [] := by
    revert hrel
    unfold Sinks.toFile
    cases S.file with
    | none =>
      intro hrel
      simp only [okBind] at hrel
      exact ⟨[], by simp, by simp, by simp, hrel.1⟩
    | some f =>
      obtain ⟨pat, n, fd⟩ := f
      simp only
      split
      · intro hrel
        exact absurd hrel (by simp [Spec.ResRel, Res.bind])
      split
      · intro hrel
        simp only [okBind] at hrel
        exact ⟨[.wrote fd (S.line routine text env)], by simp, by simp, by simp, hrel.1⟩
      · split
        · intro hrel
          exact absurd hrel (by simp [Spec.ResRel, Res.bind])
        · intro hrel
          simp only [okBind] at hrel
          exact ⟨[.closed fd] ++ Spec.openEvents (env.expand pat) env.fd ++ [.wrote env.fd (S.line routine text env)],
            by simp [Spec.openEvents], by simp [Spec.openEvents], by simp [Spec.openEvents], hrel.1⟩
  obtain ⟨a, a1, a2, a3, rfl⟩ := hev
  have hstr : ∀ e ∈ S.toStream (S.line routine text env) text, ∃ s, e = LogEvent.printed s (if s = Spec.stdout ∨ s = Spec.stderr then text.take 4095 else S.line routine text env) := by
    intro e hm
    unfold Sinks.toStream at hm
    cases hS : S.stream with
    | none => rw [hS] at hm; simp at hm
    | some s =>
      rw [hS] at hm
      simp only at hm
      by_cases hstd : s = Spec.stdout ∨ s = Spec.stderr
      · rw [if_pos hstd] at hm
        exact ⟨s, by rw [if_pos hstd]; simpa [Spec.fit] using hm⟩
      · rw [if_neg hstd] at hm
        exact ⟨s, by rw [if_neg hstd]; simpa using hm⟩
  have hsys : ∀ e ∈ (if S.syslog then [LogEvent.syslog level text] else []), e = LogEvent.syslog level text := by
    intro e hm
    split at hm
    · simpa using hm
    · simp at hm
  refine ⟨?_, ?_, ?_⟩
  · intro fd l hm
    rcases List.mem_append.1 hm with hm | hm
    · rcases List.mem_append.1 hm with hm | hm
      · exact a3 fd l hm
      · obtain ⟨s, e⟩ := hstr _ hm; simp at e
    · exact absurd (hsys _ hm) (by simp)
  · intro s l hm
    rcases List.mem_append.1 hm with hm | hm
    · rcases List.mem_append.1 hm with hm | hm
      · exact absurd hm (a1 s l)
      · obtain ⟨s', e⟩ := hstr _ hm
        simp only [LogEvent.printed.injEq] at e
        rw [e.1]; exact e.2
    · exact absurd (hsys _ hm) (by simp)
  · intro p t hm
    rcases List.mem_append.1 hm with hm | hm
    · rcases List.mem_append.1 hm with hm | hm
      · exact absurd hm (a2 p t)
      · obtain ⟨s', e⟩ := hstr _ hm; simp at e
    · have := hsys _ hm
      simpa using this

/-- Non-vacuity: one message, three sinks. -/
example :
    let env : LogEnv := { expand := fun _ => [97], fd := 3, host := [104], date := [100], pid := [55] }
    let line : List Byte := List.replicate 23 32 ++ [100, 32, 104, 32, 106, 91, 55, 93, 58, 32, 40, 114, 41, 32, 121, 10]
    Spec.observe (Spec.run step State.init [.file (some [105]) (some [97]) env, .stream (some [106]) (some 9) env, .syslog (some [107]),
      .message (some [114]) 3 [121] env]) = .ok [[.opened [97] 3], [], [.openlog [107] 8], [.wrote 3 line, .printed 9 line, .syslog 3 [121]]] := by
  decide +kernel

/-! ## C58: facilities -/

/-- C58: the table `facilitynames` of `C58_facility`, in readable form: the names and, shifted by three bits, their numbers in RFC 5424. -/
theorem C58_names : facilitynames =
    [("auth", 4), ("authpriv", 10), ("cron", 9), ("daemon", 3), ("ftp", 11), ("lpr", 6), ("mail", 2), ("news", 7), ("syslog", 5),
      ("user", 1), ("uucp", 8), ("local0", 16), ("local1", 17), ("local2", 18), ("local3", 19), ("local4", 20), ("local5", 21),
      ("local6", 22), ("local7", 23)].map fun p : String × Int => (p.1.toUTF8.toList, p.2 * 2 ^ 3) := by decide +kernel

/-- C58: after any history, `log_set_facility(name)` ends the program unless the name is in the table; otherwise
`log_get_facility()` returns that name, and syslog is opened with its value. -/
theorem C58_facility (σ : State) (name : List Byte) :
    (name ∉ facilitynames.map Prod.fst → setFacility σ name = .fatal) ∧
    (∀ v, (name, v) ∈ facilitynames → ∃ σ', setFacility σ name = .ok σ' ∧ getFacility σ' = some name ∧ σ'.logFacility = v ∧
      σ' = { σ with logFacility := v }) := by
  have key : ∀ (l : List (List Byte × Int)), setLoop σ name l = match l.find? fun p => p.1 = name with
      | none => .fatal
      | some p => .ok { σ with logFacility := p.2 } := by
    intro l
    induction l with
    | nil => rfl
    | cons p l ih =>
      simp only [setLoop, List.find?_cons]
      by_cases hp : p.1 = name <;> simp [hp, ih]
  have hget : ∀ (l : List (List Byte × Int)) (τ : State), getLoop τ l = (l.find? fun p => p.2 = τ.logFacility).map Prod.fst := by
    intro l τ
    induction l with
    | nil => rfl
    | cons p l ih =>
      simp only [getLoop, List.find?_cons]
      by_cases hp : p.2 = τ.logFacility <;> simp [hp, ih]
  have hn : (facilitynames.map Prod.fst).Nodup := by decide +kernel
  have hv : (facilitynames.map Prod.snd).Nodup := by decide +kernel
  constructor
  · intro hnot
    unfold setFacility
    rw [key]
    have : facilitynames.find? (fun p => p.1 = name) = none := by
      rw [List.find?_eq_none]
      intro p hp he
      exact hnot (List.mem_map.2 ⟨p, hp, by simpa using he⟩)
    rw [this]
  · intro v hmem
    have hf : facilitynames.find? (fun p => p.1 = name) = some (name, v) := by
      cases hx : facilitynames.find? (fun p => p.1 = name) with
      | none =>
        rw [List.find?_eq_none] at hx
        exact absurd (by simp) (hx _ hmem)
      | some p =>
        have h1 := List.mem_of_find?_eq_some hx
        have h2 := List.find?_some hx
        simp only [decide_eq_true_eq] at h2
        rw [List.inj_on_of_nodup_map hn h1 hmem h2]
    have hf2 : facilitynames.find? (fun p => p.2 = v) = some (name, v) := by
      cases hx : facilitynames.find? (fun p => p.2 = v) with
      | none =>
        rw [List.find?_eq_none] at hx
        exact absurd (by simp) (hx _ hmem)
      | some p =>
        have h1 := List.mem_of_find?_eq_some hx
        have h2 := List.find?_some hx
        simp only [decide_eq_true_eq] at h2
        rw [List.inj_on_of_nodup_map hv h1 hmem h2]
    refine ⟨{ σ with logFacility := v }, ?_, ?_, rfl, rfl⟩
    · unfold setFacility
      rw [key, hf]
    · unfold getFacility
      rw [hget]
      simp only [hf2, Option.map_some]

/-- C58: "kern", which syslog has, is not in the table: its value 0 makes the preprocessor drop it. -/
theorem C58_kern_refuted (σ : State) : setFacility σ [107, 101, 114, 110] = .fatal :=
  (C58_facility σ _).1 (by decide +kernel)

/-- Non-vacuity: "mail". -/
example : ([109, 97, 105, 108], 16) ∈ facilitynames := by decide +kernel

end Maa.Log
