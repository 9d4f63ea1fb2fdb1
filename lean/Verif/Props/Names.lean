import Verif.Lemmas.Names
import Verif.Props.Counters

/-! # Property C84: names the library keeps -/

namespace Maa.Names

open Spec (NameOp NameOut ResRel Sinks Src NoNames Safe)
open StrPool (Global GInv GReach)
open Log (okBind)

/-- program and specification agree -/
structure Rel (g0 : Global) (w : World) (s : Sinks × Src) : Prop where
  names : ∃ M, GInv w.pool M ∧ (∃ σ, LRel M w.log σ ∧ Log.Sim σ s.1) ∧ ∃ τ, SRel M w.src τ ∧ Source.Sim τ s.2
  later : StrPool.Later g0 w.pool

theorem Rel.start {g : Global} (r : GReach g) : Rel g (World.start g) (Sinks.init, Src.init) := by
  obtain ⟨M, i⟩ := r.inv
  refine ⟨⟨M, i, ⟨Log.State.init, ⟨rfl, ?_, ?_⟩, Log.Sim.init⟩, _, SRel.init M, Source.Sim.init⟩, .refl g⟩
  · intro t e; exact absurd e (by simp [Log.State.init])
  · intro t e; exact absurd e (by simp [Log.State.init])

/-- without open sinks the log needs no names -/
theorem Sim.forget {σ : Log.State} {S : Sinks} (h : Log.Sim σ S) (hf : S.file = none) (hs : S.stream = none) :
    Log.Sim { σ with logIdent := none, logFilenameOrig := none } S := by
  refine ⟨?_, h.stream, h.syslog, Or.inr ⟨hf, hs⟩, h.host, h.full, h.facility, h.count⟩
  have := h.file
  rw [hf] at this ⊢
  exact this

/-- a manager that was given no file name needs none -/
theorem SRel.forget {M : Interned} {σ : Source.StateOf Ptr} {τ : Source.State} {T : Src} (h : SRel M σ τ) (hS : Source.Sim τ T)
    (hf : T.file = none) (ht : ∀ p t, T.tokens p = some t → t.file = none) (M' : Interned) : SRel M' σ τ := by
  have hfile : ∀ {i : Source.InfoOf Ptr} {j : Source.Info}, RInfo M i j → j.file = none → RInfo M' i j := by
    intro i j hij e
    have := hij.file
    rw [e] at this
    refine ⟨?_, hij.line, hij.offset, hij.length, hij.index⟩
    rw [e]
    cases h1 : i.file with
    | none => exact trivial
    | some p => rw [h1] at this; exact this.elim
  refine ⟨h.lines, h.count, h.used, h.bytes, h.total, h.fresh, hfile h.info (by rw [hS.file, hf]), fun p => ?_⟩
  have h1 := h.toks p
  have h2 := hS.toks p
  cases ha : σ.toks p <;> cases hb : τ.toks p <;> rw [ha, hb] at h1 <;> simp only [ROpt] at h1 ⊢
  rename_i i j
  rw [hb] at h2
  exact hfile h1 (ht p (Source.view j) h2.symm)

theorem strFind_some {g g' : Global} {s : List Byte} {d : Nat} (h : StrPool.strFind g s = .ok (g', d)) : g'.pool.isSome := by
  simp only [StrPool.strFind, Res.bind_ok_iff] at h
  obtain ⟨g1, -, h⟩ := h
  unfold StrPool.withGlobal at h
  cases hp : g1.pool with
  | none => rw [hp] at h; simp at h
  | some q =>
    rw [hp] at h
    simp only [Res.bind_ok_iff, Res.ok.injEq, Prod.mk.injEq] at h
    obtain ⟨r, -, h, -⟩ := h
    rw [← h]
    rfl

theorem needsPool_eq (o : Spec.GlobalOp) : (NameOp.str o).needsPool = StrPool.needsPool o := by cases o <;> rfl

/-- one call -/
theorem step_rel {g0 : Global} {w : World} {s : Sinks × Src} (h : Rel g0 w s) (o : NameOp) {b : Bool} (hb : b = true → w.pool.pool.isSome)
    (h1 : o.Strings) (h2 : o.Permitted) (h3 : o.needsPool = true → b = true) (h4 : o = .str .destroy → NoNames s) :
    ResRel (fun c d => c.2 = d.2 ∧ Rel g0 c.1 d.1 ∧ (o.poolAfter b = true → c.1.pool.pool.isSome))
      (step w o) (Spec.nameStep Log.facilitynames s o) := by
  obtain ⟨⟨M, hg, hl, hs⟩, hlat⟩ := h
  cases o with
  | str o =>
    rcases StrPool.gstep_full hg o h2 with ⟨g', r, M', e1, e2, -, e3⟩ | ⟨e1, e2, -⟩
    · simp only [step, e1, okBind, Spec.nameStep]
      by_cases ho : o = .destroy
      · subst ho
        obtain ⟨n1, n2, n3, n4⟩ := h4 rfl
        obtain ⟨σ, k1, k2⟩ := hl
        obtain ⟨τ, k3, k4⟩ := hs
        refine ⟨rfl, ⟨⟨M', e2, ⟨_, ⟨?_, ?_, ?_⟩, Sim.forget k2 n1 n2⟩, τ, SRel.forget k3 k4 n3 n4 M', k4⟩, .call (o := .destroy) hlat h2 e1⟩, ?_⟩
        · have := k1.vars
          rw [this]
          rfl
        · intro t e; exact absurd e (by simp)
        · intro t e; exact absurd e (by simp)
        · intro e; exact absurd e (by simp [NameOp.poolAfter])
      · obtain ⟨m1, m2⟩ := e3 ho
        obtain ⟨σ, k1, k2⟩ := hl
        obtain ⟨τ, k3, k4⟩ := hs
        exact ⟨rfl, ⟨⟨M', e2, ⟨σ, k1.mono m1, k2⟩, τ, k3.mono m1, k4⟩, .call hlat h2 e1⟩, fun _ => m2⟩
    · rw [needsPool_eq] at h3
      have := hb (h3 e2)
      rw [e1] at this
      simp at this
  | log o =>
    have := log_spec hg hl o h1
    simp only [step, Spec.nameStep]
    cases ha : logStep w.pool w.log o <;> cases hc : Spec.logStep Log.facilitynames s.1 o <;> rw [ha, hc] at this <;> simp only [ResRel] at this
    · rename_i c d
      obtain ⟨t1, M', t2, t3⟩ := this
      simp only [Res.bind, ResRel]
      obtain ⟨τ, k3, k4⟩ := hs
      refine ⟨by rw [t1], ⟨⟨M', t2.inv, t3, τ, k3.mono t2.sub, k4⟩, Later.trans hlat t2.later⟩, ?_⟩
      have hkeep : b = true → c.1.1.pool.isSome := fun hp => t2.pool (hb hp)
      cases o with
      | file ident name env =>
        cases ident with
        | none => exact hkeep
        | some id =>
          cases name with
          | none => exact hkeep
          | some pat =>
            intro _
            simp only [logStep, logFile] at ha
            by_cases hf : w.log.vars.logFd ≥ 0
            · rw [if_pos hf] at ha; simp at ha
            · rw [if_neg hf] at ha
              simp only [Res.bind_ok_iff, Res.ok.injEq] at ha
              obtain ⟨x, -, y, hy, z, -, hz⟩ := ha
              rw [← hz]
              exact strFind_some (d := y.2) hy
      | stream ident f env =>
        cases ident with
        | none => exact hkeep
        | some id =>
          cases f with
          | none => exact hkeep
          | some f =>
            intro _
            simp only [logStep, logStream] at ha
            by_cases hf : w.log.vars.logUserStream.isSome = true
            · rw [if_pos hf] at ha; simp at ha
            · rw [if_neg hf] at ha
              simp only [Res.bind_ok_iff, Res.ok.injEq] at ha
              obtain ⟨x, hx, hz⟩ := ha
              rw [← hz]
              exact strFind_some (d := x.2) hx
      | _ => exact hkeep
    all_goals exact trivial
  | src o =>
    have := src_spec hg hs o h1
    simp only [step, Spec.nameStep]
    cases ha : srcStep w.pool w.src o <;> cases hc : Spec.srcStep s.2 o <;> rw [ha, hc] at this <;> simp only [ResRel] at this
    · rename_i c d
      obtain ⟨t1, M', t2, t3⟩ := this
      simp only [Res.bind, ResRel]
      obtain ⟨σ, k1, k2⟩ := hl
      refine ⟨by rw [t1], ⟨⟨M', t2.inv, ⟨σ, k1.mono t2.sub, k2⟩, t3⟩, Later.trans hlat t2.later⟩, ?_⟩
      have hkeep : b = true → c.1.1.pool.isSome := fun hp => t2.pool (hb hp)
      cases o with
      | newFile name =>
        intro _
        simp only [srcStep, Res.bind_ok_iff, Res.ok.injEq] at ha
        obtain ⟨x, hx, hz⟩ := ha
        rw [← hz]
        exact strFind_some (d := x.2) hx
      | _ => exact hkeep
    all_goals exact trivial

theorem run_rel {g0 : Global} (hist : List NameOp) : ∀ {w : World} {s : Sinks × Src} {b : Bool}, Rel g0 w s → (b = true → w.pool.pool.isSome) →
    Safe Log.facilitynames b s hist →
    ResRel (fun c d => c.2 = d.2 ∧ Rel g0 c.1 d.1) (Spec.run step w hist) (Spec.run (Spec.nameStep Log.facilitynames) s hist) := by
  induction hist with
  | nil => intro w s b h _ _; exact ⟨rfl, h⟩
  | cons o os ih =>
    intro w s b h hb ⟨h1, h2, h3, h4, h5⟩
    have hstep := step_rel h o hb h1 h2 h3 h4
    simp only [Spec.run]
    cases ha : step w o <;> cases hc : Spec.nameStep Log.facilitynames s o <;> rw [ha, hc] at hstep <;> simp only [ResRel] at hstep
    · rename_i c d
      simp only [okBind]
      refine Spec.ResRel.bind (ih hstep.2.1 hstep.2.2 (h5 d hc)) ?_
      rintro x y ⟨k1, k2⟩
      exact ⟨by rw [hstep.1, k1], k2⟩
    all_goals exact trivial

/-- C84: in any safe history of calls of `str_*`, `log_*` and `src_*`, from any state of the string pool and whatever addresses the allocator chooses, what
the log writes and what the source manager answers is as if the names had been copied at the calls that gave them: what is done to the string pool does not
show.  The string pool is left in a state that permitted calls of `str_*` lead to, so everything said about it (C26 to C29) goes on holding. -/
theorem C84_names (g : Global) (r : GReach g) (hist : List NameOp) (safe : Safe Log.facilitynames g.pool.isSome (Sinks.init, Src.init) hist) :
    Spec.observe (Spec.run step (World.start g) hist) = Spec.observe (Spec.run (Spec.nameStep Log.facilitynames) (Sinks.init, Src.init) hist) ∧
    ∀ w outs, Spec.run step (World.start g) hist = .ok (w, outs) → StrPool.Later g w.pool ∧ GReach w.pool := by
  have h := run_rel hist (b := g.pool.isSome) (Rel.start r) (fun h => h) safe
  refine ⟨h.observe, ?_⟩
  intro w outs e
  rw [e] at h
  cases hc : Spec.run (Spec.nameStep Log.facilitynames) (Sinks.init, Src.init) hist <;> rw [hc] at h <;> simp only [ResRel] at h
  exact ⟨h.2.later, (h.2.later.counter r).1⟩

/-- a string pool that was destroyed leaves no strings -/
theorem destroyed {g g' : Global} {M : Interned} (h : GInv g M) {r : Spec.Ret} (e : StrPool.gstep g .destroy = .ok (g', r)) (p : Nat) :
    nameAt g' p = .ub := by
  have hn : g'.pool = none := by
    simp only [StrPool.gstep, StrPool.strDestroy] at e
    cases hp : g.pool with
    | none =>
      rw [hp] at e
      simp only [okBind, Res.ok.injEq, Prod.mk.injEq] at e
      rw [← e.1, hp]
    | some q =>
      rw [hp] at e
      simp only [Res.bind_ok_iff, Res.ok.injEq, Prod.mk.injEq] at e
      obtain ⟨x, ⟨y, -, e1⟩, e2, -⟩ := e
      rw [← e2, ← e1]
  rcases StrPool.gstep_full h .destroy trivial with ⟨g1, r1, M', e1, e2, -⟩ | ⟨-, e1, -⟩
  · rw [e] at e1
    obtain ⟨rfl, rfl⟩ : g' = g1 ∧ r = r1 := by simpa using e1
    unfold GInv at e2
    rw [hn] at e2
    unfold nameAt
    rw [e2.1.2 p]
  · simp [StrPool.needsPool] at e1

theorem destroy_ok {g : Global} {M : Interned} (h : GInv g M) : ∃ g' r, StrPool.gstep g .destroy = .ok (g', r) := by
  rcases StrPool.gstep_full h .destroy trivial with ⟨g1, r1, M', e1, -⟩ | ⟨-, e1, -⟩
  · exact ⟨g1, r1, e1⟩
  · simp [StrPool.needsPool] at e1

/-- C84 does not hold if `str_destroy` is called, as `maa_shutdown` does, while a log file or a log stream is open: the next message with a full preamble
reads the ident that was freed. -/
theorem C84_log_after_destroy_refuted (g : Global) (r : GReach g) (hist : List NameOp)
    (safe : Safe Log.facilitynames g.pool.isSome (Sinks.init, Src.init) hist) (s : Sinks × Src) (outs : List NameOut)
    (hr : Spec.run (Spec.nameStep Log.facilitynames) (Sinks.init, Src.init) hist = .ok (s, outs)) (hfull : s.1.full = true)
    (hopen : s.1.file ≠ none ∨ s.1.stream ≠ none) (routine : Option (List Byte)) (level : Int) (text : List Byte) (env : Spec.LogEnv) :
    Spec.observe (Spec.run step (World.start g) (hist ++ [.str .destroy, .log (.message routine level text env)])) = .ub := by
  have h := run_rel hist (b := g.pool.isSome) (Rel.start r) (fun h => h) safe
  rw [hr] at h
  cases hw : Spec.run step (World.start g) hist <;> rw [hw] at h <;> simp only [ResRel] at h
  rename_i c
  obtain ⟨-, ⟨M, hg, ⟨σ, k1, k2⟩, -⟩, -⟩ := h
  obtain ⟨g', x, e⟩ := destroy_ok hg
  have hno := destroyed hg e
  have e1 : σ.logFd = c.1.log.vars.logFd := by rw [k1.vars]; rfl
  have e2 : σ.logUserStream = c.1.log.vars.logUserStream := by rw [k1.vars]; rfl
  have e3 : σ.logOpen = c.1.log.vars.logOpen := by rw [k1.vars]; rfl
  have e4 : σ.inhibitFull = c.1.log.vars.inhibitFull := by rw [k1.vars]; rfl
  have hi : c.1.log.vars.inhibitFull = 0 := by
    have := k2.full
    rw [hfull, e4] at this
    simpa using this.symm
  have hcount := k2.count
  rw [e3] at hcount
  have ho : c.1.log.vars.logOpen ≠ 0 := by
    intro h0
    rw [h0] at hcount
    rcases hopen with h | h <;> rw [if_neg h] at hcount <;> split at hcount <;> split at hcount <;> omega
  have hsink : c.1.log.vars.logFd ≥ 0 ∨ c.1.log.vars.logUserStream.isSome = true := by
    rcases hopen with h | h
    · left
      have := k2.file
      cases hF : s.1.file with
      | none => exact absurd hF h
      | some f => obtain ⟨a, b, fd⟩ := f; rw [hF] at this; rw [← e1, this.2.1]; exact this.1
    · right
      rw [← e2, k2.stream]
      cases hF : s.1.stream with
      | none => exact absurd hF h
      | some f => rfl
  rw [Spec.run_append, hw]
  simp only [okBind, Spec.run, step, e, logStep, base]
  rw [if_neg ho, if_pos hsink]
  simp only [preamble]
  rw [if_neg (by simp [hi]), hno]
  rfl

/-- The same for the source manager: after `str_destroy` the file name of a token made before is gone, and so the token cannot be printed. -/
theorem C84_token_after_destroy_refuted (g : Global) (r : GReach g) (hist : List NameOp)
    (safe : Safe Log.facilitynames g.pool.isSome (Sinks.init, Src.init) hist) (s : Sinks × Src) (outs : List NameOut)
    (hr : Spec.run (Spec.nameStep Log.facilitynames) (Sinks.init, Src.init) hist = .ok (s, outs)) (p : Nat) (t : Spec.Token) (f : List Byte) (hp : p ≠ 0)
    (ht : s.2.tokens p = some t) (hf : t.file = some f) (o : Spec.SrcOp)
    (ho : o = .filename p ∨ o = .printLine p ∨ o = .printError true p none ∨ ∃ m, o = .printMessage true p (some m)) :
    Spec.observe (Spec.run step (World.start g) (hist ++ [.str .destroy, .src o])) = .ub := by
  have h := run_rel hist (b := g.pool.isSome) (Rel.start r) (fun h => h) safe
  rw [hr] at h
  cases hw : Spec.run step (World.start g) hist <;> rw [hw] at h <;> simp only [ResRel] at h
  rename_i c
  obtain ⟨-, ⟨M, hg, -, τ, k3, k4⟩, -⟩ := h
  obtain ⟨g', x, e⟩ := destroy_ok hg
  have hno := destroyed hg e
  -- the token
  obtain ⟨i, q, hi, hq⟩ : ∃ i q, c.1.src.toks p = some i ∧ i.file = some q := by
    have h1 := k3.toks p
    have h2 := k4.toks p
    rw [ht] at h2
    cases ha : c.1.src.toks p <;> cases hb : τ.toks p <;> rw [ha, hb] at h1 <;> simp only [ROpt] at h1 <;> rw [hb] at h2
    · simp at h2
    · rename_i i j
      simp only [Option.map_some, Option.some.injEq] at h2
      have hj : j.file = some f := by rw [← hf, ← h2]; rfl
      have h3 := h1.file
      rw [hj] at h3
      cases hq : i.file with
      | none => rw [hq] at h3; exact h3.elim
      | some q => exact ⟨i, q, rfl, hq⟩
  have hlive : ∃ a, c.1.src.lines = some a := by
    cases hl : c.1.src.lines with
    | some a => exact ⟨a, rfl⟩
    | none =>
      have := k4.main
      rw [← k3.lines, hl] at this
      have := this.2 p
      rw [ht] at this
      simp at this
  obtain ⟨a, ha⟩ := hlive
  have hd : Source.deref c.1.src p = .ok (some i) := by unfold Source.deref; rw [if_neg hp, hi]
  have hac : Source.access c.1.src p = .ok (some i) := by unfold Source.access; rw [ha]; exact hd
  have hna : named g' i = .ub := by unfold named; rw [hq]; simp only [hno, Res.bind]
  rw [Spec.run_append, hw]
  simp only [okBind, Spec.run, step, e]
  rcases ho with rfl | rfl | rfl | ⟨m, rfl⟩
  · simp only [srcStep, srcFilename, hac, okBind, hq, hno]; rfl
  · simp only [srcStep, hd, okBind, namedArg, hna]; rfl
  · simp only [srcStep, srcPrintError, message, hd, okBind, namedArg, hna, if_true]; rfl
  · simp only [srcStep, message, hd, okBind, namedArg, hna, if_true]; rfl

/-! ## Histories that meet the hypotheses -/

/-- A system: patterns stand for themselves, descriptor 5, host "h", date "d", process 1. -/
def exSys : Spec.LogEnv := { expand := id, fd := 5, host := [104], date := [100], pid := [49] }

/-- A stream is opened under the name "a", strings are interned and made up, a token is made in file "f" and printed, a message is written; then the stream
is closed. -/
def exHist : List NameOp :=
  [.log (.stream (some [97]) (some 7) exSys), .str (.find [98, 0]), .src (.line [120, 10, 0] 2), .src (.newFile [102]), .str (.unique [97, 0]),
   .src (.get 1), .src (.printLine 1), .log (.message none 6 [109] exSys), .log (.stream none none exSys)]

/-- Such a history is safe from program start. -/
theorem exHist_safe : Safe Log.facilitynames false (Sinks.init, Src.init) exHist := by
  refine ⟨by simp [NameOp.Strings], trivial, by simp [NameOp.needsPool], by simp, ?_⟩
  intro r1 h1
  refine ⟨trivial, by simp [NameOp.Permitted, Spec.GlobalOp.Permitted], by simp [NameOp.needsPool], by simp, ?_⟩
  intro r2 h2
  refine ⟨trivial, trivial, by simp [NameOp.needsPool], by simp, ?_⟩
  intro r3 h3
  refine ⟨by simp [NameOp.Strings], trivial, by simp [NameOp.needsPool], by simp, ?_⟩
  intro r4 h4
  refine ⟨trivial, by simp [NameOp.Permitted, Spec.GlobalOp.Permitted], by simp [NameOp.poolAfter], by simp, ?_⟩
  intro r5 h5
  refine ⟨trivial, trivial, by simp [NameOp.needsPool], by simp, ?_⟩
  intro r6 h6
  refine ⟨trivial, trivial, by simp [NameOp.needsPool], by simp, ?_⟩
  intro r7 h7
  refine ⟨trivial, trivial, by simp [NameOp.needsPool], by simp, ?_⟩
  intro r8 h8
  exact ⟨trivial, trivial, by simp [NameOp.needsPool], by simp, fun _ _ => trivial⟩

/-- What it prints: the token as `f:1: x`, and the message with the ident `a`. -/
example : Spec.observe (Spec.run step (World.start (Global.init Heap.neverAgain Heap.neverAgain)) exHist) =
    .ok [.log [], .str, .src (.str (some [120, 10])), .src .unit, .str, .src (.tok 1), .src (.text [102, 58, 49, 58, 32, 120, 10]),
      .log [.printed 7 (List.replicate 23 32 ++ [100, 32, 104, 32, 97, 91, 49, 93, 58, 32, 109, 10])], .log [.fclosed 7]] := by
  rw [(C84_names _ (GReach.start Heap.neverAgain_ok Heap.neverAgain_ok) exHist exHist_safe).1]
  decide +kernel

/-- The stream closed and nothing said to the source manager, `str_destroy` is safe, and a stream can be opened again. -/
example : Safe Log.facilitynames false (Sinks.init, Src.init)
    [.log (.stream (some [97]) (some 7) exSys), .log .close, .str .destroy, .log (.stream (some [98]) (some 7) exSys), .log (.message none 6 [109] exSys)] := by
  refine ⟨by simp [NameOp.Strings], trivial, by simp [NameOp.needsPool], by simp, ?_⟩
  intro r1 h1
  refine ⟨trivial, trivial, by simp [NameOp.needsPool], by simp, ?_⟩
  intro r2 h2
  refine ⟨trivial, trivial, by simp [NameOp.needsPool], ?_, ?_⟩
  · intro _
    simp only [Spec.nameStep, Spec.logStep, Sinks.init, okBind, Res.ok.injEq, ne_eq, not_true, if_false] at h1
    subst h1
    simp only [Spec.nameStep, Spec.logStep, okBind, Res.ok.injEq] at h2
    subst h2
    exact ⟨rfl, rfl, rfl, fun h t e => by simp [Src.init] at e⟩
  intro r3 h3
  refine ⟨by simp [NameOp.Strings], trivial, by simp [NameOp.needsPool], by simp, ?_⟩
  intro r4 h4
  exact ⟨trivial, trivial, by simp [NameOp.needsPool], by simp, fun _ _ => trivial⟩

/-- The hypotheses of the refutations are met by the same history without its last call: a stream is open, lines have a preamble, token 1 is in file "f". -/
example : ∃ s outs t, Spec.run (Spec.nameStep Log.facilitynames) (Sinks.init, Src.init) exHist.dropLast = .ok (s, outs) ∧ s.1.full = true ∧
    s.1.stream ≠ none ∧ s.2.tokens 1 = some t ∧ t.file = some [102] := by
  refine ⟨_, _, _, rfl, rfl, ?_, rfl, rfl⟩
  intro h
  cases h

end Maa.Names
