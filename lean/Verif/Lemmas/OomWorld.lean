import Verif.Model.OomWorld
import Verif.Lemmas.OomNames

/-! # Running out of memory: helper lemmas for the global string pool, the log, the source manager, child processes, maa_init -/

namespace Maa.Oom

open Spec (NameOp NameOut LogEvent LogEnv SrcVal PrFlags PrEnv PrOut Ended)
open StrPool (Global)
open Names (LogVars World)

variable {fails : Fails} {bare : Bool}

/-! ## The global string pool -/

theorem checkGlobal_follows (g : Global) (n : Nat) : Follows fails bare Eq n (checkGlobal fails g n) (StrPool.checkGlobal g) := by
  unfold checkGlobal StrPool.checkGlobal
  cases g.pool with
  | some p => exact .ok rfl
  | none => exact (poolCreate_follows _ _ n).bind fun a b m e _ => by subst e; exact .ok rfl

theorem withGlobal_follows {α : Type} (g : Global) {f : StrPool.Pool → Nat → Res ((StrPool.Pool × α) × Nat)} {f' : StrPool.Pool → Res (StrPool.Pool × α)}
    (h : ∀ p n, Follows fails bare Eq n (f p n) (f' p)) (n : Nat) : Follows fails bare Eq n (withGlobal g f n) (StrPool.withGlobal g f') := by
  unfold withGlobal StrPool.withGlobal
  cases g.pool with
  | none => exact .ub
  | some p => exact (h _ n).bind fun a b m e _ => by subst e; exact .ok rfl

theorem strFind_follows (g : Global) (s : List Byte) (n : Nat) : Follows fails true Eq n (strFind fails g s n) (StrPool.strFind g s) :=
  (checkGlobal_follows g n).bind fun a b m e _ => by subst e; exact withGlobal_follows a (fun p n => find_follows p s n) m

theorem global_follows : StepFollows fails true Eq (globalStep fails) StrPool.gstep := by
  rintro g _ n o rfl
  cases o with
  | exists_ s => exact out_quiet _ n
  | find b => exact out_val (fun v : Nat => Spec.Ret.ptr v) (strFind_follows g b n)
  | findn b k =>
    refine out_val (fun v : Nat => Spec.Ret.ptr v) ((checkGlobal_follows g n).bind fun a b' m e _ => ?_)
    subst e
    exact .same fun t _ => withGlobal_follows a (fun p n => find_follows p _ n) m
  | copy b =>
    refine out_val (fun v : Nat => Spec.Ret.ptr v) ((checkGlobal_follows g n).bind fun a b' m e _ => ?_)
    subst e
    exact withGlobal_follows a (fun p n => copy_follows p _ n) m
  | copyn b k => exact out_val (fun v : Nat => Spec.Ret.ptr v) (withGlobal_follows g (fun p n => copyn_follows p _ _ n) n)
  | grow b k =>
    refine out_val (fun _ : Unit => Spec.Ret.int 0) ((checkGlobal_follows g n).bind fun a b' m e _ => ?_)
    subst e
    exact withGlobal_follows a (fun p n => (poolGrow_follows p _ _ n).bind fun a b m e _ => by subst e; exact .ok rfl) m
  | finish =>
    refine out_val (fun v : Nat => Spec.Ret.ptr v) ((checkGlobal_follows g n).bind fun a b' m e _ => ?_)
    subst e
    exact withGlobal_follows a (fun p n => poolFinish_follows p n) m
  | unique b =>
    exact out_val (fun v : Nat => Spec.Ret.ptr v) (.same fun t _ => .same fun r _ => strFind_follows _ _ n)
  | destroy => exact out_quiet _ n

/-! ## log.c -/

theorem logCheck_follows (σ : Log.State) (env : LogEnv) (n : Nat) : Follows fails bare Eq n (logCheck fails σ env n) (Log.checkFilename σ env) := by
  unfold logCheck
  split
  · rename_i filename x orig h1 h2 h3
    by_cases hl : σ.logFilenameLen = 0
    · rw [if_pos hl]
      have : Log.checkFilename σ env = .ok (σ, []) := by simp only [Log.checkFilename, h1, h2, h3, if_pos hl]
      rw [this]; exact .ok rfl
    · rw [if_neg hl]
      by_cases hs : σ.logFilenameLen < (env.expand orig).length + 1
      · rw [if_pos hs]
        have : Log.checkFilename σ env = .ub := by simp only [Log.checkFilename, h1, h2, h3, if_neg hl, if_pos hs]
        rw [this]; exact .ub
      · rw [if_neg hs]
        by_cases hd : env.expand orig ≠ filename
        · rw [if_pos hd]; exact .xreq (.quiet _)
        · rw [if_neg hd]; exact .quiet _
  · exact .quiet _

theorem checkFilename_follows (g : Global) (s : LogVars) (env : LogEnv) (n : Nat) :
    Follows fails bare Eq n (checkFilename fails g s env n) (Names.checkFilename g s env) := by
  unfold checkFilename Names.checkFilename
  cases s.vars.logFilename with
  | none => exact .ok rfl
  | some a =>
    cases s.vars.logFilenameTmp with
    | none => exact .ok rfl
    | some b =>
      by_cases hl : s.vars.logFilenameLen = 0
      · simp only [if_pos hl]; exact .ok rfl
      · simp only [if_neg hl]
        exact .same fun orig _ => (logCheck_follows _ env n).bind fun a b m e _ => by subst e; exact .ok rfl

theorem logFile_follows (g : Global) (s : LogVars) (ident filename : Option (List Byte)) (env : LogEnv) (n : Nat) :
    Follows fails true Eq n (logFile fails g s ident filename env n) (Names.logFile g s ident filename env) := by
  cases ident with
  | none => exact .quiet _
  | some ident =>
    cases filename with
    | none => exact .quiet _
    | some filename =>
      unfold logFile Names.logFile
      by_cases hf : s.vars.logFd ≥ 0
      · simp only [if_pos hf]; exact .abort
      · simp only [if_neg hf]
        refine (strFind_follows g _ n).bind fun a b m e _ => ?_
        subst e
        refine (strFind_follows a.1 _ m).bind fun a' b' m e _ => ?_
        subst e
        exact .xreq (.xreq ((checkFilename_follows _ _ env _).bind fun a b m e _ => by subst e; exact .ok rfl))

theorem logStream_follows (g : Global) (s : LogVars) (ident : Option (List Byte)) (stream : Option Nat) (env : LogEnv) (n : Nat) :
    Follows fails true Eq n (logStream fails g s ident stream env n) (Names.logStream g s ident stream env) := by
  cases ident with
  | none => exact .quiet _
  | some ident =>
    cases stream with
    | none => exact .quiet _
    | some f =>
      unfold logStream Names.logStream
      by_cases hf : s.vars.logUserStream.isSome = true
      · simp only [if_pos hf]; exact .abort
      · simp only [if_neg hf]
        exact (strFind_follows g _ n).bind fun a b m e _ => by subst e; exact .ok rfl

theorem logBase_follows (g : Global) (s : LogVars) (routine : Option (List Byte)) (level : Int) (text : List Byte) (env : LogEnv) (n : Nat) :
    Follows fails bare Eq n (logBase fails g s routine level text env n) (Names.base g s routine level text env) := by
  unfold logBase Names.base
  by_cases h0 : s.vars.logOpen = 0
  · rw [if_pos h0, if_pos h0]; exact .ok rfl
  rw [if_neg h0, if_neg h0]
  refine Follows.bind (R := Eq) ?_ fun a b m e _ => ?_
  · by_cases h1 : s.vars.logFd ≥ 0 ∨ s.vars.logUserStream.isSome = true
    · rw [if_pos h1, if_pos h1]
      refine .same fun pre _ => Follows.bind (R := Eq) ?_ fun a b m e _ => ?_
      · by_cases h2 : s.vars.logFd ≥ 0
        · rw [if_pos h2, if_pos h2]
          exact (checkFilename_follows g s env n).bind fun a b m e _ => by subst e; exact .ok rfl
        · rw [if_neg h2, if_neg h2]; exact .ok rfl
      · subst e
        cases s.vars.logUserStream with
        | none => exact .ok rfl
        | some f =>
          by_cases h3 : f = Spec.stdout ∨ f = Spec.stderr
          · simp only [if_pos h3]; exact .ok rfl
          · simp only [if_neg h3]; exact .ok rfl
    · rw [if_neg h1, if_neg h1]; exact .ok rfl
  · subst e
    by_cases h3 : a.1.vars.logSyslog ≠ 0
    · simp only [if_pos h3]; exact .ok rfl
    · simp only [if_neg h3]; exact .ok rfl

theorem logStep_follows (g : Global) (s : LogVars) (n : Nat) (o : Spec.LogOp) :
    Follows fails true Eq n (logStep fails g s n o) (Names.logStep g s o) := by
  cases o with
  | file ident name env => exact logFile_follows g s ident name env n
  | stream ident f env => exact logStream_follows g s ident f env n
  | message routine level text env =>
    exact (logBase_follows g s routine level text env n).bind fun a b m e _ => by subst e; exact .ok rfl
  | syslog ident => exact .quiet _
  | close => exact .quiet _
  | option o => exact .quiet _
  | facility name => exact .quiet _

/-! ## source.c -/

variable {F : Type}

theorem srcCreate_follows (σ : Source.StateOf F) (n : Nat) : Follows fails bare Eq n (srcCreate fails σ n) (Source.srcCreate σ) := by
  unfold srcCreate
  split
  · rename_i h
    have : Source.srcCreate σ = .fatal := by simp only [Source.srcCreate, h]
    rw [this]; exact .fatal
  · refine .xreq ?_
    have h1 : ∀ k, Follows fails bare Eq k (createStrings fails k) (.ok StrMem.create) := fun k => .xreq (.xreq (.ok rfl))
    exact (h1 _).pure fun k => (createObjects_follows 24 k).pure fun k => .quiet _

theorem srcEnsure_follows (σ : Source.StateOf F) (n : Nat) : Follows fails bare Eq n (srcEnsure fails σ n) (Source.ensure σ) := by
  unfold srcEnsure Source.ensure
  cases σ.lines with
  | none => exact srcCreate_follows σ n
  | some a => exact .ok rfl

theorem srcLine_follows (σ : Source.StateOf F) (buf : List Byte) (len n : Nat) :
    Follows fails true Eq n (srcLine fails σ buf len n) (Source.srcLine σ buf len) := by
  refine (srcEnsure_follows σ n).bind fun σ b m e _ => ?_
  subst e
  refine .xreq (.same fun s _ => .bareReq (.same fun s _ => .same fun a _ => ?_))
  by_cases h : σ.used + 1 ≥ σ.count
  · simp only [if_pos h]; exact .xreq (.same fun r _ => .ok rfl)
  · simp only [if_neg h]; exact .same fun r _ => .ok rfl

theorem srcGet_follows (σ : Source.StateOf F) (k : Int) (n : Nat) : Follows fails true Eq n (srcGet fails σ k n) (Source.srcGet σ k) := by
  unfold srcGet
  split
  · rename_i h
    have : Source.srcGet σ k = .fatal := by simp only [Source.srcGet, h]
    rw [this]; exact .fatal
  · exact .xreq (.bareReq (.quiet _))

theorem srcStats_follows (σ : Source.StateOf F) (n : Nat) : Follows fails bare Eq n (srcStats fails σ n) (.ok (Source.srcStats σ)) := by
  unfold srcStats
  refine .xreq ?_
  split
  · exact .xreq (.xreq (.ok rfl))
  · exact .ok rfl

theorem srcStep_follows (g : Global) (σ : Source.StateOf Ptr) (n : Nat) (o : Spec.SrcOp) :
    Follows fails true Eq n (srcStep fails g σ n o) (Names.srcStep g σ o) := by
  cases o with
  | create => exact (srcCreate_follows σ n).bind fun a b m e _ => by subst e; exact .ok rfl
  | line buf len => exact (srcLine_follows σ buf len n).bind fun a b m e _ => by subst e; exact .ok rfl
  | newFile name => exact (strFind_follows g _ n).bind fun a b m e _ => by subst e; exact .ok rfl
  | get k => exact (srcGet_follows σ k n).bind fun a b m e _ => by subst e; exact .ok rfl
  | stats => exact (srcStats_follows σ n).pure fun m => .ok rfl
  | _ => exact .quiet _

theorem world_follows : StepFollows fails true Eq (worldStep fails) Names.step := by
  rintro w _ n o rfl
  cases o with
  | str o =>
    obtain ⟨x, hx, hf⟩ := global_follows (fails := fails) w.pool w.pool n o rfl
    refine ⟨x.bind fun r => .ok (({ w with pool := r.1.1 }, .str), r.2), ?_, hf.bind fun a b m e _ => .ok ⟨by rw [e.1], rfl⟩⟩
    show (globalStep fails (w.pool, n) o).bind _ = _
    rw [hx]
    cases x <;> rfl
  | log o =>
    refine ⟨(logStep fails w.pool w.log n o).bind fun r => .ok (({ w with pool := r.1.1.1, log := r.1.1.2 }, .log r.1.2), r.2), ?_,
      (logStep_follows w.pool w.log n o).bind fun a b m e _ => .ok ⟨by rw [e], by rw [e]⟩⟩
    show (logStep fails w.pool w.log n o).bind _ = _
    cases logStep fails w.pool w.log n o <;> rfl
  | src o =>
    refine ⟨(srcStep fails w.pool w.src n o).bind fun r => .ok (({ w with pool := r.1.1.1, src := r.1.1.2 }, .src r.1.2), r.2), ?_,
      (srcStep_follows w.pool w.src n o).bind fun a b m e _ => .ok ⟨by rw [e], by rw [e]⟩⟩
    show (srcStep fails w.pool w.src n o).bind _ = _
    cases srcStep fails w.pool w.src n o <;> rfl

/-! ## pr.c -/

theorem prInit_follows (σ : Pr.State) (n : Nat) : Follows fails bare Eq n (prInit fails σ n) (.ok (Pr.prInit σ)) := by
  unfold prInit
  split
  · exact .xreq (.ok rfl)
  · exact .ok rfl

theorem prInit_twice (σ : Pr.State) : Pr.prInit (Pr.prInit σ) = Pr.prInit σ := by
  obtain ⟨m, o⟩ := σ
  cases o <;> rfl

theorem openCommand_follows (h : StrMem.Mem) (σ : Pr.State) (command : List Byte) (flags : PrFlags) (infd outfd errfd : Option Int) (env : PrEnv) (n : Nat) :
    Follows fails true Eq n (openCommand fails h σ command flags infd outfd errfd env n) (PrExec.openCommand h σ command flags infd outfd errfd env) := by
  unfold openCommand PrExec.openCommand
  refine (prInit_follows σ n).pure fun m => ?_
  by_cases hb : Pr.badFlags flags = true
  · simp only [if_pos hb]; exact .abort
  · simp only [if_neg hb]
    refine (argify_follows h command 0 m).bind fun a b m e _ => ?_
    subst e
    have : Pr.prOpen (Pr.prInit σ) flags infd outfd errfd env = Pr.prOpen σ flags infd outfd errfd env := by
      simp only [Pr.prOpen, prInit_twice]
    rw [this]
    exact .quiet _

theorem spawnCommand_follows (h : StrMem.Mem) (σ : Pr.State) (command : List Byte) (pid : Option Nat) (k : Nat) (programs : PrExec.Exec → Option Ended)
    (n : Nat) : Follows fails true Eq n (spawnCommand fails h σ command pid k programs n) (PrExec.spawnCommand h σ command pid k programs) := by
  unfold spawnCommand PrExec.spawnCommand
  refine (prInit_follows σ n).pure fun m => (argify_follows h command 0 m).bind fun a b m e _ => ?_
  subst e
  cases pid with
  | none => exact .fatal
  | some p =>
    have : ∀ w, Pr.prSpawn (Pr.prInit σ) (some p) k w = Pr.prSpawn σ (some p) k w := fun w => by
      simp only [Pr.prSpawn, prInit_twice]
    simp only [this]
    exact .quiet _

/-! ## maa.c -/

theorem registerAll_follows (bs : List (BitVec 64 × List Byte)) : ∀ (σ : Flags.State) (n : Nat),
    Follows fails bare Eq n (registerAll fails bs σ n) (Lib.registerAll bs σ) := by
  induction bs with
  | nil => intro σ n; exact .ok rfl
  | cons b bs ih =>
    intro σ n
    exact (dbgRegisterInternal_follows σ b.1 _ n).bind fun a c m e _ => by subst e; exact ih a m

theorem maaInit_follows (w : Lib.World) (name : Option (List Byte)) (r : Spec.Reading) (n : Nat) :
    Follows fails bare Eq n (maaInit fails w name r n) (Lib.maaInit w name r) := by
  refine (timStart_follows w.tim _ r n).bind fun a b m e _ => ?_
  subst e
  refine .same fun prog _ => ?_
  exact (registerAll_follows _ _ m).bind fun a c m e _ => by subst e; exact .ok rfl

end Maa.Oom
