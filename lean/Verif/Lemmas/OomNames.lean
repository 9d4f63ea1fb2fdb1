import Verif.Model.OomNames
import Verif.Lemmas.Oom

/-! # Running out of memory: helper lemmas for argument lists, flags and timers -/

namespace Maa.Oom

variable {fails : Fails} {bare : Bool}

theorem argCreate_follows (n : Nat) : Follows fails bare Eq n (argCreate fails n) (.ok Arg.create) := by
  have h : ∀ k, Follows fails bare Eq k (createStrings fails k) (.ok StrMem.create) := fun k => .xreq (.xreq (.ok rfl))
  exact .xreq (.xreq ((h _).pure fun m => .ok rfl))

theorem argAppend_follows (a : Arg.ArgList) (new n : Nat) : Follows fails bare Eq n (argAppend fails a new n) (Arg.append a new) := by
  unfold argAppend
  by_cases h : a.argm ≤ a.argc + 2
  · rw [if_pos h]; exact .xreq (.quiet _)
  · rw [if_neg h]; exact .quiet _

theorem argAdd_follows (h : StrMem.Mem) (a : Arg.ArgList) (b : List Byte) (n : Nat) :
    Follows fails true Eq n (argAdd fails h a b n) (Arg.add h a b) :=
  (strcpy_follows h a.str b n).bind fun r r' m e _ => by
    subst e
    exact (argAppend_follows _ _ m).bind fun x y m e _ => by subst e; exact .ok rfl

theorem argAddn_follows (h : StrMem.Mem) (a : Arg.ArgList) (b : List Byte) (k n : Nat) :
    Follows fails true Eq n (argAddn fails h a b k n) (Arg.addn h a b k) :=
  (strncpy_follows h a.str b k n).bind fun r r' m e _ => by
    subst e
    exact (argAppend_follows _ _ m).bind fun x y m e _ => by subst e; exact .ok rfl

theorem argGrow_follows (h : StrMem.Mem) (a : Arg.ArgList) (b : List Byte) (k n : Nat) :
    Follows fails true Eq n (argGrow fails h a b k n) (Arg.grow h a b k) :=
  (grow_follows h a.str b k n).bind fun r r' m e _ => by subst e; exact .ok rfl

theorem argFinish_follows (h : StrMem.Mem) (a : Arg.ArgList) (n : Nat) :
    Follows fails true Eq n (argFinish fails h a n) (Arg.finish h a) :=
  (finish_follows h a.str n).bind fun r r' m e _ => by
    subst e
    exact (argAppend_follows _ _ m).bind fun x y m e _ => by subst e; exact .ok rfl

theorem arg_follows : StepFollows fails true Eq (argStep fails) Arg.step := by
  rintro ⟨h, a⟩ _ n o rfl
  cases o with
  | strcpy b => exact out_unit () (argAdd_follows h a b n)
  | strncpy b k => exact out_unit () (argAddn_follows h a b k n)
  | grow b k => exact out_unit () (argGrow_follows h a b k n)
  | finish => exact out_unit () (argFinish_follows h a n)

theorem argAct_follows (string : List Byte) (pt : Nat) (last : Option Nat) (σ : StrMem.Mem × Arg.ArgList) (n : Nat) (x : Arg.Act) :
    Follows fails true Eq n (argAct fails string pt last σ n x) (Arg.act string pt last σ x) := by
  cases x with
  | incl => exact .ok rfl
  | skip =>
    cases last with
    | none => exact .ok rfl
    | some l => exact (argGrow_follows _ _ _ _ n).bind fun r r' m e _ => by subst e; exact .ok rfl
  | finish =>
    cases last with
    | none => exact .ok rfl
    | some l =>
      refine (argGrow_follows _ _ _ _ n).bind fun r r' m e _ => ?_
      subst e
      exact (argFinish_follows _ _ m).bind fun q q' m e _ => by subst e; exact .ok rfl

theorem argLoop_follows (q : Nat) (string : List Byte) (rest : List Byte) : ∀ (pt : Nat) (st : Arg.St) (last : Option Nat)
    (σ : StrMem.Mem × Arg.ArgList) (n : Nat),
    Follows fails true Eq n (argLoop fails q string rest pt st last σ n) (Arg.loop q string rest pt st last σ) := by
  induction rest with
  | nil => intro pt st last σ n; exact .ub
  | cons ch rest ih =>
    intro pt st last σ n
    rw [argLoop, Arg.loop]
    refine (argAct_follows _ _ _ _ n _).bind fun r r' m e _ => ?_
    subst e
    cases (Arg.table st (Arg.charType q ch)).2 with
    | st s =>
      show Follows fails true Eq m (if ch ≠ 0 then _ else _) (if ch ≠ 0 then _ else _)
      by_cases hc : ch ≠ 0
      · rw [if_pos hc, if_pos hc]; exact ih _ _ _ _ m
      · rw [if_neg hc, if_neg hc]; exact .abort
    | exit => exact .ok rfl
    | error => exact .ok rfl

theorem argify_follows (h : StrMem.Mem) (string : List Byte) (q n : Nat) :
    Follows fails true Eq n (argify fails h string q n) (Arg.argify h string q) :=
  (argCreate_follows n).pure fun m => argLoop_follows q string string 0 .spaces none (h, Arg.create) m

theorem nameTable_follows (hash : Option NameTab.Table) (n : Nat) :
    Follows fails bare Eq n (nameTable fails hash n) (match hash with | some t => .ok t | none => NameTab.create) := by
  cases hash with
  | some t => exact .ok rfl
  | none => exact (create_follows 0 n).bind fun r r' m e _ => by subst e; exact .ok rfl

theorem nameInsert_follows (t : NameTab.Table) (name : Option (List Byte)) (d n : Nat) :
    Follows fails bare Eq n (nameInsert fails t name d n) (NameTab.insert t name d) :=
  .same fun k _ => insert_follows _ _ _ k d n

theorem flgRegister_follows (σ : Flags.State) (f : BitVec 64) (name : Option (List Byte)) (n : Nat) :
    Follows fails bare Eq n (flgRegister fails σ f name n) (Flags.flgRegister σ f name) := by
  unfold flgRegister Flags.flgRegister
  simp only
  by_cases h1 : Flags.strip 64 (f &&& 0x3fffffff) = 0 ∨ Flags.strip 64 (f &&& 0x3fffffff) >>> 1 ≠ 0
  · rw [if_pos h1, if_pos h1]; exact .fatal
  · rw [if_neg h1, if_neg h1]
    refine (nameTable_follows σ.hash n).bind fun t t' m e _ => ?_
    subst e
    by_cases h2 : Flags.flgExists σ f ≠ 0
    · rw [if_pos h2, if_pos h2]; exact .fatal
    · rw [if_neg h2, if_neg h2]
      exact (nameInsert_follows t name _ m).bind fun r r' m e _ => by subst e; exact .ok rfl

theorem dbgRegisterInternal_follows (σ : Flags.State) (f : BitVec 64) (name : Option (List Byte)) (n : Nat) :
    Follows fails bare Eq n (dbgRegisterInternal fails σ f name n) (Flags.dbgRegisterInternal σ f name) := by
  unfold dbgRegisterInternal Flags.dbgRegisterInternal
  simp only
  by_cases h1 : Flags.strip 64 (f &&& 0x3fffffff) = 0 ∨ Flags.strip 64 (f &&& 0x3fffffff) >>> 1 ≠ 0
  · rw [if_pos h1, if_pos h1]; exact .fatal
  · rw [if_neg h1, if_neg h1]
    refine (nameTable_follows σ.hash n).bind fun t t' m e _ => ?_
    subst e
    by_cases h2 : Flags.dbgExists σ f ≠ 0
    · rw [if_pos h2, if_pos h2]; exact .fatal
    · rw [if_neg h2, if_neg h2]
      exact (nameInsert_follows t name _ m).bind fun r r' m e _ => by subst e; exact .ok rfl

theorem dbgRegister_follows (σ : Flags.State) (f : BitVec 64) (name : Option (List Byte)) (n : Nat) :
    Follows fails bare Eq n (dbgRegister fails σ f name n) (Flags.dbgRegister σ f name) := by
  unfold dbgRegister Flags.dbgRegister
  by_cases h : f &&& 0xc0000000 = 0xc0000000
  · rw [if_pos h, if_pos h]; exact .fatal
  · rw [if_neg h, if_neg h]; exact dbgRegisterInternal_follows σ f name n

theorem flg_follows : StepFollows fails false Eq (flgStep fails) Flags.flgStep := by
  rintro σ _ n o rfl
  cases o with
  | register f name => exact out_unit false (flgRegister_follows σ f _ n)
  | set name => exact out_quiet _ n
  | test f => exact out_quiet _ n
  | destroy => exact out_quiet _ n

theorem dbg_follows : StepFollows fails false Eq (dbgStep fails) Flags.dbgStep := by
  rintro σ _ n o rfl
  cases o with
  | register f name => exact out_unit false (dbgRegister_follows σ f _ n)
  | registerInternal f name => exact out_unit false (dbgRegisterInternal_follows σ f _ n)
  | set name => exact out_quiet _ n
  | setFlag f => exact out_quiet _ n
  | unsetFlag f => exact out_quiet _ n
  | test f => exact out_quiet _ n
  | destroy => exact out_quiet _ n

theorem timStart_follows (σ : Timer.State) (name : Option (List Byte)) (r : Spec.Reading) (n : Nat) :
    Follows fails bare Eq n (timStart fails σ name r n) (Timer.timStart σ name r) := by
  unfold timStart Timer.timStart
  refine (nameTable_follows σ.hash n).bind (g := fun t => (NameTab.retrieve t name).bind _) fun t t' m e _ => ?_
  subst e
  refine .same fun q _ => ?_
  by_cases h : q.2 = 0
  · rw [if_pos h, if_pos h]
    exact .xreq ((nameInsert_follows q.1 name _ _).bind fun r r' m e _ => by subst e; exact .ok rfl)
  · rw [if_neg h, if_neg h]; exact .quiet _

/-- With or without the table made before. -/
theorem lookup_table (σ : Timer.State) (name : Option (List Byte)) :
    Timer.lookup σ name = (Timer.check σ).bind fun t =>
      Timer.lookup { σ with hash := some t } name := by
  unfold Timer.lookup Timer.check
  cases σ.hash <;> rfl

theorem bind_assoc' {α β γ : Type} (x : Res α) (f : α → Res β) (g : β → Res γ) : (x.bind f).bind g = x.bind fun a => (f a).bind g := by
  cases x <;> rfl

theorem step_table (σ : Timer.State) (o : Spec.TimOp) (h1 : o ≠ .shutdown) (h2 : ∀ n r, o ≠ .start n r) :
    Timer.step σ o = (Timer.check σ).bind fun t =>
      Timer.step { σ with hash := some t } o := by
  cases o with
  | start n r => exact absurd rfl (h2 n r)
  | shutdown => exact absurd rfl h1
  | stop n r => simp only [Timer.step, Timer.timStop]; rw [lookup_table]; simp only [bind_assoc']
  | reset n => simp only [Timer.step, Timer.timReset]; rw [lookup_table]; simp only [bind_assoc']
  | getReal n => simp only [Timer.step, Timer.timGetReal]; rw [lookup_table]; simp only [bind_assoc']
  | getUser n => simp only [Timer.step, Timer.timGetUser]; rw [lookup_table]; simp only [bind_assoc']
  | getSystem n => simp only [Timer.step, Timer.timGetSystem]; rw [lookup_table]; simp only [bind_assoc']

theorem timRest_follows (σ : Timer.State) (n : Nat) (o : Spec.TimOp) (h1 : o ≠ .shutdown) (h2 : ∀ n r, o ≠ .start n r) :
    ∃ x : Res ((Timer.State × Int) × Nat), timRest fails (σ, n) o = out x ∧
      Follows fails bare (fun a b => a.1 = b.1 ∧ a.2 = b.2) n x (Timer.step σ o) := by
  refine ⟨(nameTable fails σ.hash n).bind fun t => quiet (Timer.step { σ with hash := some t.1 } o) t.2, ?_, ?_⟩
  · show (nameTable fails σ.hash n).bind _ = _
    cases nameTable fails σ.hash n <;> rfl
  · rw [step_table σ o h1 h2]
    refine (nameTable_follows σ.hash n).bind fun t t' m e _ => ?_
    subst e
    cases Timer.step { σ with hash := some t } o with
    | ok a => exact .ok ⟨rfl, rfl⟩
    | abort => exact .abort
    | fatal => exact .fatal
    | ub => exact .ub

theorem tim_follows : StepFollows fails false Eq (timStep fails) Timer.step := by
  rintro σ _ n o rfl
  cases o with
  | start name r => exact out_unit 0 (timStart_follows σ _ r n)
  | shutdown => exact out_quiet _ n
  | stop name r => exact timRest_follows σ n _ (by simp) (by simp)
  | reset name => exact timRest_follows σ n _ (by simp) (by simp)
  | getReal name => exact timRest_follows σ n _ (by simp) (by simp)
  | getUser name => exact timRest_follows σ n _ (by simp) (by simp)
  | getSystem name => exact timRest_follows σ n _ (by simp) (by simp)

end Maa.Oom
