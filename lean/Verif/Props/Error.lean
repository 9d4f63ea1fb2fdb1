import Verif.Model.Error
import Verif.Props.Log

/-! # C51, C62: program name and error reports -/

namespace Maa.Err

open Spec (LogEvent LogEnv Ending)

theorem strrchr_eq (s : List Byte) (rest : List Byte) (hs : (0 : Byte) ∉ s) : ∀ (i : Nat) (found : Option Nat),
    ∃ r, strrchr 47 (s ++ 0 :: rest) i found = .ok r ∧
      ((r = found ∧ (47 : Byte) ∉ s) ∨ ∃ k dir q, r = some k ∧ s = dir ++ 47 :: q ∧ (47 : Byte) ∉ q ∧ k = i + dir.length) := by
  induction s with
  | nil =>
    intro i found
    exact ⟨found, by simp [strrchr], Or.inl ⟨rfl, by simp⟩⟩
  | cons b s ih =>
    intro i found
    have hb : b ≠ 0 := fun h => hs (by simp [h])
    have hs' : (0 : Byte) ∉ s := fun h => hs (List.mem_cons_of_mem _ h)
    obtain ⟨r, e, h⟩ := ih hs' (i + 1) (if b = 47 then some i else found)
    refine ⟨r, ?_, ?_⟩
    · simp only [List.cons_append, strrchr, if_neg hb]
      exact e
    · rcases h with ⟨h1, h2⟩ | ⟨k, dir, q, h1, h2, h3, h4⟩
      · by_cases hc : b = 47
        · right
          refine ⟨i, [], s, by rw [h1, if_pos hc], by simp [hc], h2, by simp⟩
        · left
          refine ⟨by rw [h1, if_neg hc], ?_⟩
          intro hm
          rcases List.mem_cons.1 hm with h | h
          · exact hc h.symm
          · exact h2 h
      · right
        exact ⟨k, b :: dir, q, h1, by simp [h2], h3, by simp only [List.length_cons]; omega⟩

/-- C51: the program name is the last component of the path it was set to. -/
theorem C51_basename (p rest : List Byte) (h : (0 : Byte) ∉ p) :
    ∃ prog q, setProgramName (some (p ++ 0 :: rest)) = .ok prog ∧ programName prog = some (q ++ 0 :: rest) ∧
      Spec.IsBasename p q := by
  obtain ⟨r, e, hr⟩ := strrchr_eq p rest h 0 none
  unfold setProgramName
  simp only [e, Log.okBind]
  rcases hr with ⟨h1, h2⟩ | ⟨k, dir, q, h1, h2, h3, h4⟩
  · subst h1
    exact ⟨_, p, rfl, rfl, h2, Or.inl rfl⟩
  · subst h1
    refine ⟨_, q, rfl, ?_, h3, Or.inr ⟨dir, h2⟩⟩
    have : k + 1 = (dir ++ [47]).length := by simp [h4]
    simp only [programName, this, h2, List.append_assoc, List.cons_append, Option.some.injEq]
    rw [show dir ++ 47 :: (q ++ 0 :: rest) = (dir ++ [47]) ++ (q ++ 0 :: rest) by simp, List.drop_left]

/-- C51: the last component is unique. -/
theorem C51_unique (p q q' : List Byte) (h : Spec.IsBasename p q) (h' : Spec.IsBasename p q') : q = q' := by
  have key : ∀ (d d' q q' : List Byte), (47 : Byte) ∉ q → (47 : Byte) ∉ q' → d ++ 47 :: q = d' ++ 47 :: q' → q = q' := by
    intro d
    induction d with
    | nil =>
      intro d' q q' hq hq' e
      cases d' with
      | nil => simpa using e
      | cons b d' =>
        simp only [List.nil_append, List.cons_append, List.cons.injEq] at e
        exact absurd (by simp [e.2]) hq
    | cons a d ih =>
      intro d' q q' hq hq' e
      cases d' with
      | nil =>
        simp only [List.nil_append, List.cons_append, List.cons.injEq] at e
        exact absurd (by simp [← e.2]) hq'
      | cons b d' =>
        simp only [List.cons_append, List.cons.injEq] at e
        exact ih d' q q' hq hq' e.2
  obtain ⟨h1, h2⟩ := h
  obtain ⟨h1', h2'⟩ := h'
  rcases h2 with rfl | ⟨d, rfl⟩
  · rcases h2' with h | ⟨d', rfl⟩
    · exact h
    · exact absurd (by simp) h1
  · rcases h2' with h | ⟨d', h⟩
    · exact absurd (by simp [← h]) h1'
    · exact key d d' q q' h1 h1' h

/-- C51: a NULL name is kept as NULL. -/
theorem C51_null : ∃ prog, setProgramName none = .ok prog ∧ programName prog = none := ⟨none, rfl, rfl⟩

/-- "/a/bc" gives "bc"; "x/" gives "". -/
example : setProgramName (some [47, 97, 47, 98, 99, 0]) = .ok (some [98, 99, 0]) ∧
    setProgramName (some [120, 47, 0]) = .ok (some [0]) := ⟨rfl, rfl⟩

theorem opening_stderr (prog routine : Option (List Byte)) : Spec.onlyStderr (opening prog routine) = some (Spec.who prog routine) := by
  cases prog <;> cases routine <;> simp [opening, Spec.onlyStderr, put, Spec.who]

theorem onlyStderr_append : ∀ {a b : List LogEvent} {x y : List Byte}, Spec.onlyStderr a = some x → Spec.onlyStderr b = some y →
    Spec.onlyStderr (a ++ b) = some (x ++ y) := by
  intro a
  induction a with
  | nil =>
    intro b x y h1 h2
    simp only [Spec.onlyStderr, Option.some.injEq] at h1
    simp [← h1, h2]
  | cons e a ih =>
    intro b x y h1 h2
    cases e with
    | printed s c =>
      simp only [Spec.onlyStderr] at h1
      by_cases hs : s = Spec.stderr
      · rw [if_pos hs] at h1
        cases h3 : Spec.onlyStderr a with
        | none => simp [h3] at h1
        | some z =>
          rw [h3] at h1
          simp only [Option.map_some, Option.some.injEq] at h1
          simp only [List.cons_append, Spec.onlyStderr, if_pos hs, ih h3 h2, Option.map_some, ← h1, List.append_assoc]
      · rw [if_neg hs] at h1
        simp at h1
    | _ => simp [Spec.onlyStderr] at h1

theorem put_stderr (s : List Byte) : Spec.onlyStderr [put s] = some s := by simp [Spec.onlyStderr, put]

theorem puts_stderr (s t : List Byte) : Spec.onlyStderr [put s, put t] = some (s ++ t) := by simp [Spec.onlyStderr, put]

/-- A program name as `err_set_program_name` leaves it: NULL or a string. -/
def Holds (prog : Prog) (p : Option (List Byte)) : Prop :=
  match prog, p with
  | none, none => True
  | some b, some s => (0 : Byte) ∉ s ∧ ∃ rest, b = s ++ 0 :: rest
  | _, _ => False

theorem cstr_holds (s rest : List Byte) (h : (0 : Byte) ∉ s) : CStr.cstr (s ++ 0 :: rest) = .ok s := by
  induction s with
  | nil => simp [CStr.cstr]
  | cons b s ih =>
    have hb : b ≠ 0 := fun h' => h (by simp [h'])
    simp [CStr.cstr, hb, ih (fun h' => h (List.mem_cons_of_mem _ h')), Res.bind]

theorem progStr_eq {prog : Prog} {p : Option (List Byte)} (h : Holds prog p) : progStr prog = .ok p := by
  cases prog <;> cases p <;> simp only [Holds] at h
  · rfl
  · obtain ⟨h0, rest, rfl⟩ := h
    simp [progStr, cstr_holds _ rest h0, Res.bind]

/-- C62: `err_warning` prints who and what, logs the message, and returns. -/
theorem C62_warning (prog : Prog) (p : Option (List Byte)) (hp : Holds prog p) (σ σ' : Log.State) (routine : Option (List Byte))
    (text : List Byte) (env : LogEnv) (logged : List LogEvent)
    (hl : Log.step σ (.message routine 3 text env) = .ok (σ', logged)) :
    ∃ printed, warning prog σ routine text env = .ok (σ', printed ++ logged, .returns) ∧
      Spec.onlyStderr printed = some (Spec.who p routine ++ text ++ [10]) := by
  simp only [Log.step] at hl
  refine ⟨opening p routine ++ [put text, put [10]], ?_, ?_⟩
  · simp only [warning, progStr_eq hp, Log.okBind, LOG_ERR, hl]
  · rw [List.append_assoc]
    exact onlyStderr_append (opening_stderr _ _) (puts_stderr _ _)

/-- C62: `err_fatal` prints and logs the same and exits with status 1. -/
theorem C62_fatal (prog : Prog) (p : Option (List Byte)) (hp : Holds prog p) (σ σ' : Log.State) (routine : Option (List Byte))
    (text : List Byte) (env : LogEnv) (logged : List LogEvent)
    (hl : Log.step σ (.message routine 3 text env) = .ok (σ', logged)) :
    ∃ printed, fatal prog σ routine text env = .ok (σ', printed ++ logged, .exits 1) ∧
      Spec.onlyStderr printed = some (Spec.who p routine ++ text ++ [10]) := by
  simp only [Log.step] at hl
  refine ⟨opening p routine ++ [put text, put [10]], ?_, ?_⟩
  · simp only [fatal, progStr_eq hp, Log.okBind, LOG_ERR, hl]
  · rw [List.append_assoc]
    exact onlyStderr_append (opening_stderr _ _) (puts_stderr _ _)

/-- C62: `err_internal` prints who, "Internal error", what and "Aborting program...", logs the message, and aborts. -/
theorem C62_internal (prog : Prog) (p : Option (List Byte)) (hp : Holds prog p) (σ σ' : Log.State) (routine : Option (List Byte))
    (text : List Byte) (env : LogEnv) (logged : List LogEvent)
    (hl : Log.step σ (.message routine 3 text env) = .ok (σ', logged)) :
    ∃ printed last, internal prog σ routine text env = .ok (σ', printed ++ logged ++ last, .aborts) ∧
      Spec.onlyStderr printed = some (Spec.who p routine ++ Spec.internalError ++ text ++ [10]) ∧
      Spec.onlyStderr last = some (Spec.aborting ++ (match p with | some p => 32 :: p | none => []) ++ [46, 46, 46, 10]) := by
  simp only [Log.step] at hl
  refine ⟨openingInternal p routine ++ [put text, put [10]],
    [match p with | some p => put (Spec.aborting ++ [32] ++ p ++ [46, 46, 46, 10]) | none => put (Spec.aborting ++ [46, 46, 46, 10])], ?_, ?_, ?_⟩
  · simp only [internal, progStr_eq hp, Log.okBind, LOG_ERR, hl]
    cases p <;> rfl
  · rw [List.append_assoc]
    refine onlyStderr_append ?_ (puts_stderr _ _)
    cases p <;> cases routine <;> simp [openingInternal, Spec.onlyStderr, put, Spec.who]
  · cases p <;> simp [put_stderr]

/-- C62: `err_fatal_errno` prints who and what and "routine: system message", logs both, and exits with status 1. -/
theorem C62_fatal_errno (prog : Prog) (p : Option (List Byte)) (hp : Holds prog p) (σ σ1 σ2 : Log.State) (r : List Byte)
    (text strerror : List Byte) (env : LogEnv) (logged1 logged2 : List LogEvent)
    (hl1 : Log.step σ (.message (some r) 3 text env) = .ok (σ1, logged1))
    (hl2 : Log.step σ1 (.message (some r) 3 (r ++ [58, 32] ++ strerror) env) = .ok (σ2, logged2)) :
    ∃ printed1 printed2, fatalErrno prog σ (some r) text strerror env =
        .ok (σ2, printed1 ++ logged1 ++ printed2 ++ logged2, .exits 1) ∧
      Spec.onlyStderr printed1 = some (Spec.who p (some r) ++ text) ∧
      Spec.onlyStderr printed2 = some ([32] ++ r ++ [58, 32] ++ strerror ++ [10]) := by
  simp only [Log.step] at hl1 hl2
  refine ⟨opening p (some r) ++ [put text], [put ([32] ++ r ++ [58, 32] ++ strerror ++ [10])], ?_, ?_, ?_⟩
  · simp only [fatalErrno, progStr_eq hp, Log.okBind, LOG_ERR, hl1]
    rw [hl2]
    rfl
  · exact onlyStderr_append (opening_stderr _ _) (put_stderr _)
  · exact put_stderr _

/-- C62: whether the log takes the message: in every reachable state it does, unless a log file is open, its pattern now
stands for another name and that file cannot be opened or its name is too long for `log_file` (`C45_long_name_refuted`). -/
theorem C62_log_takes (hist : List Spec.LogOp) (σ : Log.State) (evs : List (List LogEvent))
    (hr : Spec.run Log.step Log.State.init hist = .ok (σ, evs))
    (routine : Option (List Byte)) (text : List Byte) (env : LogEnv) (hfd : 0 ≤ env.fd)
    (hlen : ∀ pat, (env.expand pat).length ≤ 3 * pat.length + 1023) :
    ∃ σ' logged, Log.step σ (.message routine 3 text env) = .ok (σ', logged) := by
  obtain ⟨S, hS⟩ := Log.Reach.sim ⟨hist, evs, hr⟩
  have h := Log.step_sim σ S (.message routine 3 text env) hS
  have hok : ∃ x, Spec.logStep Log.facilitynames S (.message routine 3 text env) = .ok x := by
    simp only [Spec.logStep]
    have : ∀ line, ∃ y, S.toFile line env = .ok y := by
      intro line
      unfold Spec.Sinks.toFile
      cases S.file with
      | none => exact ⟨_, rfl⟩
      | some f =>
        obtain ⟨pat, n, fd⟩ := f
        have ht : Spec.tooLong pat (env.expand pat) = false := by simpa [Spec.tooLong] using hlen pat
        by_cases h1 : env.expand pat = n
        · exact ⟨_, by simp only [ht, Bool.false_eq_true, if_false, if_pos h1]; rfl⟩
        · exact ⟨_, by simp only [ht, Bool.false_eq_true, if_false, if_neg h1, if_neg (show ¬ env.fd < 0 by omega)]; rfl⟩
    obtain ⟨y, hy⟩ := this (S.line routine text env)
    exact ⟨_, by rw [hy]; rfl⟩
  obtain ⟨x, hx⟩ := hok
  rw [hx] at h
  cases hm : Log.step σ (.message routine 3 text env) with
  | ok y => exact ⟨y.1, y.2, rfl⟩
  | _ => rw [hm] at h; exact absurd h (by simp [Log.Rel, Spec.ResRel])

/-- "prog (f): hi" when the log is closed. -/
example : warning (some [112, 0]) Log.State.init (some [102]) [104, 105] { expand := id, fd := 3, host := [], date := [], pid := [] } =
    .ok (Log.State.init, [put [112, 32, 40, 102, 41, 58, 32], put [104, 105], put [10]], .returns) := rfl

/-- C62 refuted for a NULL routine: `err_fatal_errno` prints it. -/
theorem C62_null_routine_refuted (prog : Prog) (p : Option (List Byte)) (hp : Holds prog p) (σ σ' : Log.State) (text strerror : List Byte) (env : LogEnv)
    (logged : List LogEvent) (hl : Log.step σ (.message none 3 text env) = .ok (σ', logged)) :
    fatalErrno prog σ none text strerror env = .ub := by
  simp only [Log.step] at hl
  simp only [fatalErrno, progStr_eq hp, Log.okBind, LOG_ERR, hl]

/-- A log whose file pattern is a constant "a" in the first call and stands for "b" later. -/
def rotated : LogEnv := { expand := fun _ => [98], fd := -1, host := [], date := [], pid := [] }

/-- C62 refuted when the log file changes its name and the new one cannot be opened: `err_warning` does not return and
`err_internal` does not abort: the program exits. -/
theorem C62_rotation_refuted : ∃ hist σ evs, Spec.run Log.step Log.State.init hist = .ok (σ, evs) ∧
    ∀ routine text, warning none σ routine text rotated = .fatal ∧ internal none σ routine text rotated = .fatal := by
  refine ⟨[.file (some [105]) (some [97]) { expand := id, fd := 3, host := [], date := [], pid := [] }], _, _, rfl, ?_⟩
  intro routine text
  constructor <;> rfl

end Maa.Err
