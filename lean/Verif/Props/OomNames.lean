import Verif.Lemmas.OomNames
import Verif.Props.Oom
import Verif.Props.Arg
import Verif.Props.Flags
import Verif.Props.Timer

/-! # Property C78, continued: argument lists, flags, debugging flags and timers -/

namespace Maa.Oom

open Spec (run observe OrderlyEnd EndsAtFailure onlyFirst)

/-! ## Flags, debugging flags and timers: every request is checked -/

/-- **C78, flags**: whichever requests are refused, any history of calls either ends with a message at the first request refused, or returns
what it returns with enough memory (`Spec.flgStep codeGroup`, see C41). -/
theorem C78_flags (fails : Fails) (hist : List Spec.FlgOp) (hp : ∀ o ∈ hist, o.Proper) :
    OrderlyEnd fails (run (flgStep fails) (Flags.State.init, 0) hist)
      (observe (run (Spec.flgStep Spec.codeGroup) Spec.Switches.init hist)) := by
  rw [← Flags.C41_flg_history_exact hist hp]
  exact start_orderly flg_follows hist (mk := .ok (Flags.State.init, 0)) (y := .ok Flags.State.init) (.ok rfl)

/-- **C78, debugging flags**, likewise. -/
theorem C78_debug (fails : Fails) (hist : List Spec.DbgOp) (hp : ∀ o ∈ hist, o.Proper) :
    OrderlyEnd fails (run (dbgStep fails) (Flags.State.init, 0) hist)
      (observe (run (Spec.dbgStep Spec.codeGroup) Spec.Switches.init hist)) := by
  rw [← Flags.C41_dbg_history_exact hist hp]
  exact start_orderly dbg_follows hist (mk := .ok (Flags.State.init, 0)) (y := .ok Flags.State.init) (.ok rfl)

/-- **C78, timers**, likewise; what they return with enough memory is in C44. -/
theorem C78_timers (fails : Fails) (hist : List Spec.TimOp) (hp : ∀ o ∈ hist, o.Proper) (hr : ∀ o ∈ hist, Timer.ProperReadings o) :
    OrderlyEnd fails (run (timStep fails) (Timer.State.init, 0) hist)
      (observe (run (Spec.timStep fun now before => now.sec - before.sec) (fun _ => none) hist)) := by
  rw [← Timer.C44_timers_partial hist hp hr]
  exact start_orderly tim_follows hist (mk := .ok (Timer.State.init, 0)) (y := .ok Timer.State.init) (.ok rfl)

/-- Two requests for the table of names, one for its first name, then two for the larger table of the second name and two cells. -/
example : observe (run (flgStep (onlyFirst 7)) (Flags.State.init, 0) [.test 1, .register 1 (some [97]), .register 2 (some [98]), .set (some [98]), .test 2]) =
      .ok [false, false, false, false, true] ∧
    observe (run (flgStep (onlyFirst 6)) (Flags.State.init, 0) [.test 1, .register 1 (some [97]), .register 2 (some [98])]) = .fatal ∧
    observe (run (flgStep (onlyFirst 1)) (Flags.State.init, 0) [.test 1, .register 1 (some [97])]) = .fatal ∧
    observe (run (dbgStep (onlyFirst 1)) (Flags.State.init, 0) [.setFlag 1, .test 1, .register 1 (some [97])]) = .fatal ∧
    observe (run (dbgStep (onlyFirst 0)) (Flags.State.init, 0) [.setFlag 1, .test 1]) = .ok [false, true] := by
  refine ⟨?_, ?_, ?_, ?_, ?_⟩
  all_goals decide +kernel

/-- A timer takes two requests for the table, one for the entry and one for the cell.  Asking for a timer needs the table. -/
example : observe (run (timStep (onlyFirst 4)) (Timer.State.init, 0) [.start (some [97]) (Timer.all ⟨3, 0⟩), .stop (some [97]) (Timer.all ⟨5, 0⟩), .getReal (some [97])]) =
      .ok [0, 0, 2] ∧
    observe (run (timStep (onlyFirst 3)) (Timer.State.init, 0) [.start (some [97]) (Timer.all ⟨3, 0⟩)]) = .fatal ∧
    observe (run (timStep (onlyFirst 1)) (Timer.State.init, 0) [.getReal (some [97])]) = .fatal ∧
    observe (run (timStep (onlyFirst 2)) (Timer.State.init, 0) [.getReal (some [97])]) = .abort := by
  refine ⟨?_, ?_, ?_, ?_⟩
  all_goals decide +kernel

/-! ### How many requests -/

/-- The requests made for a table of names: the structure and the array at the start and at every resizing, and the cells. -/
def forTable : Option NameTab.Table → Nat
  | none => 0
  | some t => 1 + t.1.clock + 2 * t.2.resizings

theorem nameTable_count {fails : Fails} {hash : Option NameTab.Table} {n n' : Nat} {t : NameTab.Table}
    (e : nameTable fails hash n = .ok (t, n')) : n' + forTable hash = n + forTable (some t) := by
  cases hash with
  | some u =>
    simp only [nameTable, Res.ok.injEq, Prod.mk.injEq] at e
    obtain ⟨rfl, rfl⟩ := e
    rfl
  | none =>
    simp only [nameTable, Res.bind_ok_iff, Res.ok.injEq, Prod.mk.injEq] at e
    obtain ⟨⟨a, b⟩, e1, rfl, rfl⟩ := e
    obtain ⟨h1, h2⟩ := create_count e1
    simp only [forTable, Heap.init, h2]
    omega

theorem nameInsert_count {fails : Fails} {t : NameTab.Table} {name : Option (List Byte)} {d n n' : Nat} {r : NameTab.Table × Int}
    (e : nameInsert fails t name d n = .ok (r, n')) : n' + forTable (some t) = n + forTable (some r.1) := by
  simp only [nameInsert, Res.bind_ok_iff] at e
  obtain ⟨k, -, e⟩ := e
  have := insert_count e
  simp only [forTable]
  omega

theorem retrieve_count {t : NameTab.Table} {name : Option (List Byte)} {r : NameTab.Table × Ptr} (e : NameTab.retrieve t name = .ok r) :
    forTable (some r.1) = forTable (some t) := by
  simp only [NameTab.retrieve, NameTab.retrieveKey, Res.bind_ok_iff, Res.ok.injEq] at e
  obtain ⟨k, -, q, e, rfl⟩ := e
  obtain ⟨h1, h2⟩ := hretrieve_same e
  simp only [forTable, h1, h2]

theorem flgRegister_count {fails : Fails} {σ σ' : Flags.State} {f : BitVec 64} {name : Option (List Byte)} {n n' : Nat}
    (e : flgRegister fails σ f name n = .ok (σ', n')) : n' + forTable σ.hash = n + forTable σ'.hash := by
  unfold flgRegister at e
  simp only at e
  split at e
  · cases e
  · simp only [Res.bind_ok_iff] at e
    obtain ⟨⟨t, m⟩, e1, e⟩ := e
    split at e
    · cases e
    · simp only [Res.bind_ok_iff, Res.ok.injEq, Prod.mk.injEq] at e
      obtain ⟨⟨r, m'⟩, e2, rfl, rfl⟩ := e
      have h1 := nameTable_count e1
      have h2 := nameInsert_count e2
      simp only at h1 h2 ⊢
      omega

theorem dbgRegisterInternal_count {fails : Fails} {σ σ' : Flags.State} {f : BitVec 64} {name : Option (List Byte)} {n n' : Nat}
    (e : dbgRegisterInternal fails σ f name n = .ok (σ', n')) : n' + forTable σ.hash = n + forTable σ'.hash := flgRegister_count e

theorem orFlag_hash {σ σ' : Flags.State} {f : BitVec 64} (e : Flags.orFlag σ f = .ok σ') : σ'.hash = σ.hash := by
  simp only [Flags.orFlag, Res.bind_ok_iff, Res.ok.injEq] at e
  obtain ⟨i, -, rfl⟩ := e
  rfl

theorem clearFlag_hash {σ σ' : Flags.State} {f : BitVec 64} (e : Flags.clearFlag σ f = .ok σ') : σ'.hash = σ.hash := by
  simp only [Flags.clearFlag, Res.bind_ok_iff, Res.ok.injEq] at e
  obtain ⟨i, -, rfl⟩ := e
  rfl

theorem flgSet_count {σ σ' : Flags.State} {name : Option (List Byte)} (e : Flags.flgSet σ name = .ok σ') :
    forTable σ'.hash = forTable σ.hash := by
  unfold Flags.flgSet at e
  cases name with
  | none => cases e
  | some name =>
    cases hh : σ.hash with
    | none => simp only [hh] at e; cases e
    | some t =>
      simp only [hh, Res.bind_ok_iff] at e
      obtain ⟨b, -, e⟩ := e
      split at e
      · cases e; simp only
      · simp only [Res.bind_ok_iff] at e
        obtain ⟨b, -, e⟩ := e
        split at e
        · cases e; simp only
        · simp only [Res.bind_ok_iff] at e
          obtain ⟨r, er, e⟩ := e
          have h1 := retrieve_count er
          split at e
          · simp only [Res.bind_ok_iff] at e
            obtain ⟨c, -, e⟩ := e
            split at e
            · cases e
            · simp only [Res.bind_ok_iff] at e
              obtain ⟨q, eq, e⟩ := e
              have h2 := retrieve_count eq
              split at e
              · cases e
              · split at e
                · rw [orFlag_hash e]; simp only; rw [h2, h1]
                · rw [clearFlag_hash e]; simp only; rw [h2, h1]
          · rw [orFlag_hash e]; exact h1

theorem dbgSet_count {σ σ' : Flags.State} {name : Option (List Byte)} (e : Flags.dbgSet σ name = .ok σ') :
    forTable σ'.hash = forTable σ.hash := by
  unfold Flags.dbgSet at e
  cases name with
  | none => cases e
  | some name =>
    cases hh : σ.hash with
    | none => simp only [hh] at e; cases e
    | some t =>
      simp only [hh, Res.bind_ok_iff] at e
      obtain ⟨b, -, e⟩ := e
      split at e
      · cases e; simp only
      · simp only [Res.bind_ok_iff] at e
        obtain ⟨b, -, e⟩ := e
        split at e
        · cases e; simp only
        · simp only [Res.bind_ok_iff] at e
          obtain ⟨r, er, e⟩ := e
          have h1 := retrieve_count er
          split at e
          · simp only [Res.bind_ok_iff] at e
            obtain ⟨q, eq, c, -, e⟩ := e
            have h2 := retrieve_count eq
            split at e
            · cases e
            · split at e
              · rw [orFlag_hash e]; simp only; rw [h2, h1]
              · rw [clearFlag_hash e]; simp only; rw [h2, h1]
          · rw [orFlag_hash e]; exact h1

/-- C78: the requests flags.c makes when it gets through (without flg_destroy) are exactly those for its table of names. -/
theorem C78_flag_requests (fails : Fails) (hist : List Spec.FlgOp) (hd : ∀ o ∈ hist, o ≠ .destroy) (σ : Flags.State) (n : Nat) (xs : List Bool)
    (hr : run (flgStep fails) (Flags.State.init, 0) hist = .ok ((σ, n), xs)) : n = forTable σ.hash := by
  have := Spec.run_measure_of (fun o : Spec.FlgOp => o ≠ .destroy) (fun _ (s : Flags.State × Nat) => s.2 = forTable s.1.hash) (fun _ => 0)
    (flgStep fails) (fun c s o s' x ho hs he => by
      obtain ⟨σ, n⟩ := s
      obtain ⟨σ', n'⟩ := s'
      simp only at hs ⊢
      cases o with
      | register f name =>
        simp only [flgStep, Res.bind_ok_iff, Res.ok.injEq, Prod.mk.injEq] at he
        obtain ⟨q, e, h, -⟩ := he
        subst h
        have := flgRegister_count e
        omega
      | set name =>
        simp only [flgStep, out_ok, quiet_ok, Flags.flgStep, Res.bind_ok_iff, Res.ok.injEq, Prod.mk.injEq] at he
        obtain ⟨⟨q, e, rfl, -⟩, rfl⟩ := he
        rw [flgSet_count e]; exact hs
      | test f =>
        simp only [flgStep, out_ok, quiet_ok, Flags.flgStep, Res.ok.injEq, Prod.mk.injEq] at he
        obtain ⟨⟨rfl, -⟩, rfl⟩ := he
        exact hs
      | destroy => exact absurd rfl ho) hist hd 0 _ _ xs rfl hr
  exact this

/-- C78: likewise for debug.c. -/
theorem C78_debug_requests (fails : Fails) (hist : List Spec.DbgOp) (hd : ∀ o ∈ hist, o ≠ .destroy) (σ : Flags.State) (n : Nat) (xs : List Bool)
    (hr : run (dbgStep fails) (Flags.State.init, 0) hist = .ok ((σ, n), xs)) : n = forTable σ.hash := by
  have := Spec.run_measure_of (fun o : Spec.DbgOp => o ≠ .destroy) (fun _ (s : Flags.State × Nat) => s.2 = forTable s.1.hash) (fun _ => 0)
    (dbgStep fails) (fun c s o s' x ho hs he => by
      obtain ⟨σ, n⟩ := s
      obtain ⟨σ', n'⟩ := s'
      simp only at hs ⊢
      cases o with
      | register f name =>
        simp only [dbgStep, Res.bind_ok_iff, Res.ok.injEq, Prod.mk.injEq] at he
        obtain ⟨q, e, h, -⟩ := he
        subst h
        unfold dbgRegister at e
        split at e
        · cases e
        · have := dbgRegisterInternal_count e
          omega
      | registerInternal f name =>
        simp only [dbgStep, Res.bind_ok_iff, Res.ok.injEq, Prod.mk.injEq] at he
        obtain ⟨q, e, h, -⟩ := he
        subst h
        have := dbgRegisterInternal_count e
        omega
      | set name =>
        simp only [dbgStep, out_ok, quiet_ok, Flags.dbgStep, Res.bind_ok_iff, Res.ok.injEq, Prod.mk.injEq] at he
        obtain ⟨⟨q, e, rfl, -⟩, rfl⟩ := he
        rw [dbgSet_count e]; exact hs
      | setFlag f =>
        simp only [dbgStep, out_ok, quiet_ok, Flags.dbgStep, Flags.dbgSetFlag, Res.bind_ok_iff, Res.ok.injEq, Prod.mk.injEq] at he
        obtain ⟨⟨q, e, rfl, -⟩, rfl⟩ := he
        rw [orFlag_hash e]; exact hs
      | unsetFlag f =>
        simp only [dbgStep, out_ok, quiet_ok, Flags.dbgStep, Flags.dbgUnsetFlag, Res.bind_ok_iff, Res.ok.injEq, Prod.mk.injEq] at he
        obtain ⟨⟨q, e, rfl, -⟩, rfl⟩ := he
        rw [clearFlag_hash e]; exact hs
      | test f =>
        simp only [dbgStep, out_ok, quiet_ok, Flags.dbgStep, Res.ok.injEq, Prod.mk.injEq] at he
        obtain ⟨⟨rfl, -⟩, rfl⟩ := he
        exact hs
      | destroy => exact absurd rfl ho) hist hd 0 _ _ xs rfl hr
  exact this

theorem lookup_count {σ : Timer.State} {t : NameTab.Table} {name : Option (List Byte)} {r : Timer.State × Nat}
    (e : Timer.lookup { σ with hash := some t } name = .ok r) : forTable r.1.hash = forTable (some t) ∧ r.1.fresh = σ.fresh := by
  simp only [Timer.lookup, Timer.check, Res.bind] at e
  cases hq : NameTab.retrieve t name with
  | ok q =>
    rw [hq] at e
    simp only at e
    split at e
    · cases e
    · cases e; exact ⟨retrieve_count hq, rfl⟩
  | _ => rw [hq] at e; cases e

/-- C78: timer.c makes those for its table of names and one for every timer. -/
theorem C78_timer_requests (fails : Fails) (hist : List Spec.TimOp) (hd : ∀ o ∈ hist, o ≠ .shutdown) (σ : Timer.State) (n : Nat) (xs : List Int)
    (hr : run (timStep fails) (Timer.State.init, 0) hist = .ok ((σ, n), xs)) : n + 1 = forTable σ.hash + σ.fresh := by
  have := Spec.run_measure_of (fun o : Spec.TimOp => o ≠ .shutdown) (fun _ (s : Timer.State × Nat) => s.2 + 1 = forTable s.1.hash + s.1.fresh) (fun _ => 0)
    (timStep fails) (fun c s o s' x ho hs he => by
      obtain ⟨σ, n⟩ := s
      obtain ⟨σ', n'⟩ := s'
      simp only at hs ⊢
      have rest : ∀ o, (∀ t, ∀ r : Timer.State × Int, Timer.step { σ with hash := some t } o = .ok r → forTable r.1.hash = forTable (some t) ∧ r.1.fresh = σ.fresh) →
          timRest fails (σ, n) o = .ok ((σ', n'), x) → n' + 1 = forTable σ'.hash + σ'.fresh := by
        intro o h e
        simp only [timRest, Res.bind_ok_iff] at e
        obtain ⟨⟨t, m⟩, e1, e⟩ := e
        simp only [out_ok, quiet_ok] at e
        obtain ⟨e, rfl⟩ := e
        have h1 := nameTable_count e1
        have h2 := h t _ e
        simp only at h2
        omega
      cases o with
      | shutdown => exact absurd rfl ho
      | start name r =>
        simp only [timStep, Res.bind_ok_iff, Res.ok.injEq, Prod.mk.injEq] at he
        obtain ⟨q, e, h, -⟩ := he
        subst h
        simp only [timStart, Res.bind_ok_iff] at e
        obtain ⟨⟨t, m⟩, e1, q, e2, e⟩ := e
        have h1 := nameTable_count e1
        have h2 := retrieve_count e2
        simp only at h1 h2
        split at e
        · simp only [Res.bind_ok_iff, xreq_ok, Res.ok.injEq, Prod.mk.injEq] at e
          obtain ⟨k, ⟨-, rfl⟩, ⟨i, j⟩, e3, rfl, rfl⟩ := e
          have h3 := nameInsert_count e3
          simp only [Timer.store] at h3 ⊢
          omega
        · simp only [quiet_ok, Res.bind_ok_iff, Res.ok.injEq] at e
          obtain ⟨⟨a, -, rfl⟩, rfl⟩ := e
          simp only [Timer.store]
          omega
      | stop name r =>
        refine rest _ (fun t r e => ?_) he
        simp only [Timer.step, Timer.timStop, Res.bind_ok_iff, Res.ok.injEq] at e
        obtain ⟨a, ⟨b, e, c, -, rfl⟩, rfl⟩ := e
        exact lookup_count e
      | reset name =>
        refine rest _ (fun t r e => ?_) he
        simp only [Timer.step, Timer.timReset, Res.bind_ok_iff, Res.ok.injEq] at e
        obtain ⟨a, ⟨b, e, c, -, rfl⟩, rfl⟩ := e
        exact lookup_count e
      | getReal name =>
        refine rest _ (fun t r e => ?_) he
        simp only [Timer.step, Timer.timGetReal, Res.bind_ok_iff, Res.ok.injEq] at e
        obtain ⟨b, e, c, -, rfl⟩ := e
        exact lookup_count e
      | getUser name =>
        refine rest _ (fun t r e => ?_) he
        simp only [Timer.step, Timer.timGetUser, Res.bind_ok_iff, Res.ok.injEq] at e
        obtain ⟨b, e, c, -, rfl⟩ := e
        exact lookup_count e
      | getSystem name =>
        refine rest _ (fun t r e => ?_) he
        simp only [Timer.step, Timer.timGetSystem, Res.bind_ok_iff, Res.ok.injEq] at e
        obtain ⟨b, e, c, -, rfl⟩ := e
        exact lookup_count e) hist hd 0 _ _ xs rfl hr
  exact this

/-! ## Argument lists -/

/-- What is left of a request-making computation when the other one succeeds. -/
theorem Follows.ends {α β : Type} {fails : Fails} {R : α → β → Prop} {x : Res (α × Nat)} {b : β} (h : Follows fails true R 0 x (.ok b)) :
    ∃ m, (∀ k, k < m → fails k = false) ∧ ((fails m = true ∧ (x = .fatal ∨ x = .ub)) ∨ ∃ a, x = .ok (a, m) ∧ R a b) := by
  obtain ⟨m, -, hk, h⟩ := h
  refine ⟨m, fun k hm => hk k (Nat.zero_le k) hm, h.imp (fun h => ⟨h.1, h.2.imp id And.right⟩) fun h => ?_⟩
  rename_i h0
  clear h0
  match x, h with
  | .ok a, h => exact ⟨a.1, by rw [← h.1], h.2⟩

/-- **C78, argument lists** (partial): whichever requests are refused, arg_create and any documented history of calls either end at the
first request refused — with a message or in undefined behaviour — or leave a list with exactly the strings added.  Missing: the
string memory of the list is made with stk_push, whose request is not checked (`C78_push_refuted`, `C78_arg_refuted`). -/
theorem C78_args_partial (fails : Fails) (h0 : StrMem.Mem) (ok0 : h0.Ok) (hist : List Spec.StrOp) (w : Spec.StrView) (hw : Arg.after hist = some w) :
    ∃ m, (∀ k, k < m → fails k = false) ∧
      ((fails m = true ∧ (((argCreate fails 0).bind fun a => run (argStep fails) ((h0, a.1), a.2) hist) = .fatal ∨
          ((argCreate fails 0).bind fun a => run (argStep fails) ((h0, a.1), a.2) hist) = .ub)) ∨
       ∃ s outs, ((argCreate fails 0).bind fun a => run (argStep fails) ((h0, a.1), a.2) hist) = .ok ((s, m), outs) ∧
         Arg.Contains s.1 s.2 (w.strings.reverse.map Prod.snd)) := by
  obtain ⟨s, outs, h1, h2⟩ := Arg.C30_vector h0 ok0 hist w hw
  have key : Follows fails true (fun a b => a.1 = b.1 ∧ a.2 = b.2) 0
      ((argCreate fails 0).bind fun a => (run (argStep fails) ((h0, a.1), a.2) hist).bind fun r => .ok ((r.1.1, r.2), r.1.2))
      (.ok (s, outs)) := by
    refine (argCreate_follows 0).pure fun m => ?_
    obtain ⟨x, hx, hf⟩ := arg_follows.run hist (h0, Arg.create) (h0, Arg.create) m rfl
    rw [hx, ← h1]
    have e : (out x).bind (fun r => Res.ok ((r.1.1, r.2), r.1.2)) = x := by cases x <;> rfl
    rw [e]
    exact hf
  obtain ⟨m, hk, h⟩ := key.ends
  refine ⟨m, hk, ?_⟩
  revert h
  generalize (argCreate fails 0) = y
  intro h
  rcases h with ⟨hf, h⟩ | ⟨a, h, ha, -⟩
  · refine .inl ⟨hf, ?_⟩
    cases y with
    | ok a =>
      simp only [Res.bind] at h ⊢
      cases hr : run (argStep fails) ((h0, a.1), a.2) hist <;> rw [hr] at h <;> simp_all
    | _ => simp_all [Res.bind]
  · refine .inr ?_
    cases y with
    | ok y =>
      simp only [Res.bind] at h ⊢
      cases hr : run (argStep fails) ((h0, y.1), y.2) hist with
      | ok r =>
        rw [hr] at h
        simp only [Res.ok.injEq, Prod.mk.injEq] at h
        obtain ⟨h', h''⟩ := h
        refine ⟨r.1.1, r.2, by rw [← h''], ?_⟩
        have : r.1.1 = s := by rw [← h'] at ha; exact ha
        rw [this]; exact h2
      | _ => rw [hr] at h; cases h
    | _ => cases h

/-- **C78, arg_argify** (partial): likewise; when it gets through, the items are those of the rules of C31. -/
theorem C78_argify_partial (fails : Fails) (h0 : StrMem.Mem) (ok0 : h0.Ok) (text rest : List Byte) (ht : (0 : Byte) ∉ text) (quoteStyle : Nat) :
    ∃ m, (∀ k, k < m → fails k = false) ∧
      ((fails m = true ∧ (argify fails h0 (text ++ 0 :: rest) quoteStyle 0 = .fatal ∨ argify fails h0 (text ++ 0 :: rest) quoteStyle 0 = .ub)) ∨
       ∃ s items, argify fails h0 (text ++ 0 :: rest) quoteStyle 0 = .ok (s, m) ∧
         Spec.Splits { escape := !quoteStyle.testBit 0, quote := !quoteStyle.testBit 1 } text items ∧
         Arg.Contains s.1 s.2 (items.map (· ++ [0]))) := by
  obtain ⟨s, items, h1, h2, h3, -⟩ := Arg.C31_argify h0 ok0 text rest ht quoteStyle
  have := argify_follows (fails := fails) h0 (text ++ 0 :: rest) quoteStyle 0
  rw [h1] at this
  obtain ⟨m, hk, h⟩ := this.ends
  refine ⟨m, hk, h.imp id ?_⟩
  rintro ⟨a, ha, rfl⟩
  exact ⟨a, items, ha, h2, h3⟩

theorem argAppend_count {fails : Fails} {a a' : Arg.ArgList} {new n n' : Nat} (e : argAppend fails a new n = .ok (a', n')) :
    (a'.argm = a.argm ∧ n' = n) ∨ (a'.argm = 2 * a.argm ∧ n' = n + 1) := by
  have ap : ∀ r, Arg.append a new = .ok r → r.argm = if a.argm ≤ a.argc + 2 then a.argm * 2 else a.argm := by
    intro r e
    simp only [Arg.append, Res.bind_ok_iff, Res.ok.injEq] at e
    obtain ⟨_, -, _, -, rfl⟩ := e
    simp only
    split <;> rfl
  unfold argAppend at e
  split at e
  · rename_i h
    simp only [Res.bind_ok_iff, xreq_ok, quiet_ok] at e
    obtain ⟨_, ⟨-, rfl⟩, e, rfl⟩ := e
    have := ap _ e
    rw [if_pos h] at this
    exact .inr ⟨by omega, rfl⟩
  · rename_i h
    simp only [quiet_ok] at e
    have := ap _ e.1
    rw [if_neg h] at this
    exact .inl ⟨this, e.2⟩

theorem arg_count {fails : Fails} {s s' : StrMem.Mem × Arg.ArgList} {n n' : Nat} {o : Spec.StrOp} {x : Unit}
    (e : argStep fails (s, n) o = .ok ((s', n'), x)) :
    (s'.2.argm = s.2.argm ∧ n' = n + 2) ∨ (s'.2.argm = 2 * s.2.argm ∧ n' = n + 3) := by
  cases o with
  | strcpy b =>
    simp only [argStep, argAdd, Res.bind_ok_iff, Res.ok.injEq, Prod.mk.injEq] at e
    obtain ⟨_, ⟨⟨r, m⟩, e1, ⟨a, m'⟩, e2, rfl⟩, h1, -⟩ := e
    have c1 := strcpy_count e1
    have c2 := argAppend_count e2
    simp only [Prod.mk.injEq] at h1
    obtain ⟨rfl, rfl⟩ := h1
    simp only at c1 c2 ⊢
    omega
  | strncpy b k =>
    simp only [argStep, argAddn, Res.bind_ok_iff, Res.ok.injEq, Prod.mk.injEq] at e
    obtain ⟨_, ⟨⟨r, m⟩, e1, ⟨a, m'⟩, e2, rfl⟩, h1, -⟩ := e
    have c1 := strncpy_count e1
    have c2 := argAppend_count e2
    simp only [Prod.mk.injEq] at h1
    obtain ⟨rfl, rfl⟩ := h1
    simp only at c1 c2 ⊢
    omega
  | grow b k =>
    simp only [argStep, argGrow, Res.bind_ok_iff, Res.ok.injEq, Prod.mk.injEq] at e
    obtain ⟨_, ⟨⟨r, m⟩, e1, rfl⟩, h1, -⟩ := e
    have c1 := (grow_count e1).1
    simp only [Prod.mk.injEq] at h1
    obtain ⟨rfl, rfl⟩ := h1
    exact .inl ⟨rfl, c1⟩
  | finish =>
    simp only [argStep, argFinish, Res.bind_ok_iff, Res.ok.injEq, Prod.mk.injEq] at e
    obtain ⟨_, ⟨⟨r, m⟩, e1, ⟨a, m'⟩, e2, rfl⟩, h1, -⟩ := e
    have c1 := finish_count e1
    have c2 := argAppend_count e2
    simp only [Prod.mk.injEq] at h1
    obtain ⟨rfl, rfl⟩ := h1
    simp only at c1 c2 ⊢
    omega

/-- C78: four requests for the list, two for every call, and one every time the vector is doubled. -/
theorem C78_arg_requests (fails : Fails) (h0 : StrMem.Mem) (hist : List Spec.StrOp) (s : StrMem.Mem × Arg.ArgList) (n : Nat) (xs : List Unit)
    (hr : ((argCreate fails 0).bind fun a => run (argStep fails) ((h0, a.1), a.2) hist) = .ok ((s, n), xs)) :
    ∃ d, s.2.argm = 2 * 2 ^ d ∧ n = 4 + 2 * hist.length + d := by
  simp only [argCreate, createStrings, Res.bind_ok_iff, xreq_ok, Res.ok.injEq] at hr
  obtain ⟨⟨a, m⟩, ⟨_, ⟨-, rfl⟩, _, ⟨-, rfl⟩, ⟨i, m'⟩, ⟨_, ⟨-, rfl⟩, _, ⟨-, rfl⟩, e1⟩, e2⟩, hr⟩ := hr
  obtain ⟨rfl, rfl⟩ := Prod.mk.inj e1
  obtain ⟨rfl, rfl⟩ := Prod.mk.inj e2
  have := Spec.run_measure (fun c (s : (StrMem.Mem × Arg.ArgList) × Nat) => ∃ d, s.1.2.argm = 2 * 2 ^ d ∧ s.2 = 4 + c + d) (fun _ => 2)
    (argStep fails) (fun c s o s' x hs he => by
      obtain ⟨d, h1, h2⟩ := hs
      rcases arg_count (s := s.1) (n := s.2) (s' := s'.1) (n' := s'.2) he with h | h
      · exact ⟨d, by omega, by omega⟩
      · exact ⟨d + 1, by rw [h.1, h1, Nat.pow_succ]; omega, by omega⟩) hist 0 _ _ xs ⟨0, rfl, rfl⟩ hr
  simp only [List.map_const', List.sum_replicate, smul_eq_mul] at this
  obtain ⟨d, h1, h2⟩ := this
  exact ⟨d, h1, by omega⟩

/-- **C78 refuted**: on every list, arg_add with memory for the string but not for the bookkeeping is undefined behaviour. -/
theorem C78_arg_refuted (fails : Fails) (h : StrMem.Mem) (a : Arg.ArgList) (s : List Byte) (n : Nat) (hs : (0 : Byte) ∉ s)
    (hf : fails n = false) (hg : fails (n + 1) = true) : argStep fails ((h, a), n) (.strcpy (CStr.ofStr s)) = .ub := by
  simp [argStep, argAdd, strcpy, CStr.cstr_ofStr s hs, Res.bind, xreq, hf, bareReq, hg]

/-- Two strings: 4 + 2 + 2 requests and one for the vector at the first. -/
example : observe ((argCreate (onlyFirst 9) 0).bind fun a => run (argStep (onlyFirst 9)) ((Heap.init, a.1), a.2) [.strcpy [97, 0], .strcpy [98, 0]]) =
      .ok [(), ()] ∧
    observe ((argCreate (onlyFirst 8) 0).bind fun a => run (argStep (onlyFirst 8)) ((Heap.init, a.1), a.2) [.strcpy [97, 0], .strcpy [98, 0]]) = .ub ∧
    observe ((argCreate (onlyFirst 6) 0).bind fun a => run (argStep (onlyFirst 6)) ((Heap.init, a.1), a.2) [.strcpy [97, 0], .strcpy [98, 0]]) = .fatal ∧
    observe ((argCreate (onlyFirst 3) 0).bind fun a => run (argStep (onlyFirst 3)) ((Heap.init, a.1), a.2) [.strcpy [97, 0], .strcpy [98, 0]]) = .fatal := by
  refine ⟨?_, ?_, ?_, ?_⟩
  all_goals rfl

/-- `arg_argify("a b", 0)`: four, then two for each piece, two to finish each item, and one enlargement. -/
example : (argify (onlyFirst 13) Heap.init [97, 32, 98, 0] 0 0).bind (fun r => .ok r.2) = .ok 13 ∧
    (argify (onlyFirst 12) Heap.init [97, 32, 98, 0] 0 0).bind (fun r => .ok r.2) = .ub ∧
    (argify (onlyFirst 11) Heap.init [97, 32, 98, 0] 0 0).bind (fun r => .ok r.2) = .fatal := by
  refine ⟨?_, ?_, ?_⟩
  all_goals rfl

end Maa.Oom
