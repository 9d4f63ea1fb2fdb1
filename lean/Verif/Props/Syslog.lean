import Verif.Model.Syslog
import Verif.Props.Log
import Verif.Props.Borrowed

/-! # Property C94: the identity given to log_syslog -/

namespace Maa.Syslog

open Spec (LogEvent LogOp SysEntry SysCall Sinks Loans Memory ResRel Honoured stringAt sysLoans sysStep deliver)
open Log (facilitynames okBind)
open Borrowed (text_iff memOf)

/-- The tag kept by address and the tag kept by contents. -/
def SameTag (m : Memory) (tag : Ptr) (c : Option (List Byte)) : Prop := (tag = 0 ∧ c = none) ∨ (tag ≠ 0 ∧ ∃ s, c = some s ∧ stringAt m tag = some s)

theorem SameTag.text {m : Memory} {tag : Ptr} {c : Option (List Byte)} (h : SameTag m tag c) : tagText m tag = .ok c := by
  unfold tagText
  rcases h with ⟨rfl, rfl⟩ | ⟨h0, s, rfl, hs⟩
  · rfl
  · rw [if_neg h0, text_iff.2 hs]; rfl

/-- is the event an `openlog` or `closelog`? -/
def opens : LogEvent → Bool
  | .openlog _ _ | .closelog => true
  | _ => false

theorem library_quiet {m : Memory} (p : Ptr) {tag : Ptr} {c : Option (List Byte) × Int} (h : SameTag m tag c.1) :
    ∀ es : List LogEvent, (∀ e ∈ es, opens e = false) → library m p tag c.2 es = .ok ((tag, c.2), (deliver c es).2) ∧ (deliver c es).1 = c := by
  intro es
  induction es with
  | nil => intro _; exact ⟨rfl, rfl⟩
  | cons e es ih =>
    intro he
    obtain ⟨h1, h2⟩ := ih fun e h => he e (by simp [h])
    have h3 := he e (by simp)
    cases e with
    | openlog _ _ => cases h3
    | closelog => cases h3
    | syslog l t => simp only [library, h.text, okBind, h1, deliver, h2, and_self]
    | _ => simp only [library, h1, deliver, h2, and_self]

theorem library_append {m : Memory} (p tag : Ptr) (c : Option (List Byte) × Int) (es fs : List LogEvent)
    (he : ∀ e ∈ es, opens e = false ∧ e.elsewhere = true) :
    library m p tag c.2 (es ++ fs) = library m p tag c.2 fs ∧ deliver c (es ++ fs) = deliver c fs := by
  induction es with
  | nil => exact ⟨rfl, rfl⟩
  | cons e es ih =>
    obtain ⟨h1, h2⟩ := ih fun e h => he e (by simp [h])
    obtain ⟨h3, h4⟩ := he e (by simp)
    cases e <;> simp only [opens, LogEvent.elsewhere, reduceCtorEq] at h3 h4 <;> exact ⟨h1, h2⟩

/-- events of other sinks only -/
def Elsewhere (es : List LogEvent) : Prop := ∀ e ∈ es, opens e = false ∧ e.elsewhere = true

theorem Elsewhere.append {a b : List LogEvent} (h1 : Elsewhere a) (h2 : Elsewhere b) : Elsewhere (a ++ b) := by
  intro e he
  rcases List.mem_append.1 he with h | h
  · exact h1 e h
  · exact h2 e h

theorem openEvents_elsewhere (n : List Byte) (fd : Int) : Elsewhere (Spec.openEvents n fd) := by
  intro e he
  simp only [Spec.openEvents, List.mem_append, List.mem_map, List.mem_singleton] at he
  rcases he with ⟨_, -, rfl⟩ | rfl <;> exact ⟨rfl, rfl⟩

theorem toFile_elsewhere {S S' : Sinks} {line : List Byte} {env : Spec.LogEnv} {es : List LogEvent} (h : S.toFile line env = .ok (S', es)) :
    Elsewhere es ∧ S'.syslog = S.syslog := by
  unfold Sinks.toFile at h
  split at h
  · simp only [Res.ok.injEq, Prod.mk.injEq] at h
    obtain ⟨rfl, rfl⟩ := h
    exact ⟨by simp [Elsewhere], rfl⟩
  · split at h
    · cases h
    split at h
    · simp only [Res.ok.injEq, Prod.mk.injEq] at h
      obtain ⟨rfl, rfl⟩ := h
      exact ⟨by simp [Elsewhere, opens, LogEvent.elsewhere], rfl⟩
    split at h
    · cases h
    simp only [Res.ok.injEq, Prod.mk.injEq] at h
    obtain ⟨rfl, rfl⟩ := h
    exact ⟨((by simp [Elsewhere, opens, LogEvent.elsewhere] : Elsewhere _).append (openEvents_elsewhere _ _)).append
      (by simp [Elsewhere, opens, LogEvent.elsewhere]), rfl⟩

theorem toStream_elsewhere (S : Sinks) (line text : List Byte) : Elsewhere (S.toStream line text) := by
  unfold Sinks.toStream
  split
  · simp [Elsewhere]
  · split <;> simp [Elsewhere, opens, LogEvent.elsewhere]

theorem closeFile_elsewhere (S : Sinks) : Elsewhere S.closeFile.2 := by
  unfold Sinks.closeFile
  split <;> simp [Elsewhere, opens, LogEvent.elsewhere]

theorem closeStream_elsewhere (S : Sinks) : Elsewhere S.closeStream.2 := by
  unfold Sinks.closeStream
  split
  · simp [Elsewhere]
  · dsimp only; split <;> simp [Elsewhere, opens, LogEvent.elsewhere]

/-- what all calls but `log_syslog` and `log_close` do to syslog -/
theorem quiet_step {S S' : Sinks} {o : LogOp} {es : List LogEvent} (h : Spec.logStep facilitynames S o = .ok (S', es))
    (h1 : ∀ i, o ≠ .syslog i) (h2 : o ≠ .close) : S'.syslog = S.syslog ∧ ∀ e ∈ es, opens e = false := by
  have weak : ∀ {es : List LogEvent}, Elsewhere es → ∀ e ∈ es, opens e = false := fun he e hm => (he e hm).1
  cases o with
  | syslog i => exact absurd rfl (h1 i)
  | close => exact absurd rfl h2
  | file i n env =>
    have close : ∀ {S' : Sinks} {es : List LogEvent}, (Res.ok S.closeFile : Res (Sinks × List LogEvent)) = .ok (S', es) →
        S'.syslog = S.syslog ∧ ∀ e ∈ es, opens e = false := by
      intro S' es h
      simp only [Res.ok.injEq] at h
      have e1 : S' = S.closeFile.1 := by rw [h]
      have e2 : es = S.closeFile.2 := by rw [h]
      rw [e1, e2]
      exact ⟨by unfold Sinks.closeFile; split <;> rfl, weak (closeFile_elsewhere S)⟩
    cases i with
    | none => cases n <;> exact close h
    | some i =>
      cases n with
      | none => exact close h
      | some n =>
        simp only [Spec.logStep] at h
        split at h
        · cases h
        split at h
        · cases h
        split at h
        · simp only [Res.ok.injEq, Prod.mk.injEq] at h
          obtain ⟨rfl, rfl⟩ := h
          exact ⟨rfl, by simp⟩
        split at h
        · cases h
        simp only [Res.ok.injEq, Prod.mk.injEq] at h
        obtain ⟨rfl, rfl⟩ := h
        exact ⟨rfl, weak (openEvents_elsewhere _ _)⟩
  | stream i n env =>
    have close : ∀ {S' : Sinks} {es : List LogEvent}, (Res.ok S.closeStream : Res (Sinks × List LogEvent)) = .ok (S', es) →
        S'.syslog = S.syslog ∧ ∀ e ∈ es, opens e = false := by
      intro S' es h
      simp only [Res.ok.injEq] at h
      have e1 : S' = S.closeStream.1 := by rw [h]
      have e2 : es = S.closeStream.2 := by rw [h]
      rw [e1, e2]
      exact ⟨by unfold Sinks.closeStream; split <;> rfl, weak (closeStream_elsewhere S)⟩
    cases i with
    | none => cases n <;> exact close h
    | some i =>
      cases n with
      | none => exact close h
      | some n =>
        simp only [Spec.logStep] at h
        split at h
        · cases h
        simp only [Res.ok.injEq, Prod.mk.injEq] at h
        obtain ⟨rfl, rfl⟩ := h
        exact ⟨rfl, by simp⟩
  | option o =>
    simp only [Spec.logStep, Res.ok.injEq, Prod.mk.injEq] at h
    obtain ⟨rfl, rfl⟩ := h
    exact ⟨rfl, by simp⟩
  | facility n =>
    simp only [Spec.logStep] at h
    split at h
    · cases h
    · simp only [Res.ok.injEq, Prod.mk.injEq] at h
      obtain ⟨rfl, rfl⟩ := h
      exact ⟨rfl, by simp⟩
  | message r l t env =>
    simp only [Spec.logStep] at h
    cases hx : S.toFile (S.line r t env) env <;> rw [hx] at h <;> simp only [Res.bind, reduceCtorEq, Res.ok.injEq, Prod.mk.injEq] at h
    rename_i x
    obtain ⟨rfl, rfl⟩ := h
    obtain ⟨k1, k2⟩ := toFile_elsewhere (S' := x.1) (es := x.2) hx
    refine ⟨k2, ?_⟩
    intro e he
    rcases List.mem_append.1 he with he | he
    · exact weak (k1.append (toStream_elsewhere _ _ _)) e he
    · split at he
      · simp only [List.mem_singleton] at he
        subst he; rfl
      · simp at he

/-- The program with addresses and the program with contents. -/
structure Rel (B : Loans) (σ : State) (S : Sinks × (Option (List Byte) × Int)) : Prop where
  sim : Log.Sim σ.vars S.1
  tag : (σ.tag = 0 ∧ S.2.1 = none) ∨ (σ.tag ≠ 0 ∧ ∃ s, S.2.1 = some s ∧ (σ.tag, s) ∈ B)
  facility : σ.facility = S.2.2
  closed : S.1.syslog = false → S.2.1 = none

theorem Rel.same {B : Loans} {σ : State} {S : Sinks × (Option (List Byte) × Int)} (h : Rel B σ S) {m : Memory} (hk : B.Kept m) :
    SameTag m σ.tag S.2.1 := by
  rcases h.tag with ⟨h1, h2⟩ | ⟨h1, s, h2, h3⟩
  · exact Or.inl ⟨h1, h2⟩
  · exact Or.inr ⟨h1, s, h2, hk _ h3⟩

theorem log_step {B : Loans} {σ : State} {S : Sinks × (Option (List Byte) × Int)} (h : Rel B σ S) {m : Memory} (hk : B.Kept m) (o : LogOp)
    (ho : ∀ i, o ≠ .syslog i) :
    ResRel (fun c b => c.2 = b.2 ∧ Rel (sysLoans B m (.log o)) c.1 b.1) (step σ (m, .log o)) (sysStep facilitynames S o) := by
  have hs := Log.step_sim σ.vars S.1 o h.sim
  unfold step sysStep
  simp only
  cases hx : Log.step σ.vars o <;> cases hy : Spec.logStep facilitynames S.1 o <;> rw [hx, hy] at hs <;> simp only [Log.Rel, ResRel] at hs <;>
    simp only [Res.bind, ResRel]
  rename_i a b
  obtain ⟨e, hs⟩ := hs
  rw [e]
  by_cases hc : o = .close
  · subst hc
    simp only [Spec.logStep, Res.ok.injEq] at hy
    subst hy
    obtain ⟨l1, l2⟩ := library_append (m := m) 0 σ.tag S.2 (S.1.closeFile.2 ++ S.1.closeStream.2) S.1.closeSyslog.2
      ((closeFile_elsewhere _).append (closeStream_elsewhere _))
    rw [h.facility, l1, l2]
    cases hb : S.1.syslog with
    | false =>
      have h1 := h.closed hb
      have e1 : S.1.closeSyslog.2 = [] := by unfold Sinks.closeSyslog; rw [hb]; rfl
      rw [e1]
      refine ⟨rfl, hs, ?_, rfl, fun _ => h1⟩
      rcases h.tag with ⟨h2, h3⟩ | ⟨-, s, h3, -⟩
      · exact Or.inl ⟨h2, h3⟩
      · rw [h1] at h3; cases h3
    | true =>
      have e1 : S.1.closeSyslog.2 = [.closelog] := by unfold Sinks.closeSyslog; rw [hb]; rfl
      rw [e1]
      exact ⟨rfl, hs, Or.inl ⟨rfl, rfl⟩, rfl, fun _ => rfl⟩
  · obtain ⟨q1, q2⟩ := quiet_step (S' := b.1) (es := b.2) hy ho hc
    obtain ⟨l1, l2⟩ := library_quiet 0 (h.same hk) b.2 q2
    rw [h.facility, l1]
    simp only
    have hB : sysLoans B m (.log o) = B := by
      cases o <;> first | rfl | exact absurd rfl hc
    rw [hB, l2]
    exact ⟨trivial, hs, h.tag, rfl, fun hb => h.closed (q1 ▸ hb)⟩

theorem step_rel {B : Loans} {σ : State} {S : Sinks × (Option (List Byte) × Int)} (h : Rel B σ S) {m : Memory} (hk : B.Kept m) {o : SysCall} {o' : LogOp}
    (ho : o.spelled m = some o') :
    ResRel (fun c b => c.2 = b.2 ∧ Rel (sysLoans B m o) c.1 b.1) (step σ (m, o)) (sysStep facilitynames S o') := by
  cases o with
  | log c =>
    have hc : ∀ i, c ≠ .syslog i := by rintro i rfl; simp [SysCall.spelled] at ho
    have : o' = c := by
      cases c <;> simp only [SysCall.spelled, Option.some.injEq, reduceCtorEq] at ho <;> exact ho.symm
    subst this
    exact log_step h hk _ hc
  | syslog p =>
    simp only [SysCall.spelled, Option.map_eq_some_iff] at ho
    obtain ⟨n, hn, rfl⟩ := ho
    rcases Borrowed.nameAt_cases hn with ⟨rfl, rfl⟩ | ⟨s, hs, rfl⟩
    · have hs := Log.syslog_sim h.sim none facilitynames
      have hB : sysLoans B m (.syslog 0) = [] := rfl
      rw [hB]
      unfold step logSyslog sysStep
      simp only [if_true]
      have hx := h.sim.syslog
      simp only [Log.logSyslog, Spec.logStep, Sinks.closeSyslog] at hs ⊢
      cases hb : S.1.syslog with
      | false =>
        have h1 := h.closed hb
        rw [hb] at hx hs
        simp only [Bool.false_eq_true, if_false] at hx hs
        rw [if_pos hx] at hs ⊢
        simp only [Res.bind, library, deliver, ResRel, if_false, Bool.false_eq_true]
        refine ⟨by simp, hs.2, ?_, h.facility, fun _ => h1⟩
        rcases h.tag with ⟨h2, h3⟩ | ⟨-, s, h3, -⟩
        · exact Or.inl ⟨h2, h3⟩
        · rw [h1] at h3; cases h3
      | true =>
        rw [hb] at hx hs
        simp only [if_true] at hx hs
        rw [if_neg (by omega)] at hs ⊢
        simp only [Res.bind, library, deliver, ResRel, if_true]
        exact ⟨by simp, hs.2, Or.inl ⟨rfl, rfl⟩, h.facility, fun _ => rfl⟩
    · have hp : p ≠ 0 := by rintro rfl; simp [stringAt] at hs
      have hsim := Log.syslog_sim h.sim (some s) facilitynames
      have hB : sysLoans B m (.syslog p) = (p, s) :: B := by simp [sysLoans, hs]
      rw [hB]
      unfold step logSyslog sysStep
      simp only [if_neg hp]
      have hx := h.sim.syslog
      simp only [Log.logSyslog, Spec.logStep] at hsim ⊢
      cases hb : S.1.syslog with
      | true =>
        rw [hb] at hx
        simp only [if_true] at hx
        rw [if_pos (by omega)]
        simp [Res.bind, ResRel]
      | false =>
        rw [hb] at hx hsim
        simp only [Bool.false_eq_true, if_false] at hx hsim
        rw [if_neg (by omega)] at hsim ⊢
        simp only [Res.bind, library, deliver, ResRel, if_false, Bool.false_eq_true]
        exact ⟨by simp [LogEvent.elsewhere], hsim.2, Or.inr ⟨hp, s, rfl, by simp⟩, h.sim.facility, fun hb => by cases hb⟩

/-- C94: a program that leaves the identity as it is while syslog is open: every history of calls with the identity given by address does what it does with
the identity given by contents: a message arrives under the identity that was given, with the facility chosen before. -/
theorem C94_identity (hist : List (Memory × SysCall)) (hist' : List LogOp) (strings : hist.map (fun x => x.2.spelled x.1) = hist'.map some)
    (kept : Honoured sysLoans [] hist) :
    Spec.observe (Spec.run step State.init hist) = Spec.observe (Spec.run (sysStep facilitynames) (Sinks.init, none, 8) hist') :=
  ResRel.observe (R := fun c b => ∃ B, Rel B c b)
    (Borrowed.run_loans (R := Rel) (P := fun _ => True) (fun _ _ _ _ _ _ h hk ho _ => step_rel h hk ho) hist hist' [] _ _
      ⟨Log.Sim.init, Or.inl ⟨rfl, rfl⟩, rfl, fun _ => rfl⟩ kept strings fun _ _ => trivial)

/-- Answers of the system; the log file, if there is one, is descriptor 5. -/
def env0 : Spec.LogEnv := { expand := id, fd := 5, host := [], date := [], pid := [] }

/-- `log_info` with a text. -/
def info (text : List Byte) : SysCall := .log (.message none 6 text env0)

/-- Non-vacuity for `C94_identity`: "a" with facility "mail", chosen before; a facility chosen later does not count; closed, and opened as "b" from the
same buffer, which is then released. -/
example : let h : List (Memory × SysCall) := [(memOf [], .log (.facility [109, 97, 105, 108])), (memOf [(100, [97])], .syslog 100),
      (memOf [(100, [97])], .log (.facility [117, 115, 101, 114])), (memOf [(100, [97])], info [120]), (memOf [(100, [97])], .syslog 0),
      (memOf [(100, [98])], info [121]), (memOf [(100, [98])], .syslog 100), (memOf [(100, [98])], info [122]), (memOf [(100, [98])], .log .close), (memOf [], info [122])]
    (h.map fun x => (x.2.spelled x.1).isSome) = h.map (fun _ => true) ∧ Honoured sysLoans [] h ∧
    Spec.observe (Spec.run step State.init h) = .ok [([], []), ([], []), ([], []), ([], [⟨some [97], 16, 6, [120]⟩]), ([], []), ([], []), ([], []),
      ([], [⟨some [98], 8, 6, [122]⟩]), ([], []), ([], [])] := by
  refine ⟨by decide +kernel, ?_, by decide +kernel⟩
  simp only [Honoured, sysLoans, info, Loans.Kept]
  decide +kernel

/-- C94: the identity is not copied: when the caller's buffer changes, so does the identity under which messages arrive. -/
theorem C94_changed_refuted (text : List Byte) : Spec.observe (Spec.run step State.init [(memOf [(100, [97])], .syslog 100), (memOf [(100, [98])], info text)]) =
    .ok [([], []), ([], [⟨some [98], 8, 6, text⟩])] := by rfl

/-- C94: when it is released, the next message reads released memory. -/
theorem C94_released_refuted (text : List Byte) :
    Spec.observe (Spec.run step State.init [(memOf [(100, [97])], .syslog 100), (memOf [], info text)]) = .ub := by rfl

end Maa.Syslog
