import Verif.Props.Timer

/-! # Property C65: printing the timers, maa/timer.c -/

namespace Maa.Timer

open Spec (Timeval Reading Timers TimOp)
open NameTab (strOps)

/-- A state some program reaches by calls on timers, `T` being the timers a user has then; printing is allowed in between. -/
inductive Reach : State → Timers → Prop
  | init : Reach State.init (fun _ => none)
  | call {σ σ' : State} {T T' : Timers} {o : TimOp} {x y : Int} : Reach σ T → o.Proper → step σ o = .ok (σ', x) →
      Spec.timStep difftime T o = .ok (T', y) → Reach σ' T'
  | print {σ σ' : State} {T : Timers} {out : List Byte} : Reach σ T → timPrintTimers σ = .ok (σ', out) → Reach σ' T
  | printOne {σ σ' : State} {T : Timers} {n out : List Byte} : Reach σ T → (0 : Byte) ∉ n →
      timPrintTimer σ (some (CStr.ofStr n)) = .ok (σ', out) → Reach σ' T

theorem format_line (n : List Byte) (e : Entry) :
    format n e.real (e.self_user + e.children_user) (e.self_system + e.children_system) = Spec.timerLine n (view e) := by
  have h1 : " ".toUTF8.toList = [32] := by decide +kernel
  have h2 : ".000r ".toUTF8.toList = [46, 48, 48, 48, 114, 32] := by decide +kernel
  have h3 : ".000u ".toUTF8.toList = [46, 48, 48, 48, 117, 32] := by decide +kernel
  have h4 : ".000s\n".toUTF8.toList = [46, 48, 48, 48, 115, 10] := by decide +kernel
  unfold format Spec.timerLine fixed3 pad20 view
  rw [h1, h2, h3, h4]
  simp only [List.append_assoc, List.cons_append, List.nil_append]

theorem find_of_mem {m : List (List Byte × Nat)} (hd : (m.map Prod.fst).Nodup) {p : List Byte × Nat} (h : p ∈ m) :
    Spec.find (· == ·) m p.1 = some p.2 := by
  cases hf : Spec.find (· == ·) m p.1 with
  | none => exact absurd (List.mem_map_of_mem h) (find_none hf)
  | some d =>
    have := List.inj_on_of_nodup_map hd (find_mem hf) h rfl
    rw [← this]

/-- the iteration of `tim_print_timers` over the remaining timers -/
theorem visit_print {m : List (List Byte × Nat)} {mem : Nat → Option Entry} {fresh : Nat} {T : Timers} (hr : Rep m mem fresh T)
    (hnul : ∀ p ∈ m, (0 : Byte) ∉ p.1) : ∀ (order : List (List Byte × Ptr)), (order.map Prod.fst).Nodup → (∀ p ∈ order, p ∈ m) →
    ∀ (r ms : Nat) (out : List Byte), ∃ (r' ms' : Nat) (ls : List (List Byte × Spec.Timer)),
      Spec.visit (Spec.hashCallStep (eqv strOps)) (timIterator mem) order { map := m, readonly := 0, retrievals := r, misses := ms } (.ok out) =
        .ok ({ map := m, readonly := 0, retrievals := r', misses := ms' }, .ok (out ++ ls.flatMap fun p => Spec.timerLine p.1 p.2), 0) ∧
      ls.map Prod.fst = order.map Prod.fst ∧ ∀ p ∈ ls, T p.1 = some p.2 := by
  intro order
  induction order with
  | nil => intro _ _ r ms out; exact ⟨r, ms, [], by simp [Spec.visit], rfl, by simp⟩
  | cons p l ih =>
    intro hd hm r ms out
    simp only [List.map_cons, List.nodup_cons] at hd
    have hp := hm p (by simp)
    obtain ⟨e, he, hT⟩ := hr.live p hp
    have hp0 : p.2 ≠ 0 := Nat.pos_iff_ne_zero.1 (hr.pos p hp).1
    have hfind : Spec.find (eqv strOps) m p.1 = some p.2 := by
      rw [NameTab.find_eqv hnul (hnul p hp)]
      exact find_of_mem hr.keys hp
    have hany : l.any (fun q => eqv strOps q.1 p.1) = false := by
      rw [List.any_eq_false]
      intro q hq hc
      rw [NameTab.eqv_strOps (hnul q (hm q (by simp [hq]))) (hnul p hp), beq_iff_eq] at hc
      exact hd.1 (hc ▸ List.mem_map_of_mem hq)
    have hstep : ∀ r ms : Nat, Spec.hashCallStep (eqv strOps) l { map := m, readonly := 0, retrievals := r, misses := ms } (.retrieve p.1) =
        .ok ({ map := m, readonly := 0, retrievals := r + 1, misses := ms }, .ptr p.2) := by
      intro r ms
      simp only [Spec.hashCallStep, hany, Spec.hashStep, hfind]
      rfl
    obtain ⟨r', ms', ls, h1, h2, h3⟩ := ih hd.2 (fun q hq => hm q (by simp [hq])) (r + 1 + 1 + 1) ms (out ++ Spec.timerLine p.1 (view e))
    refine ⟨r', ms', (p.1, view e) :: ls, ?_, by simp [h2], ?_⟩
    · simp only [Spec.visit, timIterator, Spec.Calls.run, hstep, Res.bind, withEntry, if_neg hp0, he]
      simp only [ne_eq, not_true_eq_false, if_false, format_line]
      rw [h1]
      simp
    · intro q hq
      rcases List.mem_cons.1 hq with rfl | hq
      · exact hT
      · exact h3 q hq

theorem print_sim {σ : State} {T : Timers} (h : Sim σ T) :
    ∃ (σ' : State) (ls : List (List Byte × Spec.Timer)),
      timPrintTimers σ = .ok (σ', ls.flatMap fun p => Spec.timerLine p.1 p.2) ∧ Sim σ' T ∧
      (ls.map Prod.fst).Nodup ∧ ∀ n t, (n, t) ∈ ls ↔ T n = some t := by
  obtain ⟨hf, m, hr, hh⟩ := h
  unfold timPrintTimers
  cases hx : σ.hash with
  | none =>
    rw [hx] at hh
    simp only at hh
    refine ⟨σ, [], rfl, ⟨hf, m, hr, by rw [hx]; exact hh⟩, by simp, fun n t => ⟨by simp, fun hT => ?_⟩⟩
    have := hr.only n (by rw [hT]; simp)
    simp [hh] at this
  | some t =>
    rw [hx] at hh
    obtain ⟨order, r, ms, hperm, h1⟩ := hh.iterate (timIterator σ.mem) (.ok [])
    obtain ⟨r', ms', ls, h2, h3, h4⟩ := visit_print hr hh.nul order ((hperm.map Prod.fst).nodup_iff.2 hr.keys)
      (fun p hp => hperm.mem_iff.1 hp) r ms []
    rw [h2] at h1
    have h5 := h1 (by simp)
    simp only
    cases hc : NameTab.iterate t (timIterator σ.mem) (.ok []) with
    | ok c =>
      rw [hc] at h5
      simp only [Spec.ResRel] at h5
      obtain ⟨e1, e2⟩ := h5
      simp only [Res.bind, e1]
      have hk : ls.map Prod.fst = order.map Prod.fst := h3
      have hkp : (ls.map Prod.fst).Perm (m.map Prod.fst) := hk ▸ hperm.map Prod.fst
      refine ⟨_, ls, rfl, ⟨hf, m, hr, ⟨⟨r', ms', e2⟩, hh.nul⟩⟩, hkp.nodup_iff.2 hr.keys, fun n t => ⟨fun h => h4 _ h, fun hT => ?_⟩⟩
      obtain ⟨q, hq, rfl⟩ := List.mem_map.1 (hkp.mem_iff.2 (hr.only n (by rw [hT]; simp)))
      have := h4 q hq
      rw [hT] at this
      cases this
      exact hq
    | _ => rw [hc] at h5; exact absurd h5 (by simp [Spec.ResRel])

theorem printOne_sim {σ : State} {T : Timers} (h : Sim σ T) (n : List Byte) (hn : (0 : Byte) ∉ n) :
    match T n with
    | none => timPrintTimer σ (some (CStr.ofStr n)) = .abort
    | some t => ∃ σ', timPrintTimer σ (some (CStr.ofStr n)) = .ok (σ', Spec.timerLine n t) ∧ Sim σ' T := by
  have hl := lookup_sim h n hn
  cases hT : T n with
  | none =>
    rw [hT] at hl
    simp only at hl
    simp only [timPrintTimer, timGetReal, hl, Res.bind]
  | some v =>
    rw [hT] at hl
    obtain ⟨t1, m1, p1, e1, a1, a2, a3, a4, a5, a6⟩ := hl
    have s1 : Sim { σ with hash := some t1 } T := ⟨h.1, m1, a3, a2⟩
    have hl2 := lookup_sim s1 n hn
    rw [hT] at hl2
    obtain ⟨t2, m2, p2, e2, b1, b2, b3, b4, b5, b6⟩ := hl2
    have s2 : Sim { σ with hash := some t2 } T := ⟨h.1, m2, b3, b2⟩
    have hl3 := lookup_sim s2 n hn
    rw [hT] at hl3
    obtain ⟨t3, m3, p3, e3, c1, c2, c3, c4, c5, c6⟩ := hl3
    simp only at b1 b5 c1 c5
    refine ⟨{ σ with hash := some t3 }, ?_, ⟨h.1, m3, c3, c2⟩⟩
    have hk : NameTab.argKey (some (CStr.ofStr n)) = .ok n := CStr.cstr_append n hn []
    simp only [timPrintTimer, timGetReal, timGetUser, timGetSystem, a1, b1, c1, Res.bind, deref, a5, b5, c5, hk]
    have v2 : v.user = e2.self_user + e2.children_user := by rw [b6]; rfl
    have v3 : v.system = e3.self_system + e3.children_system := by rw [c6]; rfl
    have h1 := format_line n e1
    rw [← a6] at h1
    rw [← h1, ← v2, ← v3]
    simp only [Res.ok.injEq, Prod.mk.injEq, true_and]
    rw [a6]
    rfl

theorem Reach.sim {σ : State} {T : Timers} (h : Reach σ T) : Sim σ T := by
  induction h with
  | init => exact Sim.init
  | call _ ho hm hs ih =>
    have := step_sim _ _ _ ho ih
    rw [hm, hs] at this
    exact this.2
  | print _ hm ih =>
    obtain ⟨σ', ls, h1, h2, -⟩ := print_sim ih
    rw [hm] at h1
    cases h1
    exact h2
  | @printOne σ σ' T n out _ hn hm ih =>
    have := printOne_sim ih n hn
    rw [hm] at this
    cases hT : T n <;> rw [hT] at this
    · simp at this
    · obtain ⟨σ'', e, h2⟩ := this
      cases e
      exact h2

/-- C65: `tim_print_timers` prints one line for each existing timer, in some order, and nothing else: the timers printed are
exactly the existing ones, each with the values the getters return.  It never fails and no timer changes. -/
theorem C65_print_timers (σ : State) (T : Timers) (h : Reach σ T) :
    ∃ (σ' : State) (ls : List (List Byte × Spec.Timer)),
      timPrintTimers σ = .ok (σ', ls.flatMap fun p => Spec.timerLine p.1 p.2) ∧ Reach σ' T ∧
      (ls.map Prod.fst).Nodup ∧ ∀ n t, (n, t) ∈ ls ↔ T n = some t := by
  obtain ⟨σ', ls, h1, -, h2⟩ := print_sim h.sim
  exact ⟨σ', ls, h1, h.print h1, h2⟩

/-- C65: `tim_print_timer` prints the line of that timer and changes none; an unknown timer or a NULL name aborts. -/
theorem C65_print_timer (σ : State) (T : Timers) (h : Reach σ T) :
    (∀ n, (0 : Byte) ∉ n → match T n with
      | none => timPrintTimer σ (some (CStr.ofStr n)) = .abort
      | some t => ∃ σ', timPrintTimer σ (some (CStr.ofStr n)) = .ok (σ', Spec.timerLine n t) ∧ Reach σ' T) ∧
    timPrintTimer σ none = .abort := by
  refine ⟨fun n hn => ?_, ?_⟩
  · have := printOne_sim h.sim n hn
    cases hT : T n <;> rw [hT] at this
    · exact this
    · obtain ⟨σ', h1, -⟩ := this
      exact ⟨σ', h1, h.printOne hn h1⟩
  · obtain ⟨m, t, h1, -, -⟩ := check_sim h.sim
    simp only [timPrintTimer, timGetReal, lookup_none σ t h1, Res.bind]

/-- C65: in such a state every further call returns what the timers `T` say, printing in between or not. -/
theorem C65_values_kept (σ : State) (T : Timers) (h : Reach σ T) (hist : List TimOp) (hp : ∀ o ∈ hist, o.Proper) :
    Spec.observe (Spec.run step σ hist) = Spec.observe (Spec.run (Spec.timStep difftime) T hist) :=
  (Spec.run_sim_of TimOp.Proper Sim _ _ step_sim _ _ hist hp h.sim).observe

/-- Non-vacuity: two timers, printed. -/
example : ((Spec.run step State.init [.start (some [97]) (all ⟨5, 0⟩), .start (some [98]) (all ⟨6, 7⟩), .stop (some [97]) (all ⟨9, 3⟩)]).bind
    fun q => (timPrintTimers q.1).bind fun r => .ok r.2) =
    .ok "b                    0.000r 0.000u 0.000s\na                    4.000r 8.000u 8.000s\n".toUTF8.toList := by decide +kernel

end Maa.Timer
