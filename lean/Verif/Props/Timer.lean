import Verif.Model.Timer
import Verif.Lemmas.NameTab

/-! # Property C44: timers, maa/timer.c -/

namespace Maa.Timer

open Spec (Timeval Reading Timers TimOp elapsedMicros)

/-- what a user sees of an entry -/
def view (e : Entry) : Spec.Timer :=
  { real := e.real, user := e.self_user + e.children_user, system := e.self_system + e.children_system, started := e.mark }

/-- names and entries agree with the user's timers -/
structure Rep (m : List (List Byte × Nat)) (mem : Nat → Option Entry) (fresh : Nat) (T : Timers) : Prop where
  pos : ∀ p ∈ m, 0 < p.2 ∧ p.2 < fresh
  nodup : (m.map Prod.snd).Nodup
  keys : (m.map Prod.fst).Nodup
  live : ∀ p ∈ m, ∃ e, mem p.2 = some e ∧ T p.1 = some (view e)
  only : ∀ n, T n ≠ none → n ∈ m.map Prod.fst
  owned : ∀ q, mem q ≠ none → q ∈ m.map Prod.snd

/-- model and specification states agree -/
def Sim (σ : State) (T : Timers) : Prop :=
  0 < σ.fresh ∧ ∃ m, Rep m σ.mem σ.fresh T ∧
    match σ.hash with
    | none => m = []
    | some t => NameTab.NRep t m

theorem Sim.init : Sim State.init (fun _ => none) :=
  ⟨by simp [State.init], [], ⟨by simp, by simp, by simp, by simp, by simp, by simp [State.init]⟩, rfl⟩

theorem okBind {α β : Type} (a : α) (f : α → Res β) : (Res.ok a).bind f = f a := rfl

theorem check_sim {σ : State} {T : Timers} (h : Sim σ T) :
    ∃ m t, check σ = .ok t ∧ NameTab.NRep t m ∧ Rep m σ.mem σ.fresh T := by
  obtain ⟨hf, m, hr, hh⟩ := h
  unfold check
  cases hx : σ.hash with
  | some t => rw [hx] at hh; exact ⟨m, t, rfl, hh, hr⟩
  | none =>
    rw [hx] at hh
    simp only at hh
    subst hh
    obtain ⟨t, h1, h2⟩ := NameTab.create_rep
    exact ⟨[], t, h1, h2, hr⟩

theorem find_mem {m : List (List Byte × Nat)} {s : List Byte} {p : Nat} (h : Spec.find (· == ·) m s = some p) : (s, p) ∈ m := by
  induction m with
  | nil => simp [Spec.find] at h
  | cons q m ih =>
    obtain ⟨k, d⟩ := q
    simp only [Spec.find] at h
    split at h
    · rename_i e
      simp only [Option.some.injEq] at h
      have := eq_of_beq e
      subst this; subst h
      simp
    · simp [ih h]

theorem find_none {m : List (List Byte × Nat)} {s : List Byte} (h : Spec.find (· == ·) m s = none) : s ∉ m.map Prod.fst := by
  induction m with
  | nil => simp
  | cons q m ih =>
    obtain ⟨k, d⟩ := q
    simp only [Spec.find] at h
    split at h
    · simp at h
    · rename_i e
      simp only [List.map_cons, List.mem_cons, not_or]
      refine ⟨fun e' => e ?_, ih h⟩
      simp [e']

theorem Rep.find {m : List (List Byte × Nat)} {mem : Nat → Option Entry} {fresh : Nat} {T : Timers} (h : Rep m mem fresh T) (n : List Byte) :
    match Spec.find (· == ·) m n with
    | none => T n = none
    | some p => p ≠ 0 ∧ ∃ e, mem p = some e ∧ T n = some (view e) := by
  cases hf : Spec.find (· == ·) m n with
  | none =>
    by_contra hc
    exact find_none hf (h.only n hc)
  | some p =>
    have := find_mem hf
    exact ⟨by have := (h.pos _ this).1; simp only at this; omega, h.live _ this⟩

/-- changing the entry of one timer -/
theorem Rep.store {m : List (List Byte × Nat)} {mem : Nat → Option Entry} {fresh : Nat} {T : Timers} (h : Rep m mem fresh T)
    {n : List Byte} {p : Nat} (hf : Spec.find (· == ·) m n = some p) (e : Entry) :
    Rep m (fun q => if q = p then some e else mem q) fresh (T.set n (view e)) := by
  have hm := find_mem hf
  refine ⟨h.pos, h.nodup, h.keys, ?_, ?_, ?_⟩
  · intro q hq
    obtain ⟨e', h1, h2⟩ := h.live q hq
    by_cases hqn : q.1 = n
    · have : q = (n, p) := List.inj_on_of_nodup_map h.keys hq hm hqn
      subst this
      exact ⟨e, by simp, by simp [Timers.set]⟩
    · have : q.2 ≠ p := fun e2 => hqn (congrArg Prod.fst (List.inj_on_of_nodup_map h.nodup hq hm e2))
      exact ⟨e', by simp [this, h1], by simp [Timers.set, hqn, h2]⟩
  · intro n' hn'
    simp only [Timers.set] at hn'
    split at hn'
    · rename_i e'
      subst e'
      exact List.mem_map.2 ⟨_, hm, rfl⟩
    · exact h.only n' hn'
  · intro q hq
    by_cases hqp : q = p
    · exact List.mem_map.2 ⟨_, hm, hqp.symm⟩
    · exact h.owned q (by simpa [hqp] using hq)

/-- adding a timer -/
theorem Rep.add {m : List (List Byte × Nat)} {mem : Nat → Option Entry} {fresh : Nat} {T : Timers} (h : Rep m mem fresh T)
    (hfr : 0 < fresh) {n : List Byte} (hf : Spec.find (· == ·) m n = none) (e : Entry) :
    Rep (Spec.insert (· == ·) m n fresh).1 (fun q => if q = fresh then some e else mem q) (fresh + 1) (T.set n (view e)) := by
  have hn := find_none hf
  simp only [Spec.insert, hf]
  refine ⟨?_, ?_, ?_, ?_, ?_, ?_⟩
  · intro q hq
    rcases List.mem_cons.1 hq with rfl | hq
    · exact ⟨hfr, by simp⟩
    · have := h.pos q hq
      omega
  · simp only [List.map_cons, List.nodup_cons]
    refine ⟨?_, h.nodup⟩
    intro hc
    obtain ⟨q, hq, e'⟩ := List.mem_map.1 hc
    have := h.pos q hq
    omega
  · simp only [List.map_cons, List.nodup_cons]
    exact ⟨hn, h.keys⟩
  · intro q hq
    rcases List.mem_cons.1 hq with rfl | hq
    · exact ⟨e, by simp, by simp [Timers.set]⟩
    · obtain ⟨e', h1, h2⟩ := h.live q hq
      have h3 : q.2 ≠ fresh := by have := h.pos q hq; omega
      have h4 : q.1 ≠ n := fun e' => hn (e' ▸ List.mem_map.2 ⟨q, hq, rfl⟩)
      exact ⟨e', by simp [h3, h1], by simp [Timers.set, h4, h2]⟩
  · intro n' hn'
    simp only [Timers.set] at hn'
    split at hn'
    · rename_i e'
      subst e'
      simp
    · simp only [List.map_cons, List.mem_cons]
      exact Or.inr (h.only n' hn')
  · intro q hq
    by_cases hqp : q = fresh
    · simp [hqp]
    · simp only [List.map_cons, List.mem_cons]
      exact Or.inr (h.owned q (by simpa [hqp] using hq))

theorem lookup_none (σ : State) (t : NameTab.Table) (h : check σ = .ok t) : lookup σ none = .abort := by
  unfold lookup
  rw [h]
  rfl

/-- the look-up succeeds exactly on existing timers -/
theorem lookup_sim {σ : State} {T : Timers} (h : Sim σ T) (n : List Byte) (hn : (0 : Byte) ∉ n) :
    match T n with
    | none => lookup σ (some (CStr.ofStr n)) = .abort
    | some v => ∃ t m p e, lookup σ (some (CStr.ofStr n)) = .ok ({ σ with hash := some t }, p) ∧ NameTab.NRep t m ∧
        Rep m σ.mem σ.fresh T ∧ Spec.find (· == ·) m n = some p ∧ σ.mem p = some e ∧ v = view e := by
  obtain ⟨m, t, h1, h2, h3⟩ := check_sim h
  obtain ⟨t', h4, h5⟩ := h2.retrieve hn []
  have h4' : NameTab.retrieve t (some (CStr.ofStr n)) = _ := h4
  have hf := h3.find n
  unfold lookup
  rw [h1]
  simp only [okBind]
  rw [h4']
  simp only [okBind]
  cases hx : Spec.find (· == ·) m n with
  | none =>
    rw [hx] at hf
    simp only at hf
    rw [hf]
    simp
  | some p =>
    rw [hx] at hf
    obtain ⟨hp, e, h6, h7⟩ := hf
    rw [h7]
    simp only [Option.getD_some, if_neg hp]
    exact ⟨t', m, p, e, rfl, h5, h3, hx, h6, rfl⟩

theorem on_sim {σ : State} {T : Timers} (h : Sim σ T) (name : Option (List Byte)) (hn : ∀ s, name = some s → (0 : Byte) ∉ s)
    (f : State × Nat → Entry → Res (State × Int)) (k : List Byte → Spec.Timer → Res (Timers × Int))
    (hfk : ∀ t m p e n, NameTab.NRep t m → Rep m σ.mem σ.fresh T → Spec.find (· == ·) m n = some p → σ.mem p = some e →
      Spec.ResRel (fun c b => c.2 = b.2 ∧ Sim c.1 b.1) (f ({ σ with hash := some t }, p) e) (k n (view e))) :
    Spec.ResRel (fun c b => c.2 = b.2 ∧ Sim c.1 b.1)
      ((lookup σ (name.map CStr.ofStr)).bind fun q => (deref q.1 q.2).bind fun e => f q e) (T.on name k) := by
  cases name with
  | none =>
    obtain ⟨m, t, h1, -, -⟩ := check_sim h
    rw [Option.map_none, lookup_none σ t h1]
    exact trivial
  | some n =>
    have hl := lookup_sim h n (hn n rfl)
    simp only [Option.map_some, Timers.on]
    cases hT : T n with
    | none =>
      rw [hT] at hl
      simp only at hl
      rw [hl]
      exact trivial
    | some v =>
      rw [hT] at hl
      obtain ⟨t, m, p, e, h1, h2, h3, h4, h5, rfl⟩ := hl
      rw [h1]
      simp only [okBind, deref, h5]
      exact hfk t m p e n h2 h3 h4 h5

theorem freeAll_ok (ps : List (List Byte × Nat)) (mem : Nat → Option Entry) (hd : (ps.map Prod.snd).Nodup) (h : ∀ p ∈ ps, mem p.2 ≠ none) :
    ∃ mem', ps.foldl timFreer (.ok mem) = .ok mem' ∧ ∀ q, mem' q = if q ∈ ps.map Prod.snd then none else mem q := by
  induction ps generalizing mem with
  | nil => exact ⟨mem, rfl, by simp⟩
  | cons p ps ih =>
    simp only [List.map_cons, List.nodup_cons] at hd
    simp only [List.foldl_cons]
    have e : timFreer (.ok mem) p = .ok fun q => if q = p.2 then none else mem q := by
      unfold timFreer
      simp only [Res.bind]
      cases hp : mem p.2 with
      | none => exact absurd hp (h p (by simp))
      | some e => rfl
    rw [e]
    obtain ⟨mem', h1, h2⟩ := ih (fun q => if q = p.2 then none else mem q) hd.2 (by
      intro q hq
      have : q.2 ≠ p.2 := fun e => hd.1 (e ▸ List.mem_map_of_mem hq)
      simp only [this, if_false]
      exact h q (by simp [hq]))
    refine ⟨mem', h1, fun q => ?_⟩
    rw [h2]
    by_cases h3 : q = p.2 <;> by_cases h4 : q ∈ ps.map Prod.snd <;> simp [h3, h4]

theorem shutdown_sim {σ : State} {T : Timers} (h : Sim σ T) :
    ∃ σ', timShutdown σ = .ok σ' ∧ Sim σ' (fun _ => none) ∧ σ'.hash = none ∧ σ'.fresh = σ.fresh ∧ ∀ q, σ'.mem q = none := by
  obtain ⟨hf, m, hr, hh⟩ := h
  unfold timShutdown
  cases hx : σ.hash with
  | none =>
    rw [hx] at hh
    simp only at hh
    have hm : ∀ q, σ.mem q = none := fun q => by
      by_contra hc
      have := hr.owned q hc
      simp [hh] at this
    exact ⟨_, rfl, ⟨hf, [], ⟨by simp, by simp, by simp, by simp, by simp, fun q hq => absurd (hm q) hq⟩, rfl⟩, rfl, rfl, hm⟩
  | some t =>
    rw [hx] at hh
    obtain ⟨order, hperm, h0⟩ := hh.iterate_quiet timFreer (.ok σ.mem)
    have hperm2 := hperm.map Prod.snd
    obtain ⟨mem', h1, h2⟩ := freeAll_ok order σ.mem (hperm2.nodup_iff.2 hr.nodup) (by
      intro p hp
      obtain ⟨e, he, -⟩ := hr.live p (hperm.mem_iff.1 hp)
      simp [he])
    simp only
    rw [h0]
    simp only [okBind, h1]
    rw [hh.destroy]
    have hm : ∀ q, mem' q = none := fun q => by
      rw [h2 q]
      split
      · rfl
      · rename_i hq
        by_contra hc
        exact hq (hperm2.mem_iff.2 (hr.owned q hc))
    exact ⟨_, rfl, ⟨hf, [], ⟨by simp, by simp, by simp, by simp, by simp, fun q hq => absurd (hm q) hq⟩, rfl⟩, rfl, rfl, hm⟩

theorem bind_assoc' {α β γ : Type} (x : Res α) (f : α → Res β) (g : β → Res γ) : (x.bind f).bind g = x.bind fun a => (f a).bind g := by
  cases x <;> rfl

theorem step_sim (σ : State) (T : Timers) (o : TimOp) (hp : o.Proper) (h : Sim σ T) :
    Spec.ResRel (fun c b => c.2 = b.2 ∧ Sim c.1 b.1) (step σ o) (Spec.timStep difftime T o) := by
  cases o with
  | start name r =>
    obtain ⟨m, t, h1, h2, h3⟩ := check_sim h
    simp only [step, timStart]
    rw [h1]
    simp only [okBind]
    cases name with
    | none => exact trivial
    | some n =>
      have hn := hp n rfl
      obtain ⟨t', h4, h5⟩ := h2.retrieve hn []
      have h4' : NameTab.retrieve t (some (CStr.ofStr n)) = _ := h4
      have hf := h3.find n
      simp only [Option.map_some, Spec.timStep]
      rw [h4']
      simp only [okBind]
      cases hx : Spec.find (· == ·) m n with
      | none =>
        rw [hx] at hf
        simp only at hf
        rw [hf]
        obtain ⟨t2, h6, h7⟩ := h5.insert hn [] σ.fresh
        have h6' : NameTab.insert t' (some (CStr.ofStr n)) σ.fresh = _ := h6
        simp only [Option.getD_none, if_true]
        rw [h6']
        simp only [okBind]
        refine ⟨rfl, ?_, _, h3.add h.1 hx _, h7⟩
        simp [store]
      | some p =>
        rw [hx] at hf
        obtain ⟨hp0, e, h6, h7⟩ := hf
        rw [h7]
        simp only [Option.getD_some, if_neg hp0, deref, h6, okBind]
        exact ⟨rfl, h.1, _, h3.store hx _, h5⟩
  | stop name r =>
    simp only [step, timStop, bind_assoc', Spec.timStep]
    refine on_sim h name (fun s e => hp s (by simp [TimOp.name, e])) _ _ ?_
    intro t m p e n h1 h2 h3 h4
    exact ⟨rfl, h.1, m, h2.store h3 _, h1⟩
  | reset name =>
    simp only [step, timReset, bind_assoc', Spec.timStep]
    refine on_sim h name (fun s e => hp s (by simp [TimOp.name, e])) _ _ ?_
    intro t m p e n h1 h2 h3 h4
    exact ⟨rfl, h.1, m, h2.store h3 _, h1⟩
  | getReal name =>
    simp only [step, timGetReal, Spec.timStep]
    refine on_sim h name (fun s e => hp s (by simp [TimOp.name, e])) _ _ ?_
    intro t m p e n h1 h2 h3 h4
    exact ⟨rfl, h.1, m, h2, h1⟩
  | getUser name =>
    simp only [step, timGetUser, Spec.timStep]
    refine on_sim h name (fun s e => hp s (by simp [TimOp.name, e])) _ _ ?_
    intro t m p e n h1 h2 h3 h4
    exact ⟨rfl, h.1, m, h2, h1⟩
  | getSystem name =>
    simp only [step, timGetSystem, Spec.timStep]
    refine on_sim h name (fun s e => hp s (by simp [TimOp.name, e])) _ _ ?_
    intro t m p e n h1 h2 h3 h4
    exact ⟨rfl, h.1, m, h2, h1⟩
  | shutdown =>
    obtain ⟨σ', h1, h2, -⟩ := shutdown_sim h
    simp only [step, Spec.timStep]
    rw [h1]
    exact ⟨rfl, h2⟩

/-- with proper clock readings the microseconds never count -/
theorem difftime_proper (now before : Timeval) (h1 : now.Proper) (h2 : before.Proper) : difftime now before = now.sec - before.sec := by
  obtain ⟨h1, h1'⟩ := h1
  obtain ⟨h2, h2'⟩ := h2
  unfold difftime
  have : (now.usec - before.usec).tdiv 1000000 = 0 := by
    rcases Int.le_total 0 (now.usec - before.usec) with h | h
    · exact Int.tdiv_eq_zero_of_lt h (by omega)
    · rw [← Int.neg_neg (now.usec - before.usec), Int.neg_tdiv, Int.tdiv_eq_zero_of_lt (by omega) (by omega)]
      rfl
  rw [this]
  omega

/-- All clock readings of a call are proper. -/
def ProperReadings : TimOp → Prop
  | .start _ r | .stop _ r => r.real.Proper ∧ r.selfUser.Proper ∧ r.selfSystem.Proper ∧ r.childUser.Proper ∧ r.childSystem.Proper
  | _ => True

/-- all recorded start times are proper -/
def GoodT (T : Timers) : Prop := ∀ n t, T n = some t →
  t.started.real.Proper ∧ t.started.selfUser.Proper ∧ t.started.selfSystem.Proper ∧ t.started.childUser.Proper ∧ t.started.childSystem.Proper

theorem run_diff (d1 d2 : Timeval → Timeval → Int) (hd : ∀ a b, a.Proper → b.Proper → d1 a b = d2 a b) (hist : List TimOp)
    (hr : ∀ o ∈ hist, ProperReadings o) (T : Timers) (hT : GoodT T) :
    Spec.run (Spec.timStep d1) T hist = Spec.run (Spec.timStep d2) T hist := by
  have good_set : ∀ (T : Timers) (n : List Byte) (t : Spec.Timer), GoodT T →
      (t.started.real.Proper ∧ t.started.selfUser.Proper ∧ t.started.selfSystem.Proper ∧ t.started.childUser.Proper ∧ t.started.childSystem.Proper) →
      GoodT (T.set n t) := by
    intro T n t hT ht n' t' he
    simp only [Timers.set] at he
    split at he
    · simp only [Option.some.injEq] at he
      rw [← he]; exact ht
    · exact hT n' t' he
  induction hist generalizing T with
  | nil => rfl
  | cons o os ih =>
    have hro := hr o (by simp)
    have heq : Spec.timStep d1 T o = Spec.timStep d2 T o ∧ ∀ r, Spec.timStep d2 T o = .ok r → GoodT r.1 := by
      cases o with
      | start name r =>
        refine ⟨by cases name <;> rfl, ?_⟩
        intro q hq
        cases name with
        | none => simp [Spec.timStep] at hq
        | some n =>
          simp only [Spec.timStep] at hq
          cases hn : T n with
          | none =>
            rw [hn] at hq
            simp only [Res.ok.injEq] at hq
            rw [← hq]
            exact good_set _ _ _ hT hro
          | some t =>
            rw [hn] at hq
            simp only [Res.ok.injEq] at hq
            rw [← hq]
            exact good_set _ _ _ hT hro
      | stop name r =>
        cases name with
        | none => exact ⟨rfl, fun q hq => by simp [Spec.timStep, Timers.on] at hq⟩
        | some n =>
          simp only [Spec.timStep, Timers.on]
          cases hn : T n with
          | none => exact ⟨rfl, fun q hq => by simp at hq⟩
          | some t =>
            have hg := hT n t hn
            obtain ⟨r1, r2, r3, r4, r5⟩ := hro
            obtain ⟨g1, g2, g3, g4, g5⟩ := hg
            simp only
            rw [hd _ _ r1 g1, hd _ _ r2 g2, hd _ _ r3 g3, hd _ _ r4 g4, hd _ _ r5 g5]
            refine ⟨rfl, fun q hq => ?_⟩
            simp only [Res.ok.injEq] at hq
            rw [← hq]
            exact good_set _ _ _ hT ⟨g1, g2, g3, g4, g5⟩
      | reset name =>
        refine ⟨rfl, fun q hq => ?_⟩
        cases name with
        | none => simp [Spec.timStep, Timers.on] at hq
        | some n =>
          simp only [Spec.timStep, Timers.on] at hq
          cases hn : T n with
          | none => rw [hn] at hq; simp at hq
          | some t =>
            rw [hn] at hq
            simp only [Res.ok.injEq] at hq
            rw [← hq]
            exact good_set _ _ _ hT (hT n t hn)
      | shutdown =>
        refine ⟨rfl, fun q hq => ?_⟩
        simp only [Spec.timStep, Res.ok.injEq] at hq
        rw [← hq]
        intro n t he
        simp at he
      | getReal name | getUser name | getSystem name =>
        refine ⟨rfl, fun q hq => ?_⟩
        cases name with
        | none => simp [Spec.timStep, Timers.on] at hq
        | some n =>
          simp only [Spec.timStep, Timers.on] at hq
          cases hn : T n with
          | none => rw [hn] at hq; simp at hq
          | some t =>
            rw [hn] at hq
            simp only [Res.ok.injEq] at hq
            rw [← hq]
            exact hT
    simp only [Spec.run]
    rw [heq.1]
    cases hx : Spec.timStep d2 T o <;> simp only [Res.bind]
    rename_i q
    rw [ih (fun o ho => hr o (by simp [ho])) q.1 (heq.2 q hx)]

/-- C44: for all histories of calls with proper names and proper clock readings, the timers behave as independent named
stop watches — abort on an unknown timer included — that show the difference of the *whole seconds* of the two clock
readings.  Missing: the microseconds (`C44_microseconds_refuted`). -/
theorem C44_timers_partial (hist : List TimOp) (hp : ∀ o ∈ hist, o.Proper) (hr : ∀ o ∈ hist, ProperReadings o) :
    Spec.observe (Spec.run step State.init hist) =
      Spec.observe (Spec.run (Spec.timStep fun now before => now.sec - before.sec) (fun _ => none) hist) := by
  rw [(Spec.run_sim_of TimOp.Proper Sim _ _ step_sim _ _ hist hp Sim.init).observe]
  rw [run_diff difftime _ (fun a b ha hb => difftime_proper a b ha hb) hist hr _ (by intro n t h; simp at h)]

/-- C44: how wrong that is: the seconds shown are off by less than one second. -/
theorem C44_error_bound (now before : Timeval) (h1 : now.Proper) (h2 : before.Proper) :
    elapsedMicros now before - 1000000 < (now.sec - before.sec) * 1000000 ∧
    (now.sec - before.sec) * 1000000 < elapsedMicros now before + 1000000 := by
  obtain ⟨h1, h1'⟩ := h1
  obtain ⟨h2, h2'⟩ := h2
  unfold elapsedMicros
  omega

/-- the reading in which every clock shows `t` -/
def all (t : Timeval) : Reading := { real := t, selfUser := t, selfSystem := t, childUser := t, childSystem := t }

/-- C44 fails: a timer stopped 0.999999 s after its start shows 0, and one stopped a microsecond after its start may show 1. -/
theorem C44_microseconds_refuted :
    Spec.observe (Spec.run step State.init [.start (some [97]) (all ⟨5, 0⟩), .stop (some [97]) (all ⟨5, 999999⟩), .getReal (some [97])]) =
      .ok [0, 0, 0] ∧
    Spec.observe (Spec.run step State.init [.start (some [97]) (all ⟨5, 999999⟩), .stop (some [97]) (all ⟨6, 0⟩), .getReal (some [97])]) =
      .ok [0, 0, 1] := by decide +kernel

/-- C44: operating on a timer never started aborts, after any history and for every kind of call. -/
theorem C44_unknown_aborts (hist : List TimOp) (hp : ∀ o ∈ hist, o.Proper) (σ : State) (xs : List Int)
    (h : Spec.run step State.init hist = .ok (σ, xs)) (n : List Byte) (hn : (0 : Byte) ∉ n)
    (hs : ∀ r, TimOp.start (some n) r ∉ hist) (r : Reading) :
    ∀ o ∈ [TimOp.stop (some n) r, .reset (some n), .getReal (some n), .getUser (some n), .getSystem (some n)], step σ o = .abort := by
  have hsim := Spec.run_sim_of TimOp.Proper Sim _ _ step_sim _ _ hist hp Sim.init
  rw [h] at hsim
  cases hx : Spec.run (Spec.timStep difftime) (fun _ => none) hist <;> rw [hx] at hsim <;> simp only [Spec.ResRel] at hsim
  rename_i q
  have key : ∀ (hist : List TimOp) (T T' : Timers) (ys : List Int), (∀ r, TimOp.start (some n) r ∉ hist) → T n = none →
      Spec.run (Spec.timStep difftime) T hist = .ok (T', ys) → T' n = none := by
    intro hist
    induction hist with
    | nil =>
      intro T T' ys _ hT hr
      simp only [Spec.run, Res.ok.injEq, Prod.mk.injEq] at hr
      rw [← hr.1]; exact hT
    | cons o os ih =>
      intro T T' ys hs hT hr
      have hset : ∀ n' t, n' ≠ n → (T.set n' t) n = none := by
        intro n' t hne
        simp only [Timers.set]
        rw [if_neg (fun e => hne e.symm)]
        exact hT
      have hstep : ∀ q, Spec.timStep difftime T o = .ok q → q.1 n = none := by
        intro q hq
        have hon : ∀ (name : Option (List Byte)) (k : List Byte → Spec.Timer → Res (Timers × Int)),
            T.on name k = .ok q → (∀ n' t, T n' = some t → k n' t = .ok q → q.1 n = none) → q.1 n = none := by
          intro name k hk hh
          cases name with
          | none => simp [Timers.on] at hk
          | some n' =>
            simp only [Timers.on] at hk
            cases hn' : T n' with
            | none => rw [hn'] at hk; simp at hk
            | some t => rw [hn'] at hk; exact hh n' t hn' hk
        cases o with
        | start name r =>
          cases name with
          | none => simp [Spec.timStep] at hq
          | some n' =>
            have hne : n' ≠ n := fun e => hs r (by rw [e]; simp)
            simp only [Spec.timStep] at hq
            cases hn' : T n' <;> rw [hn'] at hq <;> simp only [Res.ok.injEq] at hq <;> rw [← hq] <;> exact hset _ _ hne
        | shutdown =>
          simp only [Spec.timStep, Res.ok.injEq] at hq
          rw [← hq]
        | stop name r =>
          refine hon name _ hq ?_
          intro n' t ht hk
          simp only [Res.ok.injEq] at hk
          rw [← hk]
          exact hset _ _ (fun e => by rw [e, hT] at ht; cases ht)
        | reset name =>
          refine hon name _ hq ?_
          intro n' t ht hk
          simp only [Res.ok.injEq] at hk
          rw [← hk]
          exact hset _ _ (fun e => by rw [e, hT] at ht; cases ht)
        | getReal name | getUser name | getSystem name =>
          refine hon name _ hq ?_
          intro n' t ht hk
          simp only [Res.ok.injEq] at hk
          rw [← hk]
          exact hT
      simp only [Spec.run] at hr
      cases hx : Spec.timStep difftime T o with
      | ok q =>
        rw [hx] at hr
        simp only [Res.bind] at hr
        cases hy : Spec.run (Spec.timStep difftime) q.1 os with
        | ok q2 =>
          rw [hy] at hr
          simp only [Res.ok.injEq, Prod.mk.injEq] at hr
          have := ih q.1 q2.1 q2.2 (fun r hr => hs r (by simp [hr])) (hstep q hx) hy
          rw [← hr.1]; exact this
        | _ => rw [hy] at hr; simp at hr
      | _ => rw [hx] at hr; simp [Res.bind] at hr
  have hnone := key hist (fun _ => none) q.1 q.2 hs rfl hx
  intro o ho
  have hop : o.Proper := by
    intro s hs'
    simp only [List.mem_cons, List.not_mem_nil, or_false] at ho
    rcases ho with rfl | rfl | rfl | rfl | rfl <;> simp only [TimOp.name, Option.some.injEq] at hs' <;> rw [← hs'] <;> exact hn
  have h2 := step_sim σ q.1 o hop hsim.2
  have h3 : Spec.timStep difftime q.1 o = .abort := by
    simp only [List.mem_cons, List.not_mem_nil, or_false] at ho
    rcases ho with rfl | rfl | rfl | rfl | rfl <;> simp only [Spec.timStep, Timers.on, hnone]
  rw [h3] at h2
  cases hm : step σ o <;> rw [hm] at h2 <;> simp only [Spec.ResRel] at h2

/-- C44: timers with different names are independent: in the specification the timers are compared with, a call naming one
timer changes no other. -/
theorem C44_spec_independent (diff : Timeval → Timeval → Int) (T T' : Timers) (o : TimOp) (x : Int) (n m : List Byte)
    (ho : o.name = some (some n)) (hmn : m ≠ n) (h : Spec.timStep diff T o = .ok (T', x)) : T' m = T m := by
  have hset : ∀ t, (T.set n t) m = T m := fun t => by simp [Timers.set, hmn]
  cases o with
  | start name r =>
    simp only [TimOp.name, Option.some.injEq] at ho
    subst ho
    simp only [Spec.timStep] at h
    cases hn : T n <;> rw [hn] at h <;> simp only [Res.ok.injEq, Prod.mk.injEq] at h <;> rw [← h.1] <;> exact hset _
  | shutdown => simp [TimOp.name] at ho
  | stop name r | reset name | getReal name | getUser name | getSystem name =>
    simp only [TimOp.name, Option.some.injEq] at ho
    subst ho
    simp only [Spec.timStep, Timers.on] at h
    cases hn : T n <;> rw [hn] at h <;> simp only [Res.ok.injEq, Prod.mk.injEq, reduceCtorEq] at h
    rw [← h.1]
    try exact hset _

/-- Non-vacuity: two timers run interleaved. -/
example : Spec.observe (Spec.run step State.init [.start (some [97]) (all ⟨5, 0⟩), .start (some [98]) (all ⟨6, 7⟩), .stop (some [97]) (all ⟨9, 3⟩),
    .stop (some [98]) (all ⟨20, 0⟩), .getReal (some [97]), .getReal (some [98]), .getUser (some [98]), .reset (some [97]), .getReal (some [97]),
    .getSystem (some [98]), .shutdown]) = .ok [0, 0, 0, 0, 4, 14, 28, 0, 0, 28, 0] := by decide +kernel

end Maa.Timer
