import Verif.Model.Pr
import Verif.Lemmas.NameTab

/-! # Properties C46–C48, C59: child processes, maa/pr.c -/

namespace Maa.Pr

open Spec (PrFlags PrEvent PrEnv PrOp PrOut WaitEnd FdTab Children Ended)

/-! ## Flags -/

theorem bit_test (f c : PrFlags) (k : Nat) (hk : k < 32) (hc : ∀ i, i < 32 → c.getLsbD i = decide (i = k)) :
    (f &&& c != 0) = f.getLsbD k := by
  rw [Bool.eq_iff_iff, bne_iff_ne]
  constructor
  · intro h
    by_contra hf
    apply h
    apply BitVec.eq_of_getLsbD_eq
    intro i hi
    rw [BitVec.getLsbD_and, hc i hi]
    by_cases e : i = k
    · subst e; simp [hf]
    · simp [e]
  · intro h e
    have := congrArg (fun v : BitVec 32 => v.getLsbD k) e
    simp only [BitVec.getLsbD_and, h, hc k hk] at this
    simp at this

theorem useIn (f : PrFlags) : (f &&& USE_STDIN != 0) = f.getLsbD 0 := bit_test f _ 0 (by decide) (by decide)
theorem useOut (f : PrFlags) : (f &&& USE_STDOUT != 0) = f.getLsbD 1 := bit_test f _ 1 (by decide) (by decide)
theorem useErr (f : PrFlags) : (f &&& USE_STDERR != 0) = f.getLsbD 2 := bit_test f _ 2 (by decide) (by decide)
theorem createIn (f : PrFlags) : (f &&& CREATE_STDIN != 0) = f.getLsbD 4 := bit_test f _ 4 (by decide) (by decide)
theorem createOut (f : PrFlags) : (f &&& CREATE_STDOUT != 0) = f.getLsbD 5 := bit_test f _ 5 (by decide) (by decide)
theorem createErr (f : PrFlags) : (f &&& CREATE_STDERR != 0) = f.getLsbD 6 := bit_test f _ 6 (by decide) (by decide)
theorem errToOut (f : PrFlags) : (f &&& STDERR_TO_STDOUT != 0) = f.getLsbD 8 := bit_test f _ 8 (by decide) (by decide)

theorem mask_test (f : PrFlags) :
    (f &&& ~~~(USE_STDIN ||| USE_STDOUT ||| USE_STDERR ||| CREATE_STDIN ||| CREATE_STDOUT ||| CREATE_STDERR ||| STDERR_TO_STDOUT) != 0) = true ↔
    ¬ (∀ i, f.getLsbD i = true → i = 0 ∨ i = 1 ∨ i = 2 ∨ i = 4 ∨ i = 5 ∨ i = 6 ∨ i = 8) := by
  have hm : ∀ i, i < 32 → (~~~(USE_STDIN ||| USE_STDOUT ||| USE_STDERR ||| CREATE_STDIN ||| CREATE_STDOUT ||| CREATE_STDERR ||| STDERR_TO_STDOUT)).getLsbD i
      = !decide (i = 0 ∨ i = 1 ∨ i = 2 ∨ i = 4 ∨ i = 5 ∨ i = 6 ∨ i = 8) := by decide
  revert hm
  generalize ~~~(USE_STDIN ||| USE_STDOUT ||| USE_STDERR ||| CREATE_STDIN ||| CREATE_STDOUT ||| CREATE_STDERR ||| STDERR_TO_STDOUT) = M
  intro hm
  rw [bne_iff_ne, not_iff_not]
  constructor
  · intro e i hi
    by_cases h32 : i < 32
    · have := congrArg (fun v : BitVec 32 => v.getLsbD i) e
      simp only [BitVec.getLsbD_and, hi, hm i h32, Bool.true_and] at this
      replace this : (!decide (i = 0 ∨ i = 1 ∨ i = 2 ∨ i = 4 ∨ i = 5 ∨ i = 6 ∨ i = 8)) = false := this.trans BitVec.getLsbD_zero
      rw [Bool.not_eq_false'] at this
      exact of_decide_eq_true this
    · rw [BitVec.getLsbD_of_ge f i (by omega)] at hi
      exact absurd hi (by simp)
  · intro h
    apply BitVec.eq_of_getLsbD_eq
    intro i hi
    rw [BitVec.getLsbD_and, hm i hi]
    cases hf : f.getLsbD i with
    | false => simp
    | true => simp [h i hf]

theorem badFlags_iff (f : PrFlags) : badFlags f = true ↔ ¬ f.Legal := by
  unfold badFlags
  rw [useIn, useOut, useErr, createIn, createOut, createErr, errToOut]
  simp only [Bool.or_eq_true, Bool.and_eq_true, mask_test]
  unfold Spec.PrFlags.Legal
  have hk : (∀ k, k < 3 → ¬ (f.getLsbD k = true ∧ f.getLsbD (4 + k) = true)) ↔
      ¬ (f.getLsbD 0 = true ∧ f.getLsbD 4 = true) ∧ ¬ (f.getLsbD 1 = true ∧ f.getLsbD 5 = true) ∧ ¬ (f.getLsbD 2 = true ∧ f.getLsbD 6 = true) := by
    constructor
    · intro h; exact ⟨h 0 (by omega), h 1 (by omega), h 2 (by omega)⟩
    · rintro ⟨a, b, c⟩ k hk
      have : k = 0 ∨ k = 1 ∨ k = 2 := by omega
      rcases this with rfl | rfl | rfl
      · exact a
      · exact b
      · exact c
  rw [hk]
  generalize (∀ i, f.getLsbD i = true → i = 0 ∨ i = 1 ∨ i = 2 ∨ i = 4 ∨ i = 5 ∨ i = 6 ∨ i = 8) = A
  generalize f.getLsbD 0 = b0, f.getLsbD 1 = b1, f.getLsbD 2 = b2, f.getLsbD 4 = b4, f.getLsbD 5 = b5, f.getLsbD 6 = b6, f.getLsbD 8 = b8
  by_cases hA : A <;> simp only [hA, not_true_eq_false, false_or, true_and, not_false_eq_true, true_or, false_and]
  cases b0 <;> cases b1 <;> cases b2 <;> cases b4 <;> cases b5 <;> cases b6 <;> cases b8 <;> decide

/-! ## C48 -/

/-- C48: `pr_open` aborts exactly on the illegal flag words, whatever state the library is in and whatever the system
does. -/
theorem C48_flags (σ : State) (f : PrFlags) (infd outfd errfd : Option Int) (env : PrEnv) :
    prOpen σ f infd outfd errfd env = .abort ↔ ¬ f.Legal := by
  rw [← badFlags_iff]
  unfold prOpen
  have hset : ∀ (σ : State) (fd : Int) (p : Nat), objSet σ fd p ≠ .abort := by
    intro σ fd p
    unfold objSet
    cases σ.objects with
    | none => simp
    | some l => simp only; split <;> simp
  have hbind : ∀ {α β : Type} (x : Res α) (g : α → Res β), x ≠ .abort → (∀ a, g a ≠ .abort) → x.bind g ≠ .abort := by
    intro α β x g h1 h2
    cases x with
    | ok a => exact h2 a
    | abort => exact absurd rfl h1
    | fatal => simp [Res.bind]
    | ub => simp [Res.bind]
  have hpar : ∀ (σ : State) (c u : PrFlags) (d k : Int) (fd : Option Int) (p : Nat), parent σ f c u d k fd p ≠ .abort := by
    intro σ c u d k fd p
    unfold parent
    split
    · cases fd with
      | none => simp
      | some v => exact hbind _ _ (hset _ _ _) (by simp)
    · split
      · cases fd with
        | none => simp
        | some v =>
          simp only
          split
          · exact hbind _ _ (hset _ _ _) (by simp)
          · simp
      · simp
  constructor
  · intro h
    by_contra hb
    rw [if_neg hb] at h
    split at h
    · simp at h
    · split at h
      · simp at h
      · split at h
        · simp at h
        · cases hp : env.pid with
            | none => rw [hp] at h; simp at h
            | some p =>
              rw [hp] at h
              refine hbind _ _ (hpar _ _ _ _ _ _ _) (fun a => hbind _ _ (hpar _ _ _ _ _ _ _) fun b => hbind _ _ (hpar _ _ _ _ _ _ _) fun c => ?_) h
              simp
  · intro h
    simp only [h, if_true]

theorem land7f (n : Nat) : n &&& 127 = n % 128 := Nat.and_two_pow_sub_one_eq_mod n 7

theorem landff00 (n : Nat) : (n &&& 0xff00) >>> 8 = n / 256 % 256 := by
  rw [Nat.shiftRight_and_distrib]
  rw [show (0xff00 >>> 8 : Nat) = 2 ^ 8 - 1 from rfl, Nat.and_two_pow_sub_one_eq_mod, Nat.shiftRight_eq_div_pow]

theorem or_128 : ∀ n, n < 128 → 0 ||| (128 + n) = 128 + n := by intro n _; exact Nat.zero_or _

theorem exitStatus_eq (e : Ended) (h : e.Proper) : exitStatus e.status = e.report := by
  cases e with
  | exited c =>
    have h0 : Ended.status (.exited c) = c * 256 := rfl
    rw [h0]
    have h1 : c * 256 &&& 127 = 0 := by rw [land7f]; omega
    have h2 : (c * 256 &&& 65280) >>> 8 = c := by rw [landff00]; have : c < 256 := h; omega
    simp [exitStatus, wifexited, wexitstatus, wifsignaled, h1, h2, Ended.report]
  | signaled s core =>
    have hs : 1 ≤ s ∧ s ≤ 126 := h
    have h1 : Ended.status (.signaled s core) &&& 127 = s := by
      rw [land7f]
      simp only [Ended.status]
      cases core <;> simp <;> omega
    unfold exitStatus wifexited wifsignaled wtermsig
    rw [h1]
    have h3 : (s == 0) = false := by simp; omega
    have h4 : ¬ (s + 1 ≥ 128) := by omega
    have h5 : ((s + 1 : Nat) : Int) / 2 > 0 := by omega
    simp only [h3, if_neg h4, h5, decide_true, Bool.true_and, Ended.report, bne_iff_ne, Bool.false_eq_true, if_false, Nat.zero_or]
    by_cases e : s = 13
    · simp [e]
    · simp [e]

theorem prWait_eq (n : Nat) (w : WaitEnd) (h : w.Proper) : prWait n w = w.report := by
  induction n with
  | zero =>
    cases w with
    | ended e => exact exitStatus_eq e h
    | noChild => rfl
    | failed => rfl
  | succ n ih => exact ih

/-- C48: however often the wait is interrupted, `pr_wait` gives the exit code, 128 + signal, 0 for a broken pipe; 0 for a
child waited for already, -1 if waiting fails. -/
theorem C48_wait (n : Nat) :
    (∀ c, c < 256 → prWait n (.ended (.exited c)) = c) ∧
    (∀ s core, 1 ≤ s → s ≤ 126 → s ≠ 13 → prWait n (.ended (.signaled s core)) = 128 + s) ∧
    (∀ core, prWait n (.ended (.signaled 13 core)) = 0) ∧ prWait n .noChild = 0 ∧ prWait n .failed = -1 := by
  refine ⟨fun c hc => prWait_eq n _ hc, fun s core h1 h2 h3 => ?_, fun core => ?_, prWait_eq n _ trivial, prWait_eq n _ trivial⟩
  · rw [prWait_eq n (.ended (.signaled s core)) ⟨h1, h2⟩]
    simp [WaitEnd.report, Ended.report, h3]
  · rw [prWait_eq n (.ended (.signaled 13 core)) ⟨by omega, by omega⟩]
    simp [WaitEnd.report, Ended.report]

/-- Non-vacuity: legal and illegal words exist, statuses on both sides. -/
example : badFlags 0x121 = false ∧ badFlags 0x11 = true ∧ badFlags 0x104 = true ∧ badFlags 0x8 = true ∧
    prWait 2 (.ended (.exited 255)) = 255 ∧ prWait 0 (.ended (.signaled 9 true)) = 137 := by decide

/-! ## C46 -/

/-- The process table and the map agree. -/
structure Sim (m : Nat) (σ : State) (C : Children) : Prop where
  max : σ.maxFd = m
  tab : match σ.objects with
    | none => ∀ i, C i = none
    | some l => l.length = m ∧ ∀ i, C i = if l.getD i 0 = 0 then none else some (l.getD i 0)

theorem Sim.start (m : Nat) : Sim m (State.init m) (fun _ => none) := ⟨rfl, fun _ => rfl⟩

theorem Sim.inited {m : Nat} {σ : State} {C : Children} (h : Sim m σ C) : Sim m (prInit σ) C ∧ ∃ l, (prInit σ).objects = some l := by
  have ht := h.tab
  unfold prInit
  cases ho : σ.objects with
  | none =>
    rw [ho] at ht
    refine ⟨⟨h.max, ?_⟩, _, rfl⟩
    refine ⟨by simp [h.max], fun i => ?_⟩
    rw [ht i]
    simp [List.getD, List.getElem?_replicate]
    split <;> simp
  | some l => exact ⟨h, l, ho⟩

theorem Sim.set {m : Nat} {σ : State} {C : Children} (h : Sim m σ C) {l : List Nat} (hl : σ.objects = some l) {fd : Int} (hfd : Spec.FdOk m fd) (p : Nat) :
    ∃ σ', objSet σ fd p = .ok σ' ∧ Sim m σ' (C.set fd (if p = 0 then none else some p)) ∧ ∃ l', σ'.objects = some l' := by
  have ht := h.tab
  rw [hl] at ht
  obtain ⟨hlen, hv⟩ := ht
  refine ⟨{ σ with objects := some (l.set fd.toNat p) }, ?_, ⟨h.max, ?_⟩, _, rfl⟩
  · unfold objSet
    rw [hl]
    simp only
    rw [if_pos ⟨hfd.1, by rw [hlen]; exact hfd.2⟩]
  · refine ⟨by simp [hlen], fun i => ?_⟩
    have h1 := hfd.1
    have h2 := hfd.2
    unfold Children.set
    by_cases e : (i : Int) = fd
    · have e' : fd.toNat = i := by omega
      rw [if_pos e, e']
      have : (l.set i p).getD i 0 = p := by
        rw [List.getD_eq_getElem?_getD, List.getElem?_set_self (by omega)]
        rfl
      rw [this]
    · have e' : fd.toNat ≠ i := by omega
      rw [if_neg e, hv i]
      have : (l.set fd.toNat p).getD i 0 = l.getD i 0 := by
        rw [List.getD_eq_getElem?_getD, List.getD_eq_getElem?_getD, List.getElem?_set_ne e']
      rw [this]

theorem Sim.get {m : Nat} {σ : State} {C : Children} (h : Sim m σ C) {l : List Nat} (hl : σ.objects = some l) {fd : Int} (hfd : Spec.FdOk m fd) :
    ∃ p, objGet σ fd = .ok p ∧ C fd.toNat = if p = 0 then none else some p := by
  have ht := h.tab
  rw [hl] at ht
  obtain ⟨hlen, hv⟩ := ht
  refine ⟨l.getD fd.toNat 0, ?_, hv _⟩
  unfold objGet
  rw [hl]
  simp only
  rw [if_pos ⟨hfd.1, by rw [hlen]; exact hfd.2⟩]

theorem okBind {α β : Type} (a : α) (f : α → Res β) : (Res.ok a).bind f = f a := rfl

theorem parent_sim {m : Nat} {σ : State} {C : Children} (h : Sim m σ C) {l : List Nat} (hl : σ.objects = some l) (f create use : PrFlags) (k : Nat)
    (hc : (f &&& create != 0) = f.getLsbD (4 + k)) (hu : (f &&& use != 0) = f.getLsbD k) (drop keep : Int) (fd : Option Int) (pid : Nat) (hpid : pid ≠ 0)
    (hkeep : f.getLsbD (4 + k) = true → Spec.FdOk m keep) (hfd : ∀ v, fd = some v → Spec.FdOk m v) :
    Spec.ResRel (fun a b => a.2 = b.2 ∧ Sim m a.1 b.1 ∧ ∃ l, a.1.objects = some l) (parent σ f create use drop keep fd pid) (Spec.attach C f k drop keep fd pid) := by
  unfold parent Spec.attach
  rw [hc, hu]
  cases hcv : f.getLsbD (4 + k) with
  | true =>
    simp only [if_true]
    cases fd with
    | none => exact trivial
    | some v =>
      obtain ⟨σ', e1, e2, e3⟩ := h.set hl (hkeep hcv) pid
      simp only [e1, okBind]
      rw [if_neg hpid] at e2
      exact ⟨rfl, e2, e3⟩
  | false =>
    simp only [Bool.false_eq_true, if_false]
    cases huv : f.getLsbD k with
    | false => simp only [Bool.false_eq_true, if_false]; exact ⟨rfl, h, l, hl⟩
    | true =>
      simp only [if_true]
      cases fd with
      | none => exact ⟨rfl, h, l, hl⟩
      | some v =>
        simp only
        by_cases hv : v = 0
        · rw [if_neg (by simp [hv]), if_pos hv]; exact ⟨rfl, h, l, hl⟩
        · rw [if_pos hv, if_neg hv]
          obtain ⟨σ', e1, e2, e3⟩ := h.set hl (hfd v rfl) 0
          simp only [e1, okBind]
          exact ⟨rfl, by simpa using e2, e3⟩

theorem shutdownLoop_eq (l : List Nat) :
    shutdownLoop l = (l.filterMap fun p => if p = 0 then none else some p).flatMap fun p => [PrEvent.killed p, .waited p] := by
  induction l with
  | nil => rfl
  | cons p l ih =>
    rw [shutdownLoop, ih, List.filterMap_cons]
    by_cases h : p = 0
    · simp [h]
    · simp [h]

theorem step_sim (m : Nat) (σ : State) (C : Children) (o : PrOp) (ho : o.Proper m) (h : Sim m σ C) :
    Spec.ResRel (fun c b => c.2 = b.2 ∧ Sim m c.1 b.1) (step σ o) (Spec.prStep m C o) := by
  cases o with
  | «open» f infd outfd errfd env =>
    obtain ⟨hv, hp, hpid⟩ := ho
    simp only [step, Spec.prStep, prOpen]
    by_cases hlegal : f.Legal
    · have hb : badFlags f = false := by
        cases hx : badFlags f with
        | false => rfl
        | true => exact absurd hlegal ((badFlags_iff f).1 hx)
      simp only [hb, Bool.false_eq_true, if_false, hlegal, not_true_eq_false, createIn, createOut, createErr]
      by_cases h1 : f.getLsbD 4 = true ∧ env.pipeIn = none
      · rw [if_pos h1, if_pos (Or.inl h1)]; exact trivial
      rw [if_neg h1]
      by_cases h2 : f.getLsbD 5 = true ∧ env.pipeOut = none
      · rw [if_pos h2, if_pos (Or.inr (Or.inl h2))]; exact trivial
      rw [if_neg h2]
      by_cases h3 : f.getLsbD 6 = true ∧ env.pipeErr = none
      · rw [if_pos h3, if_pos (Or.inr (Or.inr (Or.inl h3)))]; exact trivial
      rw [if_neg h3]
      cases hpe : env.pid with
      | none => rw [if_pos (Or.inr (Or.inr (Or.inr rfl)))]; exact trivial
      | some pid =>
        rw [if_neg (by rintro (x | x | x | x); exact h1 x; exact h2 x; exact h3 x; simp at x)]
        have hp0 : pid ≠ 0 := by rintro rfl; exact hpid hpe
        simp only [Option.getD_some]
        obtain ⟨hi, l, hl⟩ := h.inited
        have k1 : f.getLsbD (4 + 0) = true → Spec.FdOk m (env.pipeIn.getD (0, 0)).2 := by
          intro hh
          cases hx : env.pipeIn with
          | none => exact absurd ⟨hh, hx⟩ h1
          | some q => exact (hp q (Or.inl hx)).2
        have k2 : f.getLsbD (4 + 1) = true → Spec.FdOk m (env.pipeOut.getD (0, 0)).1 := by
          intro hh
          cases hx : env.pipeOut with
          | none => exact absurd ⟨hh, hx⟩ h2
          | some q => exact (hp q (Or.inr (Or.inl hx))).1
        have k3 : f.getLsbD (4 + 2) = true → Spec.FdOk m (env.pipeErr.getD (0, 0)).1 := by
          intro hh
          cases hx : env.pipeErr with
          | none => exact absurd ⟨hh, hx⟩ h3
          | some q => exact (hp q (Or.inr (Or.inr hx))).1
        refine Spec.ResRel.bind (parent_sim hi hl f CREATE_STDIN USE_STDIN 0 (createIn f) (useIn f) _ _ infd pid hp0 k1 (fun v e => hv v (Or.inl e))) ?_
        rintro a a' ⟨ea, sa, la, hla⟩
        refine Spec.ResRel.bind (parent_sim sa hla f CREATE_STDOUT USE_STDOUT 1 (createOut f) (useOut f) _ _ outfd pid hp0 k2 (fun v e => hv v (Or.inr (Or.inl e)))) ?_
        rintro b b' ⟨eb, sb, lb, hlb⟩
        refine Spec.ResRel.bind (parent_sim sb hlb f CREATE_STDERR USE_STDERR 2 (createErr f) (useErr f) _ _ errfd pid hp0 k3 (fun v e => hv v (Or.inr (Or.inr e)))) ?_
        rintro c c' ⟨ec, sc, lc, hlc⟩
        exact ⟨by rw [ea, eb, ec], sc⟩
    · have hb : badFlags f = true := (badFlags_iff f).2 hlegal
      rw [if_pos hb, if_pos hlegal]
      exact trivial
  | closeNowait fd =>
    simp only [step, Spec.prStep, closeNowait]
    have ht := h.tab
    cases hob : σ.objects with
    | none =>
      rw [hob] at ht
      rw [ht]
      exact trivial
    | some l =>
      obtain ⟨p, e1, e2⟩ := h.get hob ho
      simp only [e1, okBind, e2]
      by_cases hp : p = 0
      · simp only [hp, if_true]; exact trivial
      · simp only [hp, if_false]
        obtain ⟨σ', e3, e4, _⟩ := h.set hob ho 0
        simp only [e3, okBind]
        exact ⟨rfl, by simpa using e4⟩
  | close fd n w =>
    simp only [step, Spec.prStep, prClose, closeNowait]
    have ht := h.tab
    cases hob : σ.objects with
    | none =>
      rw [hob] at ht
      rw [ht]
      exact trivial
    | some l =>
      obtain ⟨p, e1, e2⟩ := h.get hob ho.1
      simp only [e1, okBind, e2]
      by_cases hp : p = 0
      · simp only [hp, if_true]; exact trivial
      · simp only [hp, if_false]
        obtain ⟨σ', e3, e4, _⟩ := h.set hob ho.1 0
        simp only [e3, okBind, prWait_eq n w ho.2]
        exact ⟨rfl, by simpa using e4⟩
  | spawn p n w =>
    cases p with
    | none => exact trivial
    | some p =>
      simp only [step, Spec.prStep, prSpawn, prWait_eq n w ho]
      exact ⟨rfl, h.inited.1⟩
  | shutdown =>
    simp only [step, Spec.prStep, shutdown]
    have ht := h.tab
    cases hob : σ.objects with
    | none =>
      rw [hob] at ht
      refine ⟨?_, ⟨h.max, by rw [hob]; exact fun _ => rfl⟩⟩
      have : (List.range m).filterMap C = [] := by
        rw [List.filterMap_eq_nil_iff]
        intro i _
        exact ht i
      simp [this]
    | some l =>
      rw [hob] at ht
      obtain ⟨hlen, hv⟩ := ht
      refine ⟨?_, ⟨h.max, fun _ => rfl⟩⟩
      show PrOut.mk 0 [] (shutdownLoop l) = _
      rw [shutdownLoop_eq]
      have : (List.range m).filterMap C = l.filterMap fun p => if p = 0 then none else some p := by
        have e : l = (List.range m).map fun i => l.getD i 0 := by
          apply List.ext_getElem
          · simp [hlen]
          · intro i h1 h2
            simp [List.getD_eq_getElem?_getD, List.getElem?_eq_getElem h1]
        conv => rhs; rw [e]
        rw [List.filterMap_map]
        congr 1
        funext i
        simp only [Function.comp]
        exact hv i
      show _ = PrOut.mk 0 [] _
      rw [this]

/-- C46: any history of opens, closes, spawns and shutdowns, with any descriptors and children the system hands out, shows
what a map from open descriptors to children shows: `pr_close_nowait` gives the child of the descriptor and forgets it,
closing any other descriptor aborts, shutdown kills and waits for the child of every descriptor still open. -/
theorem C46_children (m : Nat) (hist : List PrOp) (hp : ∀ o ∈ hist, o.Proper m) :
    Spec.observe (Spec.run step (State.init m) hist) = Spec.observe (Spec.run (Spec.prStep m) (fun _ => none) hist) :=
  (Spec.run_sim_of (PrOp.Proper m) (Sim m) _ _ (step_sim m) _ _ hist hp (Sim.start m)).observe

/-- Non-vacuity: two children, one closed, the other killed at shutdown (twice, see below), then closing aborts. -/
example :
    Spec.observe (Spec.run step (State.init 16) [.open 0x30 (some 0) (some 0) none ⟨some (3, 4), some (5, 6), none, some 100⟩,
      .open 0x20 none (some 0) none ⟨none, some (3, 7), none, some 101⟩, .closeNowait 3, .close 5 1 (.ended (.exited 2)),
      .shutdown]) =
    .ok [⟨100, [some 4, some 5, none], [.closed 3, .closed 6]⟩, ⟨101, [none, some 3, none], [.closed 7]⟩, ⟨101, [], [.closed 3]⟩,
      ⟨2, [], [.closed 5, .waited 100]⟩, ⟨0, [], [.killed 100, .waited 100]⟩] ∧
    Spec.observe (Spec.run step (State.init 16) [.open 0x20 none (some 0) none ⟨none, some (3, 7), none, some 101⟩, .closeNowait 3, .closeNowait 3]) = .abort := by
  decide +kernel

/-- The strict reading of C46 ("kills each remaining child once") is refuted: a child with two open descriptors is killed
and waited for twice; the second signal goes to a pid that has been reaped already. -/
theorem C46_double_kill_refuted :
    ∃ hist : List PrOp, (∀ o ∈ hist, o.Proper 16) ∧ ∃ out,
      Spec.observe (Spec.run step (State.init 16) hist) = .ok [out, ⟨0, [], [.killed 100, .waited 100, .killed 100, .waited 100]⟩] := by
  refine ⟨[.open 0x30 (some 0) (some 0) none ⟨some (3, 4), some (5, 6), none, some 100⟩, .shutdown], ?_,
    ⟨100, [some 4, some 5, none], [.closed 3, .closed 6]⟩, by decide +kernel⟩
  intro o ho
  simp only [List.mem_cons, List.not_mem_nil, or_false] at ho
  rcases ho with rfl | rfl
  · refine ⟨?_, ?_, by simp⟩
    · rintro v (h | h | h) <;> simp at h <;> subst h <;> constructor <;> decide
    · rintro p (h | h | h) <;> simp at h <;> subst h <;> refine ⟨⟨?_, ?_⟩, ?_, ?_⟩ <;> decide
  · trivial

end Maa.Pr
