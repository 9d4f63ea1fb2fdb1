import Verif.Props.Pr

/-! # Property C47: `pr_readwrite` and `pr_filter`, maa/pr.c -/

namespace Maa.Pr

open Spec (PrFlags PrEvent PrEnv PrOp PrOut WaitEnd FdTab Children Ended FdOk)

/-- What a call of `pr_readwrite` starts from: both descriptors open, registered for children, buffers of the sizes
given. -/
structure Setup where
  m : Nat
  σ : State
  C : Children
  sim : Sim m σ C
  inp : Int
  out : Int
  pin : Nat
  pout : Nat
  hin : FdOk m inp
  hout : FdOk m out
  in1024 : inp < 1024
  out1024 : out < 1024
  ne : inp ≠ out
  cin : C inp.toNat = some pin
  cout : C out.toNat = some pout
  inBuf : List Byte
  inLen : Nat
  outBuf : List Byte
  outMaxLen : Nat
  inFits : inLen ≤ inBuf.length
  outFits : outMaxLen ≤ outBuf.length

variable (E : Setup)

/-- The descriptors open while `left` bytes of input are still to be sent. -/
def Setup.children (left : Nat) : Children := if E.inLen ≠ 0 ∧ left = 0 then E.C.set E.inp none else E.C

/-- What has happened outside. -/
def Setup.happened (left : Nat) : List PrEvent := if E.inLen ≠ 0 ∧ left = 0 then [.closed E.inp] else []

/-- What holds between two rounds. -/
structure Inv (s : Loop) : Prop where
  len : s.inPt + s.inLen = E.inLen
  sent : s.sent = E.inBuf.take s.inPt
  pt : s.outPt = s.outLen
  taken : s.taken = s.outLen
  room : s.outLen + s.outMaxLen = E.outMaxLen
  le : s.outLen ≤ s.written.length
  buf : s.outBuf = s.written.take s.outLen ++ E.outBuf.drop s.outLen
  sim : Sim E.m s.σ (E.children s.inLen)
  events : s.events = E.happened s.inLen

theorem closeNowait_ok {m : Nat} {σ : State} {C : Children} (h : Sim m σ C) {fd : Int} (hfd : FdOk m fd) {p : Nat} (hp : C fd.toNat = some p) :
    ∃ σ', closeNowait σ fd = .ok (σ', { ret := p, events := [.closed fd] }) ∧ Sim m σ' (C.set fd none) := by
  have := step_sim m σ C (.closeNowait fd) hfd h
  simp only [Spec.prStep, hp, step] at this
  cases hc : closeNowait σ fd <;> rw [hc] at this <;> simp only [Spec.ResRel] at this
  rename_i a
  obtain ⟨σ', o⟩ := a
  simp only at this
  exact ⟨σ', by rw [this.1], this.2⟩

theorem writeHalf_inv {s : Loop} (h : Inv E s) (r : Round) :
    (s.inLen ≠ 0 ∧ r.writeErr = true ∧ writeHalf E.inp E.inBuf s r = .fatal) ∨
    ∃ s', writeHalf E.inp E.inBuf s r = .ok s' ∧ Inv E s' ∧ s'.written = s.written ∧ s'.outLen = s.outLen ∧ s'.inLen = s.inLen - min r.accept s.inLen := by
  unfold writeHalf
  by_cases h0 : s.inLen = 0
  · rw [if_pos h0]
    exact Or.inr ⟨s, rfl, h, rfl, rfl, by omega⟩
  rw [if_neg h0]
  cases hw : r.writeErr with
  | true => exact Or.inl ⟨h0, rfl, by simp⟩
  | false =>
    right
    simp only [Bool.false_eq_true, if_false]
    by_cases hc : min r.accept s.inLen = 0
    · rw [if_pos hc]
      exact ⟨s, rfl, h, rfl, rfl, by omega⟩
    rw [if_neg hc]
    have hlen := h.len
    have hfit := E.inFits
    rw [if_neg (by omega)]
    have hsent : s.sent ++ (E.inBuf.drop s.inPt).take (min r.accept s.inLen) = E.inBuf.take (s.inPt + min r.accept s.inLen) := by
      rw [h.sent, List.take_add]
    have hch : E.children s.inLen = E.C := by unfold Setup.children; rw [if_neg (by simp [h0])]
    have hev : E.happened s.inLen = [] := by unfold Setup.happened; rw [if_neg (by simp [h0])]
    have hE0 : E.inLen ≠ 0 := by omega
    have hsim := h.sim
    rw [hch] at hsim
    by_cases hz : s.inLen - min r.accept s.inLen = 0
    · rw [if_pos hz]
      obtain ⟨σ', e1, e2⟩ := closeNowait_ok hsim E.hin E.cin
      rw [e1, okBind]
      refine ⟨_, rfl, ?_, rfl, rfl, rfl⟩
      exact ⟨by simp only; omega, hsent, h.pt, h.taken, h.room, h.le, h.buf,
        by simp only [Setup.children]; rw [if_pos ⟨hE0, hz⟩]; exact e2,
        by simp only [Setup.happened]; rw [if_pos ⟨hE0, hz⟩, h.events, hev]; rfl⟩
    · rw [if_neg hz]
      refine ⟨_, rfl, ?_, rfl, rfl, rfl⟩
      exact ⟨by simp only; omega, hsent, h.pt, h.taken, h.room, h.le, h.buf,
        by simp only [Setup.children]; rw [if_neg (by simp [hz])]; exact hsim,
        by simp only [Setup.happened]; rw [if_neg (by simp [hz]), h.events, hev]⟩

/-- What holds when the function returns `k`. -/
structure Fin (k : Nat) (s : Loop) : Prop where
  ret : k = s.outLen
  sent : s.sent = E.inBuf.take E.inLen
  room : k ≤ E.outMaxLen
  le : k ≤ s.written.length
  buf : s.outBuf = s.written.take k ++ E.outBuf.drop k
  all : k < E.outMaxLen → s.written.length = k
  sim : Sim E.m s.σ ((E.children 0).set E.out none)
  events : s.events = E.happened 0 ++ [.closed E.out, .waited E.pout]

theorem readHalf_inv {s : Loop} (h : Inv E s) (r : Round) (n : Nat) (w : WaitEnd) :
    (readHalf E.out n w s r = .fatal ∧ (r.readErr = true ∨ (s.inLen ≠ 0 ∧ (s.outMaxLen = 0 ∨ (r.closed = true ∧ s.written.length = s.outLen))))) ∨
    (∃ s', readHalf E.out n w s r = .ok (.running s') ∧ Inv E s' ∧ s'.written = s.written ∧ s'.inLen = s.inLen ∧
      s.outLen ≤ s'.outLen ∧ (s.written.length ≠ s.outLen → s.outLen < s'.outLen) ∧ (s.written.length = s.outLen → r.closed = false)) ∨
    (∃ k s', readHalf E.out n w s r = .ok (.returned k s') ∧ Fin E k s' ∧ s'.written = s.written ∧ (k < E.outMaxLen → r.closed = true)) := by
  have hroom := h.room
  have hle := h.le
  have hpt := h.pt
  have htk := h.taken
  have hofit := E.outFits
  have hblen : s.outBuf.length = E.outBuf.length := by
    rw [h.buf, List.length_append, List.length_take, List.length_drop]; omega
  unfold readHalf sysRead
  cases hre : r.readErr with
  | true => exact Or.inl ⟨by simp, Or.inl rfl⟩
  | false =>
    simp only [Bool.false_eq_true, if_false, false_or]
    -- end of file, or no room
    have hzero : (s.outMaxLen = 0 ∨ (r.closed = true ∧ s.written.length = s.outLen)) →
        ((if s.inLen ≠ 0 then Res.fatal else (prClose s.σ E.out n w).bind fun q => Res.ok (Flow.returned s.outLen { s with σ := q.1, events := s.events ++ q.2.events })) = .fatal ∧
          s.inLen ≠ 0) ∨
        ∃ k s', (if s.inLen ≠ 0 then Res.fatal else (prClose s.σ E.out n w).bind fun q => Res.ok (Flow.returned s.outLen { s with σ := q.1, events := s.events ++ q.2.events })) = .ok (.returned k s') ∧
          Fin E k s' ∧ s'.written = s.written ∧ (k < E.outMaxLen → r.closed = true) := by
      intro hor
      by_cases h0 : s.inLen = 0
      · right
        rw [if_neg (by simp [h0])]
        have hsim := h.sim
        have hev := h.events
        have hlen := h.len
        have hsent := h.sent
        rw [h0] at hsim hev hlen
        rw [show s.inPt = E.inLen by omega] at hsent
        have hco : E.children 0 E.out.toNat = some E.pout := by
          have h1 := E.ne
          have h2 := E.hin.1
          have h3 := E.hout.1
          unfold Setup.children
          split
          · unfold Children.set
            rw [if_neg (by omega)]
            exact E.cout
          · exact E.cout
        obtain ⟨σ', e1, e2⟩ := closeNowait_ok hsim E.hout hco
        simp only [prClose, e1, okBind]
        refine ⟨_, _, rfl, ⟨rfl, hsent, by omega, hle, h.buf, ?_, e2, by simp only [hev]; rfl⟩, rfl, ?_⟩
        · intro hk
          rcases hor with hor | hor
          · omega
          · exact hor.2
        · intro hk
          rcases hor with hor | hor
          · omega
          · exact hor.1
      · left
        rw [if_pos h0]
        exact ⟨rfl, h0⟩
    by_cases hm : s.outMaxLen = 0
    · rw [if_pos hm]
      rcases hzero (Or.inl hm) with ⟨e1, e2⟩ | hx
      · exact Or.inl ⟨e1, e2, Or.inl hm⟩
      · exact Or.inr (Or.inr hx)
    rw [if_neg hm]
    by_cases ha : s.written.length - s.taken = 0
    · rw [if_pos ha]
      by_cases hcl : r.closed = true
      · rw [if_pos hcl]
        rcases hzero (Or.inr ⟨hcl, by omega⟩) with ⟨e1, e2⟩ | hx
        · exact Or.inl ⟨e1, e2, Or.inr ⟨hcl, by omega⟩⟩
        · exact Or.inr (Or.inr hx)
      · rw [if_neg hcl]
        exact Or.inr (Or.inl ⟨s, rfl, h, rfl, rfl, by omega, by omega, fun _ => by simpa using hcl⟩)
    · rw [if_neg ha]
      have hcpos : 0 < min (min (max r.give 1) (s.written.length - s.taken)) s.outMaxLen := by omega
      have hc1 : min (min (max r.give 1) (s.written.length - s.taken)) s.outMaxLen ≤ s.written.length - s.taken := by omega
      have hc2 : min (min (max r.give 1) (s.written.length - s.taken)) s.outMaxLen ≤ s.outMaxLen := by omega
      generalize min (min (max r.give 1) (s.written.length - s.taken)) s.outMaxLen = c at hcpos hc1 hc2
      obtain ⟨c', rfl⟩ : ∃ c', c = c' + 1 := ⟨c - 1, by omega⟩
      simp only
      rw [if_neg (by omega), if_neg (by omega)]
      refine Or.inr (Or.inl ⟨_, rfl, ?_, rfl, rfl, by simp only; omega, fun _ => by simp only; omega, fun e => absurd e (by omega)⟩)
      refine ⟨h.len, h.sent, by simp only; omega, by simp only; omega, by simp only; omega, by simp only; omega, ?_, h.sim, h.events⟩
      simp only
      rw [hpt, htk, h.buf]
      have e1 : (s.written.take s.outLen ++ E.outBuf.drop s.outLen).take s.outLen = s.written.take s.outLen := by
        rw [List.take_append_of_le_length (by rw [List.length_take]; omega), List.take_take]
        congr 1; omega
      have e2 : (s.written.take s.outLen ++ E.outBuf.drop s.outLen).drop (s.outLen + (c' + 1)) = E.outBuf.drop (s.outLen + (c' + 1)) := by
        rw [List.drop_append, List.drop_eq_nil_of_le (by rw [List.length_take]; omega), List.nil_append, List.length_take, List.drop_drop]
        congr 1; omega
      rw [e1, e2, ← List.take_add]

theorem round_inv {s : Loop} (h : Inv E s) (r : Round) (n : Nat) (w : WaitEnd) :
    (round E.inp E.out E.inBuf n w s r = .fatal ∧ (r.selectOk = false ∨ r.writeErr = true ∨ r.readErr = true ∨
      (E.inLen ≠ 0 ∧ (E.outMaxLen ≤ (s.written ++ r.written).length ∨ r.closed = true)))) ∨
    (∃ s', round E.inp E.out E.inBuf n w s r = .ok (.running s') ∧ Inv E s' ∧ s'.written = s.written ++ r.written ∧
      s'.inLen = s.inLen - min r.accept s.inLen ∧ s.outLen ≤ s'.outLen ∧
      ((s.written ++ r.written).length ≠ s.outLen → s.outLen < s'.outLen) ∧ ((s.written ++ r.written).length = s.outLen → r.closed = false)) ∨
    (∃ k s', round E.inp E.out E.inBuf n w s r = .ok (.returned k s') ∧ Fin E k s' ∧ s'.written = s.written ++ r.written ∧
      (k < E.outMaxLen → r.closed = true)) := by
  unfold round
  have h1 := E.hin.1
  have h2 := E.hout.1
  have h3 := E.in1024
  have h4 := E.out1024
  rw [if_neg (by omega)]
  cases hs : r.selectOk with
  | false => exact Or.inl ⟨by simp, Or.inl rfl⟩
  | true =>
    rw [if_neg (by simp)]
    have hI : Inv E { s with written := s.written ++ r.written } :=
      ⟨h.len, h.sent, h.pt, h.taken, h.room, by simp only [List.length_append]; have := h.le; omega,
        by simp only; rw [List.take_append_of_le_length h.le]; exact h.buf, h.sim, h.events⟩
    rcases writeHalf_inv E hI r with ⟨_, e2, e3⟩ | ⟨s', e1, e2, e3, e4, e5⟩
    · left
      rw [e3]
      exact ⟨rfl, Or.inr (Or.inl e2)⟩
    · rw [e1, okBind]
      have hlen := e2.len
      have hroom := e2.room
      have hle := e2.le
      rcases readHalf_inv E e2 r n w with ⟨f1, f2⟩ | ⟨s'', f1, f2, f3, f4, f5, f6, f7⟩ | ⟨k, s'', f1, f2, f3, f4⟩
      · left
        refine ⟨f1, Or.inr (Or.inr ?_)⟩
        rcases f2 with f2 | ⟨f2, f3 | f3⟩
        · exact Or.inl f2
        · right
          refine ⟨by omega, Or.inl ?_⟩
          rw [e3] at hle
          simp only at hle
          omega
        · exact Or.inr ⟨by omega, Or.inr f3.1⟩
      · right; left
        rw [e3, e4] at f6 f7
        refine ⟨s'', f1, f2, by rw [f3, e3], by rw [f4, e5], by rw [e4] at f5; exact f5, f6, f7⟩
      · right; right
        exact ⟨k, s'', f1, f2, by rw [f3, e3], f4⟩

theorem rounds_inv (n : Nat) (w : WaitEnd) (rs : List Round) {s : Loop} (h : Inv E s) :
    match rounds E.inp E.out E.inBuf n w s rs with
    | .ok (.running s') => Inv E s' ∧ s'.written = s.written ++ rs.flatMap Round.written
    | .ok (.returned k s') => ∃ j, j < rs.length ∧ Fin E k s' ∧ s'.written = s.written ++ (rs.take (j + 1)).flatMap Round.written ∧
        (k < E.outMaxLen → ∃ r, rs[j]? = some r ∧ r.closed = true)
    | .fatal => (∃ r ∈ rs, r.selectOk = false ∨ r.writeErr = true ∨ r.readErr = true) ∨
        (E.inLen ≠ 0 ∧ (E.outMaxLen ≤ (s.written ++ rs.flatMap Round.written).length ∨ ∃ r ∈ rs, r.closed = true))
    | .abort => False
    | .ub => False := by
  induction rs generalizing s with
  | nil => exact ⟨h, by simp⟩
  | cons r rs ih =>
    simp only [rounds]
    rcases round_inv E h r n w with ⟨f1, f2⟩ | ⟨s', f1, f2, f3, _⟩ | ⟨k, s', f1, f2, f3, f4⟩
    · rw [f1]
      simp only [Res.bind]
      rcases f2 with f2 | f2 | f2 | ⟨f2, f3 | f3⟩
      · exact Or.inl ⟨r, by simp, Or.inl f2⟩
      · exact Or.inl ⟨r, by simp, Or.inr (Or.inl f2)⟩
      · exact Or.inl ⟨r, by simp, Or.inr (Or.inr f2)⟩
      · refine Or.inr ⟨f2, Or.inl ?_⟩
        simp only [List.flatMap_cons, List.length_append] at f3 ⊢
        omega
      · exact Or.inr ⟨f2, Or.inr ⟨r, by simp, f3⟩⟩
    · rw [f1, okBind]
      simp only
      have := ih f2
      revert this
      cases rounds E.inp E.out E.inBuf n w s' rs with
      | ok f =>
        cases f with
        | running t =>
          intro hh
          exact ⟨hh.1, by rw [hh.2, f3]; simp⟩
        | returned k t =>
          rintro ⟨j, hj, g1, g2, g3⟩
          refine ⟨j + 1, by simp; omega, g1, by rw [g2, f3]; simp, ?_⟩
          intro hk
          obtain ⟨q, q1, q2⟩ := g3 hk
          exact ⟨q, by simpa using q1, q2⟩
      | abort => exact fun hh => hh
      | ub => exact fun hh => hh
      | fatal =>
        rintro (⟨q, q1, q2⟩ | ⟨q1, q2 | ⟨q, q2, q3⟩⟩)
        · exact Or.inl ⟨q, by simp [q1], q2⟩
        · refine Or.inr ⟨q1, Or.inl ?_⟩
          rw [f3] at q2
          simp only [List.flatMap_cons, List.length_append] at q2 ⊢
          omega
        · exact Or.inr ⟨q1, Or.inr ⟨q, by simp [q2], q3⟩⟩
    · rw [f1, okBind]
      simp only
      exact ⟨0, by simp, f2, by rw [f3]; simp, fun hk => ⟨r, rfl, f4 hk⟩⟩

/-- The loop variables at the start. -/
def Setup.start : Loop := { σ := E.σ, inPt := 0, inLen := E.inLen, outPt := 0, outLen := 0, outMaxLen := E.outMaxLen, outBuf := E.outBuf, sent := [], written := [], taken := 0, events := [] }

theorem start_inv : Inv E E.start := by
  refine ⟨by simp [Setup.start], by simp [Setup.start], rfl, rfl, by simp [Setup.start], by simp [Setup.start], by simp [Setup.start], ?_, ?_⟩
  · unfold Setup.children
    rw [if_neg (by simp only [Setup.start]; omega)]
    exact E.sim
  · unfold Setup.happened
    rw [if_neg (by simp only [Setup.start]; omega)]
    rfl

/-- The call. -/
def Setup.call (n : Nat) (w : WaitEnd) (rs : List Round) : Res Flow :=
  readwrite E.σ E.inp E.out E.inBuf E.inLen E.outBuf E.outMaxLen true n w rs

/-- C47, as far as it holds.  For every schedule of partial reads and writes, refusals, pauses and failures:

* the call never aborts and never runs into undefined behaviour; it ends the program only after a system call failed, or
  when the output ended or filled the buffer while input was left;
* as long as it runs, the child has been sent a prefix of the input, the buffer starts with a prefix of what the child
  wrote and is unchanged behind it, and that prefix is not longer than `outMaxLen`;
* when it returns `k`, the child has been sent exactly the input, and if there was any its end has been closed; the buffer
  starts with the first `k` bytes the child wrote and is unchanged behind them; `k ≤ outMaxLen`; the descriptor of the
  output has been closed and its child waited for; and if `k < outMaxLen` the child had closed its output and `k` is the
  length of all it wrote.

Missing: when `k = outMaxLen` the child may have written more (`C47_truncation_refuted`), and with no input at all the
child's stdin is never closed (`C47_no_input_refuted`). -/
theorem C47_readwrite_partial (n : Nat) (w : WaitEnd) (rs : List Round) :
    match E.call n w rs with
    | .ok (.running s) => ∃ i k, i ≤ E.inLen ∧ s.sent = E.inBuf.take i ∧ k ≤ E.outMaxLen ∧ k ≤ (rs.flatMap Round.written).length ∧
        s.outBuf = (rs.flatMap Round.written).take k ++ E.outBuf.drop k
    | .ok (.returned k s) => ∃ j, j < rs.length ∧
        s.sent = E.inBuf.take E.inLen ∧ k ≤ E.outMaxLen ∧ k ≤ ((rs.take (j + 1)).flatMap Round.written).length ∧
        s.outBuf = ((rs.take (j + 1)).flatMap Round.written).take k ++ E.outBuf.drop k ∧
        s.events = (if E.inLen = 0 then [] else [.closed E.inp]) ++ [.closed E.out, .waited E.pout] ∧
        (k < E.outMaxLen → k = ((rs.take (j + 1)).flatMap Round.written).length ∧ ∃ r, rs[j]? = some r ∧ r.closed = true)
    | .fatal => (∃ r ∈ rs, r.selectOk = false ∨ r.writeErr = true ∨ r.readErr = true) ∨
        (E.inLen ≠ 0 ∧ (E.outMaxLen ≤ (rs.flatMap Round.written).length ∨ ∃ r ∈ rs, r.closed = true))
    | .abort => False
    | .ub => False := by
  have := rounds_inv E n w rs (start_inv E)
  have e : E.call n w rs = rounds E.inp E.out E.inBuf n w E.start rs := by
    unfold Setup.call readwrite
    rw [if_neg (by simp)]
    rfl
  rw [e]
  revert this
  cases rounds E.inp E.out E.inBuf n w E.start rs with
  | ok f =>
    cases f with
    | running s =>
      rintro ⟨h1, h2⟩
      have h3 : s.written = rs.flatMap Round.written := by rw [h2]; simp [Setup.start]
      refine ⟨s.inPt, s.outLen, ?_, h1.sent, ?_, ?_, ?_⟩
      · have := h1.len; omega
      · have := h1.room; omega
      · rw [← h3]; exact h1.le
      · rw [← h3]; exact h1.buf
    | returned k s =>
      rintro ⟨j, hj, h1, h2, h3⟩
      have h4 : s.written = (rs.take (j + 1)).flatMap Round.written := by rw [h2]; simp [Setup.start]
      refine ⟨j, hj, h1.sent, h1.room, by rw [← h4]; exact h1.le, by rw [← h4]; exact h1.buf, ?_, fun hk => ⟨by rw [← h4]; exact (h1.all hk).symm, h3 hk⟩⟩
      rw [h1.events]
      unfold Setup.happened
      by_cases h0 : E.inLen = 0 <;> simp [h0]
  | abort => exact fun hh => hh
  | ub => exact fun hh => hh
  | fatal =>
    intro hh
    simpa [Setup.start] using hh

/-- C47: if the descriptors cannot be made non-blocking, the call ends the program with a message and exchanges nothing. -/
theorem C47_no_nonblock (n : Nat) (w : WaitEnd) (rs : List Round) :
    readwrite E.σ E.inp E.out E.inBuf E.inLen E.outBuf E.outMaxLen false n w rs = .fatal := by
  rw [readwrite, if_pos (by simp)]

/-- C47, progress: if the child takes at least a byte in each of the first rounds until all input is sent, then closes its
output, which is shorter than the buffer, and nothing fails, the call returns with all the output. -/
theorem C47_returns (n : Nat) (w : WaitEnd) (pre post : List Round)
    (hok : ∀ r ∈ pre ++ post, r.selectOk = true ∧ r.writeErr = false ∧ r.readErr = false)
    (hpre : ∀ r ∈ pre, 1 ≤ r.accept ∧ r.closed = false) (hlen : E.inLen ≤ pre.length)
    (hpost : ∀ r ∈ post, r.closed = true ∧ r.written = [])
    (hroom : (pre.flatMap Round.written).length < E.outMaxLen) (hmany : (pre.flatMap Round.written).length < post.length) :
    ∃ s, E.call n w (pre ++ post) = .ok (.returned (pre.flatMap Round.written).length s) ∧
      s.outBuf = pre.flatMap Round.written ++ E.outBuf.drop (pre.flatMap Round.written).length := by
  have e : E.call n w (pre ++ post) = rounds E.inp E.out E.inBuf n w E.start (pre ++ post) := by
    unfold Setup.call readwrite
    rw [if_neg (by simp)]
    rfl
  -- the second part
  have part2 : ∀ (post : List Round) (s : Loop), Inv E s → s.inLen = 0 →
      (∀ r ∈ post, r.selectOk = true ∧ r.writeErr = false ∧ r.readErr = false) → (∀ r ∈ post, r.closed = true ∧ r.written = []) →
      s.written.length < E.outMaxLen → s.written.length - s.outLen < post.length →
      ∃ t, rounds E.inp E.out E.inBuf n w s post = .ok (.returned s.written.length t) ∧ t.outBuf = s.written ++ E.outBuf.drop s.written.length := by
    intro post
    induction post with
    | nil => intro s _ _ _ _ _ h; simp at h
    | cons r rs ih =>
      intro s hI h0 hok hcl hroom hmany
      obtain ⟨hc, hw⟩ := hcl r (by simp)
      obtain ⟨hs1, hs2, hs3⟩ := hok r (by simp)
      have hle := hI.le
      simp only [rounds]
      rcases round_inv E hI r n w with ⟨f1, f2⟩ | ⟨s', f1, f2, f3, f4, f5, f6, f7⟩ | ⟨k, s', f1, f2, f3, f4⟩
      · exfalso
        -- no failure is possible
        unfold round at f1
        have h1 := E.hin.1
        have h2 := E.hout.1
        have h3 := E.in1024
        have h4 := E.out1024
        rw [if_neg (by omega), if_neg (by simp [hs1])] at f1
        unfold writeHalf at f1
        rw [if_pos h0, okBind] at f1
        have hI' : Inv E { s with written := s.written ++ r.written } :=
          ⟨hI.len, hI.sent, hI.pt, hI.taken, hI.room, by simp only [List.length_append]; omega,
            by simp only; rw [List.take_append_of_le_length hI.le]; exact hI.buf, hI.sim, hI.events⟩
        rcases readHalf_inv E hI' r n w with ⟨g1, g2⟩ | ⟨t, g1, _⟩ | ⟨k, t, g1, _⟩
        · rcases g2 with g2 | ⟨g2, _⟩
          · rw [hs3] at g2; exact absurd g2 (by simp)
          · exact g2 h0
        · rw [g1] at f1; exact absurd f1 (by simp)
        · rw [g1] at f1; exact absurd f1 (by simp)
      · rw [f1, okBind]
        simp only
        rw [hw, List.append_nil] at f3 f6 f7
        have hne : s.written.length ≠ s.outLen := by
          intro e
          rw [hc] at f7
          exact absurd (f7 e) (by simp)
        have hlt := f6 hne
        rw [List.length_cons] at hmany
        have := ih s' f2 (by omega) (fun q hq => hok q (by simp [hq])) (fun q hq => hcl q (by simp [hq])) (by rw [f3]; exact hroom) (by rw [f3]; omega)
        rw [f3] at this
        exact this
      · rw [f1, okBind]
        simp only
        rw [hw, List.append_nil] at f3
        have hk : k = s.written.length := by
          have h1 := f2.le
          rw [f3] at h1
          have h2 := f2.all (by omega)
          rw [f3] at h2
          exact h2.symm
        refine ⟨s', by rw [hk], ?_⟩
        rw [f2.buf, f3, hk, List.take_length]
  -- the first part
  have part1 : ∀ (pre post : List Round) (s : Loop), Inv E s →
      (∀ r ∈ pre, r.selectOk = true ∧ r.writeErr = false ∧ r.readErr = false) → (∀ r ∈ pre, 1 ≤ r.accept ∧ r.closed = false) →
      s.inLen ≤ pre.length → s.written.length + (pre.flatMap Round.written).length < E.outMaxLen →
      ∃ t, rounds E.inp E.out E.inBuf n w s (pre ++ post) = rounds E.inp E.out E.inBuf n w t post ∧ Inv E t ∧ t.inLen = 0 ∧
        t.written = s.written ++ pre.flatMap Round.written := by
    intro pre
    induction pre with
    | nil => intro post s hI _ _ h0 _; exact ⟨s, rfl, hI, by simpa using h0, by simp⟩
    | cons r rs ih =>
      intro post s hI hok hacc hlen hroom
      obtain ⟨hs1, hs2, hs3⟩ := hok r (by simp)
      obtain ⟨ha, hc⟩ := hacc r (by simp)
      rw [List.flatMap_cons, List.length_append] at hroom
      rw [List.length_cons] at hlen
      rw [List.cons_append, rounds]
      have hnofatal : round E.inp E.out E.inBuf n w s r ≠ .fatal := by
        intro f1
        unfold round at f1
        have h1 := E.hin.1
        have h2 := E.hout.1
        have h3 := E.in1024
        have h4 := E.out1024
        rw [if_neg (by omega), if_neg (by simp [hs1])] at f1
        have hI' : Inv E { s with written := s.written ++ r.written } :=
          ⟨hI.len, hI.sent, hI.pt, hI.taken, hI.room, by simp only [List.length_append]; have := hI.le; omega,
            by simp only; rw [List.take_append_of_le_length hI.le]; exact hI.buf, hI.sim, hI.events⟩
        rcases writeHalf_inv E hI' r with ⟨_, e2, _⟩ | ⟨u, e1, e2, e3, e4, e5⟩
        · rw [hs2] at e2; exact absurd e2 (by simp)
        · rw [e1, okBind] at f1
          rcases readHalf_inv E e2 r n w with ⟨g1, g2⟩ | ⟨t, g1, _⟩ | ⟨k, t, g1, _⟩
          · rcases g2 with g2 | ⟨g2, g3 | g3⟩
            · rw [hs3] at g2; exact absurd g2 (by simp)
            · have h5 := e2.room
              have h6 := e2.le
              rw [e3] at h6
              simp only [List.length_append] at h6
              omega
            · rw [hc] at g3; exact absurd g3.1 (by simp)
          · rw [g1] at f1; exact absurd f1 (by simp)
          · rw [g1] at f1; exact absurd f1 (by simp)
      rcases round_inv E hI r n w with ⟨f1, f2⟩ | ⟨s', f1, f2, f3, f4, f5, f6, f7⟩ | ⟨k, s', f1, f2, f3, f4⟩
      · exact absurd f1 hnofatal
      · rw [f1, okBind]
        simp only
        obtain ⟨t, t1, t2, t3, t4⟩ := ih post s' f2 (fun q hq => hok q (by simp [hq])) (fun q hq => hacc q (by simp [hq])) (by omega)
          (by rw [f3, List.length_append]; omega)
        exact ⟨t, t1, t2, t3, by rw [t4, f3]; simp⟩
      · exfalso
        have h1 := f2.le
        have h2 := f2.room
        rw [f3, List.length_append] at h1
        have := f4 (by omega)
        rw [hc] at this
        exact absurd this (by simp)
  obtain ⟨t, t1, t2, t3, t4⟩ := part1 pre post E.start (start_inv E) (fun r hr => hok r (by simp [hr])) hpre hlen (by simpa [Setup.start] using hroom)
  have t5 : t.written = pre.flatMap Round.written := by rw [t4]; simp [Setup.start]
  obtain ⟨u, u1, u2⟩ := part2 post t t2 t3 (fun r hr => hok r (by simp [hr])) hpost (by rw [t5]; exact hroom) (by rw [t5]; omega)
  rw [t5] at u1 u2
  exact ⟨u, by rw [e, t1]; exact u1, u2⟩

/-- C47 for `pr_filter`: in any state, with the pipes (a, b) and (c, d) and the child `p` the system hands out, the call is
a call of `pr_readwrite` on b and c with the given buffers, to which the theorems above apply. -/
theorem C47_filter {m : Nat} {σ : State} {C : Children} (h : Sim m σ C) (a b c d : Int) (p : Nat) (hp : p ≠ 0)
    (hb : FdOk m b) (hc : FdOk m c) (hb' : b < 1024) (hc' : c < 1024) (hne : b ≠ c) (e : Option (Int × Int))
    (inBuf : List Byte) (inLen : Nat) (outBuf : List Byte) (outMaxLen : Nat) (h1 : inLen ≤ inBuf.length) (h2 : outMaxLen ≤ outBuf.length)
    (n : Nat) (w : WaitEnd) (rs : List Round) :
    ∃ E : Setup, E.inp = b ∧ E.out = c ∧ E.pin = p ∧ E.pout = p ∧ E.inBuf = inBuf ∧ E.inLen = inLen ∧ E.outBuf = outBuf ∧ E.outMaxLen = outMaxLen ∧
      filter σ { pipeIn := some (a, b), pipeOut := some (c, d), pipeErr := e, pid := some p } inBuf inLen outBuf outMaxLen true n w rs = E.call n w rs := by
  obtain ⟨hi, l, hl⟩ := h.inited
  obtain ⟨σ1, e1, e2, l1, hl1⟩ := hi.set hl hb p
  rw [if_neg hp] at e2
  obtain ⟨σ2, f1, f2, l2, hl2⟩ := e2.set hl1 hc p
  rw [if_neg hp] at f2
  have hopen : prOpen σ (CREATE_STDIN ||| CREATE_STDOUT) (some 0) (some 0) none { pipeIn := some (a, b), pipeOut := some (c, d), pipeErr := e, pid := some p } =
      .ok (σ2, { ret := p, fds := [some b, some c, none], events := [.closed a, .closed d] }) := by
    unfold prOpen
    rw [if_neg (by decide), if_neg (by simp), if_neg (by simp), if_neg (by rintro ⟨x, _⟩; exact absurd x (by decide))]
    simp only [Option.getD_some]
    have p1 : ∀ σ : State, parent σ (CREATE_STDIN ||| CREATE_STDOUT) CREATE_STDIN USE_STDIN a b (some 0) p =
        (objSet σ b p).bind fun σ => .ok (σ, some b, [.closed a]) := by
      intro σ; unfold parent; rw [if_pos (by decide)]
    have p2 : ∀ σ : State, parent σ (CREATE_STDIN ||| CREATE_STDOUT) CREATE_STDOUT USE_STDOUT d c (some 0) p =
        (objSet σ c p).bind fun σ => .ok (σ, some c, [.closed d]) := by
      intro σ; unfold parent; rw [if_pos (by decide)]
    have p3 : ∀ (σ : State) (x y : Int), parent σ (CREATE_STDIN ||| CREATE_STDOUT) CREATE_STDERR USE_STDERR x y none p = .ok (σ, none, []) := by
      intro σ x y; unfold parent; rw [if_neg (by decide), if_neg (by decide)]
    rw [p1, e1]
    simp only [okBind]
    rw [p2, f1]
    simp only [okBind]
    rw [p3]
    rfl
  have hb0 := hb.1
  have hc0 := hc.1
  refine ⟨{ m := m, σ := σ2, C := _, sim := f2, inp := b, out := c, pin := p, pout := p, hin := hb, hout := hc, in1024 := hb', out1024 := hc', ne := hne, cin := ?_, cout := ?_, inBuf := inBuf, inLen := inLen, outBuf := outBuf, outMaxLen := outMaxLen, inFits := h1, outFits := h2 },
    rfl, rfl, rfl, rfl, rfl, rfl, rfl, rfl, ?_⟩
  · unfold Children.set
    rw [if_neg (by omega), if_pos (by omega)]
  · unfold Children.set
    rw [if_pos (by omega)]
  · unfold filter
    rw [hopen]
    rfl

/-! ### A concrete setup -/

/-- A library state with a child 7 whose stdin is descriptor 4 and whose stdout is descriptor 5. -/
def exState : State := { maxFd := 8, objects := some [0, 0, 0, 0, 7, 7, 0, 0] }

/-- Its descriptors. -/
def exChildren : Children := fun i => if i = 4 ∨ i = 5 then some 7 else none

theorem ex_sim : Sim 8 exState exChildren := by
  refine ⟨rfl, rfl, fun i => ?_⟩
  match i with
  | 0 | 1 | 2 | 3 | 4 | 5 | 6 | 7 => decide
  | i + 8 => simp [exChildren, List.getD]

/-- Input, and room for `room` bytes of output. -/
def exSetup (inBuf : List Byte) (room : Nat) : Setup where
  m := 8
  σ := exState
  C := exChildren
  sim := ex_sim
  inp := 4
  out := 5
  pin := 7
  pout := 7
  hin := by constructor <;> decide
  hout := by constructor <;> decide
  in1024 := by decide
  out1024 := by decide
  ne := by decide
  cin := by decide
  cout := by decide
  inBuf := inBuf
  inLen := inBuf.length
  outBuf := List.replicate room 0
  outMaxLen := room
  inFits := Nat.le_refl _
  outFits := by simp

/-- What is seen of a call: the result, the bytes sent, the buffer, the events. -/
def seen : Res Flow → Option (Nat × List Byte × List Byte × List PrEvent)
  | .ok (.returned k s) => some (k, s.sent, s.outBuf, s.events)
  | _ => none

/-- Non-vacuity: three bytes in, in two pieces; four bytes out in pieces; the rest of the buffer untouched. -/
example : seen ((exSetup [1, 2, 3] 6).call 0 (.ended (.exited 0))
    [{ accept := 2, written := [], closed := false, give := 9 }, { accept := 0, written := [9], closed := false, give := 9 },
     { accept := 5, written := [8, 7], closed := false, give := 1 }, { accept := 0, written := [6], closed := true, give := 9 },
     { accept := 0, written := [], closed := true, give := 9 }]) =
    some (4, [1, 2, 3], [9, 8, 7, 6, 0, 0], [.closed 4, .closed 5, .waited 7]) := by decide +kernel

/-- C47 refuted for large descriptors (`Setup.in1024`, `Setup.out1024`): `FD_SET` of a descriptor from 1024 on is undefined. -/
theorem C47_large_descriptor_refuted (σ : State) (inp out : Int) (inBuf : List Byte) (inLen : Nat) (outBuf : List Byte) (outMaxLen : Nat)
    (n : Nat) (w : WaitEnd) (r : Round) (rs : List Round) (h : 1024 ≤ out ∨ inLen ≠ 0 ∧ 1024 ≤ inp) :
    readwrite σ inp out inBuf inLen outBuf outMaxLen true n w (r :: rs) = .ub := by
  unfold readwrite
  rw [if_neg (by simp), rounds, round, if_pos (by simp only; omega)]
  rfl

/-- C47 refuted where it promises an error for output longer than the buffer: the child writes three bytes, there is room
for two, and the call returns 2 as if the output had ended (`read` with no room gives 0); the child has not even closed
its output. -/
theorem C47_truncation_refuted :
    ∃ (E : Setup) (rs : List Round) (s : Loop), (∀ r ∈ rs, r.selectOk = true ∧ r.writeErr = false ∧ r.readErr = false ∧ r.closed = false) ∧
      E.outMaxLen < (rs.flatMap Round.written).length ∧ E.call 0 (.ended (.exited 0)) rs = .ok (.returned E.outMaxLen s) := by
  let rs : List Round := [{ accept := 1, written := [9, 8, 7], closed := false, give := 9 }, { accept := 0, written := [], closed := false, give := 9 }]
  let s : Loop := { σ := { maxFd := 8, objects := some [0, 0, 0, 0, 0, 0, 0, 0] }, inPt := 1, inLen := 0, outPt := 2, outLen := 2, outMaxLen := 0, outBuf := [9, 8], sent := [1], written := [9, 8, 7], taken := 2, events := [.closed 4, .closed 5, .waited 7] }
  refine ⟨exSetup [1] 2, rs, s, ?_, by decide, rfl⟩
  intro r hr
  simp only [rs, List.mem_cons, List.not_mem_nil, or_false] at hr
  rcases hr with rfl | rfl <;> exact ⟨rfl, rfl, rfl, rfl⟩

/-- C47 refuted where it promises end-of-file to the child: with no input, no schedule ever makes the call close the
child's stdin, so a child that reads to the end of its input never gets there. -/
theorem C47_no_input_refuted (h0 : E.inLen = 0) (n : Nat) (w : WaitEnd) (rs : List Round) :
    match E.call n w rs with
    | .ok (.running s) => .closed E.inp ∉ s.events
    | .ok (.returned _ s) => .closed E.inp ∉ s.events
    | _ => True := by
  have := rounds_inv E n w rs (start_inv E)
  have e : E.call n w rs = rounds E.inp E.out E.inBuf n w E.start rs := by
    unfold Setup.call readwrite
    rw [if_neg (by simp)]
    rfl
  rw [e]
  revert this
  have hne := E.ne
  cases rounds E.inp E.out E.inBuf n w E.start rs with
  | ok f =>
    cases f with
    | running s =>
      rintro ⟨h1, _⟩
      show _ ∉ s.events
      rw [h1.events]
      simp [Setup.happened, h0]
    | returned k s =>
      rintro ⟨_, _, h1, _⟩
      show _ ∉ s.events
      rw [h1.events]
      simp [Setup.happened, h0, hne]
  | _ => intro _; trivial

/-- Non-vacuity of the last: a setup without input. -/
example : (exSetup [] 3).inLen = 0 := rfl

end Maa.Pr
