import Verif.Spec.Run
import Verif.Model.CStr

/-! # What a user sees of the process functions -/

namespace Maa.Spec

/-- Flag words of `pr_open`; bits 0, 1, 2: use stdin, stdout, stderr; bits 4, 5, 6: create them; bit 8: stderr to stdout. -/
abbrev PrFlags := BitVec 32

/-- Flag words without a contradiction. -/
def PrFlags.Legal (f : PrFlags) : Prop :=
  (∀ i, f.getLsbD i = true → i = 0 ∨ i = 1 ∨ i = 2 ∨ i = 4 ∨ i = 5 ∨ i = 6 ∨ i = 8) ∧
  (∀ k, k < 3 → ¬ (f.getLsbD k = true ∧ f.getLsbD (4 + k) = true)) ∧
  ¬ (f.getLsbD 8 = true ∧ (f.getLsbD 2 = true ∨ f.getLsbD 6 = true))

/-- How a child ended. -/
inductive Ended where
  | exited (code : Nat)
  | signaled (sig : Nat) (core : Bool)

/-- Exit codes have 8 bits, signal numbers go from 1 to 126. -/
def Ended.Proper : Ended → Prop
  | .exited c => c < 256
  | .signaled s _ => 1 ≤ s ∧ s ≤ 126

/-- The status word Linux reports for it. -/
def Ended.status : Ended → Nat
  | .exited c => c * 256
  | .signaled s core => s + if core then 128 else 0

/-- What the library reports: the code, or 128 + signal, a broken pipe (13) counting as success. -/
def Ended.report : Ended → Int
  | .exited c => c
  | .signaled s _ => if s = 13 then 0 else 128 + s

/-- The answer of the system to a wait, after any number of interruptions. -/
inductive WaitEnd where
  | ended (e : Ended)
  | noChild
  | failed

/-- What waiting gives. -/
def WaitEnd.report : WaitEnd → Int
  | .ended e => e.report
  | .noChild => 0
  | .failed => -1

/-- A wait the system can answer like that. -/
def WaitEnd.Proper : WaitEnd → Prop
  | .ended e => e.Proper
  | _ => True

/-- What happens outside the library. -/
inductive PrEvent where
  | closed (fd : Int)
  | killed (pid : Nat)
  | waited (pid : Nat)
  deriving DecidableEq

/-- What the system does during one `pr_open`: the three pipes (read end, write end) and the child. -/
structure PrEnv where
  pipeIn : Option (Int × Int)
  pipeOut : Option (Int × Int)
  pipeErr : Option (Int × Int)
  pid : Option Nat

/-- Calls on pr.c; a file descriptor argument is the value behind the pointer, or none for NULL; `n` is how often the
wait is interrupted. -/
inductive PrOp where
  | open (flags : PrFlags) (infd outfd errfd : Option Int) (env : PrEnv)
  | closeNowait (fd : Int)
  | close (fd : Int) (n : Nat) (w : WaitEnd)
  | spawn (pid : Option Nat) (n : Nat) (w : WaitEnd)
  | shutdown

/-- What a call gives: its result, the descriptors behind the pointers, and what happened outside. -/
structure PrOut where
  ret : Int
  fds : List (Option Int) := []
  events : List PrEvent
  deriving DecidableEq

/-- Descriptors opened by the library, with their child. -/
abbrev Children := Nat → Option Nat

/-- Change one entry. -/
def Children.set (C : Children) (fd : Int) (p : Option Nat) : Children := fun i => if (i : Int) = fd then p else C i

/-- One stream of a new child: created (`keep` is ours, `drop` the child's), used up, or left alone. -/
def attach (C : Children) (f : PrFlags) (k : Nat) (drop keep : Int) (fd : Option Int) (pid : Nat) : Res (Children × Option Int × List PrEvent) :=
  if f.getLsbD (4 + k) then
    match fd with
    | none => .ub
    | some _ => .ok (C.set keep pid, some keep, [.closed drop])
  else if f.getLsbD k then
    match fd with
    | none => .ok (C, none, [])
    | some v => if v = 0 then .ok (C, fd, []) else .ok (C.set v none, fd, [.closed v])
  else .ok (C, fd, [])

open Classical in
/-- One call. -/
noncomputable def prStep (maxFd : Nat) (C : Children) : PrOp → Res (Children × PrOut)
  | .open f infd outfd errfd env =>
    if ¬ f.Legal then .abort
    else if (f.getLsbD 4 ∧ env.pipeIn = none) ∨ (f.getLsbD 5 ∧ env.pipeOut = none) ∨ (f.getLsbD 6 ∧ env.pipeErr = none) ∨ env.pid = none then .fatal
    else
      let pid := env.pid.getD 0
      let i := env.pipeIn.getD (0, 0)
      let o := env.pipeOut.getD (0, 0)
      let e := env.pipeErr.getD (0, 0)
      (attach C f 0 i.1 i.2 infd pid).bind fun a =>
      (attach a.1 f 1 o.2 o.1 outfd pid).bind fun b =>
      (attach b.1 f 2 e.2 e.1 errfd pid).bind fun c =>
        .ok (c.1, { ret := pid, fds := [a.2.1, b.2.1, c.2.1], events := a.2.2 ++ b.2.2 ++ c.2.2 })
  | .closeNowait fd =>
    match C fd.toNat with
    | none => .abort
    | some p => .ok (C.set fd none, { ret := p, events := [.closed fd] })
  | .close fd _ w =>
    match C fd.toNat with
    | none => .abort
    | some p => .ok (C.set fd none, { ret := w.report, events := [.closed fd, .waited p] })
  | .spawn none _ _ => .fatal
  | .spawn (some p) _ w => .ok (C, { ret := w.report, events := [.waited p] })
  | .shutdown => .ok (fun _ => none, { ret := 0, events := ((List.range maxFd).filterMap C).flatMap fun p => [.killed p, .waited p] })

/-- A descriptor the table of `maxFd` entries has room for. -/
def FdOk (maxFd : Nat) (fd : Int) : Prop := 0 ≤ fd ∧ fd < maxFd

/-- A call in which all descriptors are in range, pids are not 0 and the system's answers are proper. -/
def PrOp.Proper (maxFd : Nat) : PrOp → Prop
  | .open _ i o e env =>
    (∀ v, i = some v ∨ o = some v ∨ e = some v → FdOk maxFd v) ∧
    (∀ p, env.pipeIn = some p ∨ env.pipeOut = some p ∨ env.pipeErr = some p → FdOk maxFd p.1 ∧ FdOk maxFd p.2) ∧ env.pid ≠ some 0
  | .closeNowait fd => FdOk maxFd fd
  | .close fd _ w => FdOk maxFd fd ∧ w.Proper
  | .spawn _ _ w => w.Proper
  | .shutdown => True

/-! ## The child's side -/

/-- Open descriptors of a process and the files behind them. -/
abbrev FdTab := Int → Option Nat

/-- What stream `k` of the child shall be: its end of the new pipe, the descriptor handed over, `/dev/null` when none is
handed over, or what the parent has. -/
def childStream (T : FdTab) (f : PrFlags) (k : Nat) (pipeEnd : Int) (fd : Option Int) (nullFile : Nat) : Option Nat :=
  if f.getLsbD (4 + k) then T pipeEnd
  else if f.getLsbD k then
    match fd with
    | none => some nullFile
    | some v => if v = 0 then some nullFile else T v
  else T k

/-- The descriptor stream `k` of the child comes from, if it is neither inherited nor `/dev/null`. -/
def childSource (f : PrFlags) (k : Nat) (pipeEnd : Int) (fd : Option Int) : Option Int :=
  if f.getLsbD (4 + k) then some pipeEnd
  else if f.getLsbD k then fd.filter (· ≠ 0)
  else none

/-- The descriptors used up in giving the child its stream `k`: both ends of the pipe, the descriptor handed over, or the
one `/dev/null` was opened with. -/
def childUsed (f : PrFlags) (k : Nat) (parentEnd pipeEnd : Int) (fd : Option Int) (null : Int) : List Int :=
  if f.getLsbD (4 + k) then [parentEnd, pipeEnd]
  else if f.getLsbD k then
    match fd with
    | none => [null]
    | some v => if v = 0 then [null] else [v]
  else []

end Maa.Spec
