import Verif.Spec.Pr

/-! # Model of maa/pr.c

The system's answers (pipes, child pid, wait status, how much a read or write transfers) are arguments.  `max_fd` (lines
68-85) is a constant of the process.  Command parsing (`arg_argify`, modelled in `Model/Arg.lean`) and debugging output have
no influence and are left out (`Props/DebugOut.lean` proves the latter). -/

namespace Maa.Pr

open Spec (PrFlags PrEvent PrEnv PrOp PrOut WaitEnd FdTab)

/-- `_pr_objects`, maa/pr.c:41-45: the pids by descriptor, 0 for none; and the answer of `max_fd`. -/
structure State where
  maxFd : Nat
  objects : Option (List Nat)

/-- Program start. -/
def State.init (maxFd : Nat) : State := { maxFd := maxFd, objects := none }

/-- `_pr_init`, maa/pr.c:87-91. -/
def prInit (σ : State) : State :=
  match σ.objects with
  | none => { σ with objects := some (List.replicate σ.maxFd 0) }
  | some _ => σ

/-- Read `_pr_objects[fd].pid`. -/
def objGet (σ : State) (fd : Int) : Res Nat :=
  match σ.objects with
  | none => .ub
  | some l => if 0 ≤ fd ∧ fd < l.length then .ok (l.getD fd.toNat 0) else .ub

/-- Write `_pr_objects[fd].pid`. -/
def objSet (σ : State) (fd : Int) (pid : Nat) : Res State :=
  match σ.objects with
  | none => .ub
  | some l => if 0 ≤ fd ∧ fd < l.length then .ok { σ with objects := some (l.set fd.toNat pid) } else .ub

/-- `PR_USE_…`, `PR_CREATE_…`, `PR_STDERR_TO_STDOUT`, maa/maa.h:488-494. -/
def USE_STDIN : PrFlags := 0x1
/-- maa/maa.h:489 -/
def USE_STDOUT : PrFlags := 0x2
/-- maa/maa.h:490 -/
def USE_STDERR : PrFlags := 0x4
/-- maa/maa.h:491 -/
def CREATE_STDIN : PrFlags := 0x10
/-- maa/maa.h:492 -/
def CREATE_STDOUT : PrFlags := 0x20
/-- maa/maa.h:493 -/
def CREATE_STDERR : PrFlags := 0x40
/-- maa/maa.h:494 -/
def STDERR_TO_STDOUT : PrFlags := 0x100

/-- The flag checks of `pr_open2`, maa/pr.c:131-144: true if one of them fails. -/
def badFlags (flags : PrFlags) : Bool :=
  (flags &&& ~~~(USE_STDIN ||| USE_STDOUT ||| USE_STDERR ||| CREATE_STDIN ||| CREATE_STDOUT ||| CREATE_STDERR ||| STDERR_TO_STDOUT) != 0) ||
  ((flags &&& USE_STDIN != 0) && (flags &&& CREATE_STDIN != 0)) ||
  ((flags &&& USE_STDOUT != 0) && (flags &&& CREATE_STDOUT != 0)) ||
  ((flags &&& USE_STDERR != 0) && (flags &&& CREATE_STDERR != 0)) ||
  ((flags &&& STDERR_TO_STDOUT != 0) && ((flags &&& USE_STDERR != 0) || (flags &&& CREATE_STDERR != 0)))

/-- `PARENT` in `pr_open2`, maa/pr.c:202-214; `drop` is `fds[readfd]`, `keep` is `fds[writefd]`. -/
def parent (σ : State) (flags create use : PrFlags) (drop keep : Int) (fd : Option Int) (pid : Nat) : Res (State × Option Int × List PrEvent) :=
  if flags &&& create != 0 then
    match fd with
    | none => .ub
    | some _ => (objSet σ keep pid).bind fun σ => .ok (σ, some keep, [.closed drop])
  else if flags &&& use != 0 then
    match fd with
    | none => .ok (σ, fd, [])
    | some v => if v ≠ 0 then (objSet σ v 0).bind fun σ => .ok (σ, fd, [.closed v]) else .ok (σ, fd, [])
  else .ok (σ, fd, [])

/-- `pr_open2`, maa/pr.c:117-229, the parent's side; also `pr_open`, maa/pr.c:112-115. -/
def prOpen (σ : State) (flags : PrFlags) (infd outfd errfd : Option Int) (env : PrEnv) : Res (State × PrOut) :=
  let σ := prInit σ
  if badFlags flags then .abort
  else if flags &&& CREATE_STDIN != 0 ∧ env.pipeIn = none then .fatal
  else if flags &&& CREATE_STDOUT != 0 ∧ env.pipeOut = none then .fatal
  else if flags &&& CREATE_STDERR != 0 ∧ env.pipeErr = none then .fatal
  else
    match env.pid with
    | none => .fatal
    | some pid =>
      let fdin := env.pipeIn.getD (0, 0)
      let fdout := env.pipeOut.getD (0, 0)
      let fderr := env.pipeErr.getD (0, 0)
      (parent σ flags CREATE_STDIN USE_STDIN fdin.1 fdin.2 infd pid).bind fun a =>
      (parent a.1 flags CREATE_STDOUT USE_STDOUT fdout.2 fdout.1 outfd pid).bind fun b =>
      (parent b.1 flags CREATE_STDERR USE_STDERR fderr.2 fderr.1 errfd pid).bind fun c =>
        .ok (c.1, { ret := pid, fds := [a.2.1, b.2.1, c.2.1], events := a.2.2 ++ b.2.2 ++ c.2.2 })

/-- `WIFEXITED` (Linux). -/
def wifexited (s : Nat) : Bool := s &&& 0x7f == 0

/-- `WEXITSTATUS` (Linux). -/
def wexitstatus (s : Nat) : Nat := (s &&& 0xff00) >>> 8

/-- `WTERMSIG` (Linux). -/
def wtermsig (s : Nat) : Nat := s &&& 0x7f

/-- `WIFSIGNALED` (Linux): `((signed char) ((s & 0x7f) + 1) >> 1) > 0`. -/
def wifsignaled (s : Nat) : Bool :=
  let v := (s &&& 0x7f) + 1
  let c : Int := if v ≥ 128 then (v : Int) - 256 else v
  decide (c / 2 > 0)

/-- The decoding in `pr_wait` and `pr_spawn`, maa/pr.c:248-255, 435-442. -/
def exitStatus (status : Nat) : Int :=
  let e := if wifexited status then wexitstatus status else 0
  if wifsignaled status && wtermsig status != 13 then ((e ||| (128 + wtermsig status) : Nat) : Int) else e

/-- `pr_wait`, maa/pr.c:231-260: `waitpid` is interrupted `n` times, then answers. -/
def prWait : Nat → WaitEnd → Int
  | n + 1, w => prWait n w
  | 0, .ended e => exitStatus e.status
  | 0, .noChild => 0
  | 0, .failed => -1

/-- `pr_close_nowait`, maa/pr.c:262-275. -/
def closeNowait (σ : State) (fd : Int) : Res (State × PrOut) :=
  match σ.objects with
  | none => .abort
  | some _ =>
    (objGet σ fd).bind fun pid =>
      if pid = 0 then .abort
      else (objSet σ fd 0).bind fun σ => .ok (σ, { ret := pid, events := [.closed fd] })

/-- `pr_close`, maa/pr.c:277-282. -/
def prClose (σ : State) (fd : Int) (n : Nat) (w : WaitEnd) : Res (State × PrOut) :=
  (closeNowait σ fd).bind fun r => .ok (r.1, { ret := prWait n w, events := r.2.events ++ [.waited r.2.ret.toNat] })

/-- `pr_spawn`, maa/pr.c:397-447. -/
def prSpawn (σ : State) (pid : Option Nat) (n : Nat) (w : WaitEnd) : Res (State × PrOut) :=
  let σ := prInit σ
  match pid with
  | none => .fatal
  | some p => .ok (σ, { ret := prWait n w, events := [.waited p] })

/-- The loop in `_pr_shutdown`, maa/pr.c:98-105. -/
def shutdownLoop : List Nat → List PrEvent
  | [] => []
  | pid :: l => (if pid ≠ 0 then [.killed pid, .waited pid] else []) ++ shutdownLoop l

/-- `_pr_shutdown`, maa/pr.c:93-109. -/
def shutdown (σ : State) : State × PrOut :=
  match σ.objects with
  | none => (σ, { ret := 0, events := [] })
  | some l => ({ σ with objects := none }, { ret := 0, events := shutdownLoop l })

/-- One call (dispatch only). -/
def step (σ : State) : PrOp → Res (State × PrOut)
  | .open f i o e env => prOpen σ f i o e env
  | .closeNowait fd => closeNowait σ fd
  | .close fd n w => prClose σ fd n w
  | .spawn p n w => prSpawn σ p n w
  | .shutdown => .ok (shutdown σ)

/-! ## The child's side of `pr_open2` -/

/-- `close(2)`. -/
def sysClose (T : FdTab) (fd : Int) : FdTab := fun x => if x = fd then none else T x

/-- `dup2(2)`. -/
def sysDup2 (T : FdTab) (a b : Int) : FdTab :=
  match T a with
  | none => T
  | some f => fun x => if x = b then some f else T x

/-- `open("/dev/null")` giving descriptor `n`. -/
def sysOpen (T : FdTab) (n : Int) (file : Nat) : FdTab := fun x => if x = n then some file else T x

/-- `CHILD` in `pr_open2`, maa/pr.c:166-181; `drop` is `fds[writefd]`, `keep` is `fds[readfd]`; `null` is the descriptor
`open` gives for `/dev/null`, negative if it fails. -/
def child (T : FdTab) (flags create use : PrFlags) (drop keep : Int) (fd : Option Int) (fileno null : Int) (nullFile : Nat) : FdTab :=
  if flags &&& create != 0 then
    sysClose (sysDup2 (sysClose T drop) keep fileno) keep
  else if flags &&& use != 0 then
    let viaNull := if null ≥ 0 then sysClose (sysDup2 (sysOpen T null nullFile) null fileno) null else T
    match fd with
    | none => viaNull
    | some v => if v ≠ 0 then sysClose (sysDup2 T v fileno) v else viaNull
  else T

/-- The loop closing the other children's descriptors, maa/pr.c:195-196. -/
def closeOthers (T : FdTab) : Nat → List Nat → FdTab
  | _, [] => T
  | i, pid :: l => closeOthers (if pid > 0 then sysClose T i else T) (i + 1) l

/-- The child's descriptors at `execvp`, maa/pr.c:160-198 (the user's callback taken to change nothing). -/
def childTab (T : FdTab) (objects : List Nat) (flags : PrFlags) (infd outfd errfd : Option Int) (fdin fdout fderr : Int × Int)
    (null : Int × Int × Int) (nullFile : Nat) : FdTab :=
  let T := child T flags CREATE_STDIN USE_STDIN fdin.2 fdin.1 infd 0 null.1 nullFile
  let T := child T flags CREATE_STDOUT USE_STDOUT fdout.1 fdout.2 outfd 1 null.2.1 nullFile
  let T := child T flags CREATE_STDERR USE_STDERR fderr.1 fderr.2 errfd 2 null.2.2 nullFile
  let T := if flags &&& STDERR_TO_STDOUT != 0 then sysDup2 T 1 2 else T
  closeOthers T 0 objects

/-! ## `pr_readwrite` -/

/-- What the system does in one round of the loop: whether `select` works, how many bytes the pipe to the child takes
(0: `EAGAIN`), what the child has written in the meantime and whether it has closed its end, and how many bytes a read
prefers to give; errors other than `EAGAIN` on either side. -/
structure Round where
  selectOk : Bool := true
  writeErr : Bool := false
  accept : Nat
  written : List Byte
  closed : Bool
  readErr : Bool := false
  give : Nat

/-- The variables of `pr_readwrite`, maa/pr.c:288-297, the output buffer, and the two pipes: `sent` is what went to the
child, `written` what the child wrote, of which the first `taken` bytes have been read. -/
structure Loop where
  σ : State
  inPt : Nat
  inLen : Nat
  outPt : Nat
  outLen : Nat
  outMaxLen : Nat
  outBuf : List Byte
  sent : List Byte
  written : List Byte
  taken : Nat
  events : List PrEvent

/-- The writing half of a round, maa/pr.c:348-361.  `write` on a pipe never gives 0 for a positive length. -/
def writeHalf (inp : Int) (inBuf : List Byte) (s : Loop) (r : Round) : Res Loop :=
  if s.inLen = 0 then .ok s
  else if r.writeErr then .fatal
  else
    let count := min r.accept s.inLen
    if count = 0 then .ok s
    else if s.inPt + count > inBuf.length then .ub
    else
      let s' := { s with sent := s.sent ++ (inBuf.drop s.inPt).take count, inLen := s.inLen - count, inPt := s.inPt + count }
      if s'.inLen = 0 then
        (closeNowait s'.σ inp).bind fun q => .ok { s' with σ := q.1, events := s'.events ++ q.2.events }
      else .ok s'

/-- What `read(2)` on the pipe gives: an error, `EAGAIN`, or a number of bytes, 0 being both "end of file" and "no room". -/
inductive ReadRes where
  | error
  | again
  | count (n : Nat)

/-- `read(2)` on a nonblocking pipe with `room` bytes of room and `avail` bytes in it. -/
def sysRead (room avail : Nat) (r : Round) : ReadRes :=
  if r.readErr then .error
  else if room = 0 then .count 0
  else if avail = 0 then (if r.closed then .count 0 else .again)
  else .count (min (min (max r.give 1) avail) room)

/-- A round goes on, or the function returns. -/
inductive Flow where
  | running (s : Loop)
  | returned (n : Nat) (s : Loop)

/-- The reading half of a round, maa/pr.c:362-380. -/
def readHalf (out : Int) (n : Nat) (w : WaitEnd) (s : Loop) (r : Round) : Res Flow :=
  match sysRead s.outMaxLen (s.written.length - s.taken) r with
  | .error => .fatal
  | .again => .ok (.running s)
  | .count 0 =>
    if s.inLen ≠ 0 then .fatal
    else (prClose s.σ out n w).bind fun q => .ok (.returned s.outLen { s with σ := q.1, events := s.events ++ q.2.events })
  | .count c =>
    if s.outPt + c > s.outBuf.length then .ub
    else if (s.outMaxLen : Int) - c < 0 then .fatal
    else .ok (.running { s with
      outBuf := s.outBuf.take s.outPt ++ (s.written.drop s.taken).take c ++ s.outBuf.drop (s.outPt + c),
      taken := s.taken + c, outLen := s.outLen + c, outPt := s.outPt + c, outMaxLen := s.outMaxLen - c })

/-- One round of the loop, maa/pr.c:319-383; `FD_SET` of a descriptor from `FD_SETSIZE` (1024) on is undefined. -/
def round (inp out : Int) (inBuf : List Byte) (n : Nat) (w : WaitEnd) (s : Loop) (r : Round) : Res Flow :=
  if out < 0 ∨ out ≥ 1024 ∨ (s.inLen ≠ 0 ∧ (inp < 0 ∨ inp ≥ 1024)) then .ub
  else if ¬ r.selectOk then .fatal
  else (writeHalf inp inBuf { s with written := s.written ++ r.written } r).bind fun s => readHalf out n w s r

/-- The loop, over the rounds there is time for. -/
def rounds (inp out : Int) (inBuf : List Byte) (n : Nat) (w : WaitEnd) : Loop → List Round → Res Flow
  | s, [] => .ok (.running s)
  | s, r :: rs => (round inp out inBuf n w s r).bind fun f =>
    match f with
    | .running s => rounds inp out inBuf n w s rs
    | .returned k s => .ok (.returned k s)

/-- `pr_readwrite`, maa/pr.c:284-384; `flagsOk` is whether both `fcntl` calls work. -/
def readwrite (σ : State) (inp out : Int) (inBuf : List Byte) (inLen : Nat) (outBuf : List Byte) (outMaxLen : Nat) (flagsOk : Bool)
    (n : Nat) (w : WaitEnd) (rs : List Round) : Res Flow :=
  if ¬ flagsOk then .fatal
  else rounds inp out inBuf n w { σ := σ, inPt := 0, inLen := inLen, outPt := 0, outLen := 0, outMaxLen := outMaxLen, outBuf := outBuf, sent := [], written := [], taken := 0, events := [] } rs

/-- `pr_filter`, maa/pr.c:386-395. -/
def filter (σ : State) (env : PrEnv) (inBuf : List Byte) (inLen : Nat) (outBuf : List Byte) (outMaxLen : Nat) (flagsOk : Bool)
    (n : Nat) (w : WaitEnd) (rs : List Round) : Res Flow :=
  (prOpen σ (CREATE_STDIN ||| CREATE_STDOUT) (some 0) (some 0) none env).bind fun r =>
    match r.2.fds with
    | [some inp, some out, _] => readwrite r.1 inp out inBuf inLen outBuf outMaxLen flagsOk n w rs
    | _ => .ub

end Maa.Pr
