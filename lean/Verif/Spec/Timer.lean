import Verif.Spec.Run
import Verif.Model.CStr
import Verif.Spec.Source

/-! # What a user sees of the timers -/

namespace Maa.Spec

/-- A clock reading: seconds and microseconds. -/
structure Timeval where
  sec : Int
  usec : Int
  deriving DecidableEq

/-- A proper clock reading. -/
def Timeval.Proper (t : Timeval) : Prop := 0 ≤ t.usec ∧ t.usec < 1000000

/-- The elapsed time between two readings, in microseconds. -/
def elapsedMicros (now before : Timeval) : Int := (now.sec - before.sec) * 1000000 + (now.usec - before.usec)

/-- What the system's clocks show during one call: wall clock, and the user and system time of the process and of its
children. -/
structure Reading where
  real : Timeval
  selfUser : Timeval
  selfSystem : Timeval
  childUser : Timeval
  childSystem : Timeval
  deriving DecidableEq

/-- Calls on timer.c. -/
inductive TimOp where
  | start (name : Option (List Byte)) (r : Reading)
  | stop (name : Option (List Byte)) (r : Reading)
  | reset (name : Option (List Byte))
  | getReal (name : Option (List Byte))
  | getUser (name : Option (List Byte))
  | getSystem (name : Option (List Byte))
  | shutdown

/-- The name given in a call. -/
def TimOp.name : TimOp → Option (Option (List Byte))
  | .start n _ | .stop n _ | .reset n | .getReal n | .getUser n | .getSystem n => some n
  | .shutdown => none

/-- The name, if any, is a C string. -/
def TimOp.Proper (o : TimOp) : Prop := ∀ s, o.name = some (some s) → (0 : Byte) ∉ s

/-- One timer: what it shows, and when it was started. -/
structure Timer where
  real : Int
  user : Int
  system : Int
  started : Reading
  deriving DecidableEq

/-- All timers, by name. -/
abbrev Timers := List Byte → Option Timer

/-- Change one timer. -/
def Timers.set (T : Timers) (n : List Byte) (t : Timer) : Timers := fun m => if m = n then some t else T m

/-- Work on an existing timer; a NULL name or an unknown timer aborts. -/
def Timers.on (T : Timers) (name : Option (List Byte)) (k : List Byte → Timer → Res (Timers × Int)) : Res (Timers × Int) :=
  match name with
  | none => .abort
  | some n =>
    match T n with
    | none => .abort
    | some t => k n t

/-- One call; `diff now before` is what a stopped timer shows for the time between two readings. -/
def timStep (diff : Timeval → Timeval → Int) (T : Timers) : TimOp → Res (Timers × Int)
  | .start none _ => .abort
  | .start (some n) r =>
    match T n with
    | none => .ok (T.set n { real := 0, user := 0, system := 0, started := r }, 0)
    | some t => .ok (T.set n { t with started := r }, 0)
  | .stop name r => T.on name fun n t => .ok (T.set n
      { t with
        real := diff r.real t.started.real
        user := diff r.selfUser t.started.selfUser + diff r.childUser t.started.childUser
        system := diff r.selfSystem t.started.selfSystem + diff r.childSystem t.started.childSystem }, 0)
  | .reset name => T.on name fun n t => .ok (T.set n { t with real := 0, user := 0, system := 0 }, 0)
  | .getReal name => T.on name fun _ t => .ok (T, t.real)
  | .getUser name => T.on name fun _ t => .ok (T, t.user)
  | .getSystem name => T.on name fun _ t => .ok (T, t.system)
  | .shutdown => .ok (fun _ => none, 0)

/-- The line printed for a timer: its name in at least 20 columns, then its three values with three decimals. -/
def timerLine (n : List Byte) (t : Timer) : List Byte :=
  n ++ List.replicate (20 - n.length) (32 : Byte) ++ " ".toUTF8.toList ++ decimalInt t.real ++ ".000r ".toUTF8.toList ++
    decimalInt t.user ++ ".000u ".toUTF8.toList ++ decimalInt t.system ++ ".000s\n".toUTF8.toList

end Maa.Spec
