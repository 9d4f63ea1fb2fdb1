import Verif.Model.Log
import Verif.Model.Borrowed
import Verif.Spec.Syslog

/-! # maa/log.c and the C library's `openlog`

`log_syslog` gives the caller's pointer to `openlog` (maa/log.c:172), which keeps it; `syslog` reads the string whenever it is called. -/

namespace Maa.Syslog

open Spec (LogEvent LogOp SysEntry SysCall)

/-- The variables of maa/log.c:40-53 and two of the C library: the identity given to `openlog` (0: none) and the facility. -/
structure State where
  vars : Log.State
  tag : Ptr
  facility : Int

/-- Program start; the C library's facility is `LOG_USER`, 8 (maa/log.c:46). -/
def State.init : State := { vars := Log.State.init, tag := 0, facility := 8 }

/-- The string with which a message is tagged. -/
def tagText (m : Borrowed.Mem) (tag : Ptr) : Res (Option (List Byte)) :=
  if tag = 0 then .ok none else (Borrowed.text m tag).bind fun s => .ok (some s)

/-- The calls of the C library in maa/log.c:172,179,346-352, in order; `p` is the pointer that `openlog` is given. -/
def library (m : Borrowed.Mem) (p : Ptr) (tag : Ptr) (facility : Int) : List LogEvent → Res ((Ptr × Int) × List SysEntry)
  | [] => .ok ((tag, facility), [])
  | .openlog _ f :: es => library m p p f es
  | .closelog :: es => library m p 0 facility es
  | .syslog level text :: es =>
    (tagText m tag).bind fun t => (library m p tag facility es).bind fun r => .ok (r.1, ⟨t, facility, level, text⟩ :: r.2)
  | _ :: es => library m p tag facility es

/-- `log_syslog`, maa/log.c:166-183, with its argument as an address. -/
def logSyslog (m : Borrowed.Mem) (σ : State) (p : Ptr) : Res (State × (List LogEvent × List SysEntry)) :=
  (Log.logSyslog σ.vars (if p = 0 then none else some [])).bind fun r =>
    (library m p σ.tag σ.facility r.2).bind fun q => .ok (State.mk r.1 q.1.1 q.1.2, (r.2.filter LogEvent.elsewhere, q.2))

/-- One call (dispatch only; maa/log.c:138-384). -/
def step (σ : State) (o : Borrowed.Mem × SysCall) : Res (State × (List LogEvent × List SysEntry)) :=
  match o.2 with
  | .syslog p => logSyslog o.1 σ p
  | .log c => (Log.step σ.vars c).bind fun r =>
    (library o.1 0 σ.tag σ.facility r.2).bind fun q => .ok (State.mk r.1 q.1.1 q.1.2, (r.2.filter LogEvent.elsewhere, q.2))

end Maa.Syslog
