import Verif.Spec.Log
import Verif.Spec.Borrowed

/-! # What arrives in the system's log

`openlog`, `syslog` and `closelog` of the C library, as far as log.c uses them: a message is tagged with the identity and the facility of the last
`openlog`; without one, with the program's own name. -/

namespace Maa.Spec

/-- A message as it arrives; no tag: the program's own name. -/
structure SysEntry where
  tag : Option (List Byte)
  facility : Int
  level : Int
  text : List Byte
  deriving DecidableEq

/-- The messages among the events, for an identity and facility at the start; gives those at the end. -/
def deliver (c : Option (List Byte) × Int) : List LogEvent → (Option (List Byte) × Int) × List SysEntry
  | [] => (c, [])
  | .openlog ident facility :: es => deliver (some ident, facility) es
  | .closelog :: es => deliver (none, c.2) es
  | .syslog level text :: es => ((deliver c es).1, ⟨c.1, c.2, level, text⟩ :: (deliver c es).2)
  | _ :: es => deliver c es

/-- Does the event concern another sink than the system's log? -/
def LogEvent.elsewhere : LogEvent → Bool
  | .openlog _ _ | .closelog | .syslog _ _ => false
  | _ => true

/-- One call on log.c: what it does elsewhere, and what arrives in the system's log. -/
def sysStep (facilities : List (List Byte × Int)) (S : Sinks × (Option (List Byte) × Int)) (o : LogOp) :
    Res ((Sinks × (Option (List Byte) × Int)) × (List LogEvent × List SysEntry)) :=
  (logStep facilities S.1 o).bind fun r =>
    .ok ((r.1, (deliver S.2 r.2).1), (r.2.filter LogEvent.elsewhere, (deliver S.2 r.2).2))

/-- A call on log.c with the argument of `log_syslog` given by address (`log`: any other call). -/
inductive SysCall where
  | syslog (ident : Nat)
  | log (o : LogOp)

/-- The call by contents. -/
def SysCall.spelled (m : Memory) : SysCall → Option LogOp
  | .syslog p => (nameAt m p).map .syslog
  | .log (.syslog _) => none
  | .log o => some o

/-- What a call does to the loan: the identity is lent from `log_syslog` to `log_syslog(NULL)` or `log_close`. -/
def sysLoans (B : Loans) (m : Memory) : SysCall → Loans
  | .syslog p => match stringAt m p with
    | none => []
    | some s => (p, s) :: B
  | .log .close => []
  | .log _ => B

end Maa.Spec
