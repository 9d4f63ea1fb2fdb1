import Verif.Spec.Report
import Verif.Spec.Timer

/-! # The version string -/

namespace Maa.Spec

/-- The value of a C `int`. -/
def IsInt (n : Int) : Prop := -2 ^ 31 ≤ n ∧ n < 2 ^ 31

/-- "Libmaa" and three decimal numbers separated by dots. -/
def versionText (major minor teeny : Int) : List Byte :=
  Report.ascii "Libmaa " ++ decimalInt major ++ Report.ascii "." ++ decimalInt minor ++ Report.ascii "." ++ decimalInt teeny

/-- What `maa_shutdown` writes, part by part: the line with the version, the statistics of the global string pool at an address printed as
`at_`, the lines of the timers (`none`: the part is missing). -/
def goodbye (version : List Byte) (at_ : List Byte) (showVersion : Bool) (strings : Option (Nat × Nat × Nat × Nat × Nat))
    (timers : Option (List (List Byte × Timer))) : List Byte :=
  (if showVersion then version ++ [10] else []) ++
  (match strings with
    | some (count, bytes, retrievals, hits, misses) => Report.pool true at_ count bytes retrievals hits misses
    | none => []) ++
  (match timers with
    | some ls => ls.flatMap fun p => timerLine p.1 p.2
    | none => [])

end Maa.Spec
