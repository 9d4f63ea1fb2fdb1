import Verif.Spec.Log

/-! # What the error functions print and how they end -/

namespace Maa.Spec

/-- How a call ends. -/
inductive Ending where
  | returns
  | exits (status : Int)
  | aborts
  deriving DecidableEq

/-- `q` is the last component of the path `p`: what follows its last '/', or all of it. -/
def IsBasename (p q : List Byte) : Prop := (47 : Byte) ∉ q ∧ (p = q ∨ ∃ dir, p = dir ++ 47 :: q)

/-- Who reports: "program (routine): ", without the parts that are not known. -/
def who (prog routine : Option (List Byte)) : List Byte :=
  match prog, routine with
  | some p, some r => p ++ [32, 40] ++ r ++ [41, 58, 32]
  | some p, none => p ++ [58, 32]
  | none, some r => r ++ [58, 32]
  | none, none => []

/-- The bytes printed to the standard error stream, provided nothing else happens. -/
def onlyStderr : List LogEvent → Option (List Byte)
  | [] => some []
  | .printed s b :: rest => if s = stderr then (onlyStderr rest).map (b ++ ·) else none
  | _ :: _ => none

/-- "Internal error" and a new, indented line. -/
def internalError : List Byte := [73, 110, 116, 101, 114, 110, 97, 108, 32, 101, 114, 114, 111, 114, 10, 32, 32, 32, 32, 32]

/-- "Aborting" -/
def aborting : List Byte := [65, 98, 111, 114, 116, 105, 110, 103]

end Maa.Spec
