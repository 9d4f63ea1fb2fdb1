import Verif.Spec.Table
import Verif.Spec.OneSet

/-! # What a history has added -/

namespace Maa.Spec

/-- The insertions of a history on a table that added a key: those that returned 0. -/
def added {K : Type} (hist : List (HashOp K)) (outs : List Ret) : Nat :=
  (hist.zip outs).countP fun c => match c with
    | (.insert _ _, .int 0) => true
    | _ => false

/-- The insertions of a history on a set that added an element. -/
def addedToSet {K : Type} (hist : List (OneSetOp K)) (outs : List Int) : Nat :=
  (hist.zip outs).countP fun c => match c with
    | (.insert _, 0) => true
    | _ => false

end Maa.Spec
