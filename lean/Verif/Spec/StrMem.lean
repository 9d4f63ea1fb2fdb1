import Verif.Spec.Run
import Verif.Model.CStr

/-! # Users of a string memory -/

namespace Maa.Spec

/-- Calls on one string memory.  A `List Byte` argument holds the bytes readable from the pointer passed. -/
inductive StrOp where
  | strcpy (s : List Byte)
  | strncpy (s : List Byte) (len : Nat)
  | grow (s : List Byte) (len : Nat)
  | finish

/-- What the users of a string memory know: the strings handed out so far (pointer and bytes stored there,
newest first), the pieces grown since, and the number of bytes grown but never finished. -/
structure StrView where
  strings : List (Nat × List Byte) := []
  pending : List Byte := []
  abandoned : Nat := 0

/-- The bytes before the first NUL, if there is a NUL. -/
def upToNul (s : List Byte) : Option (List Byte) := if 0 ∈ s then some (s.takeWhile (· ≠ 0)) else none

/-- A call and the pointer it returned (0 for `grow`), seen by the users; `none` when a caller passes an
argument the call may not be given: an unterminated string, a length beyond what is readable. -/
def StrView.see (v : StrView) : StrOp → Nat → Option StrView
  | .strcpy s, r => (upToNul s).map fun t =>
      StrView.mk ((r, t ++ [0]) :: v.strings) [] (v.abandoned + v.pending.length)
  | .strncpy s len, r => if len + 1 ≤ s.length then
      some (StrView.mk ((r, s.take (len + 1)) :: v.strings) [] (v.abandoned + v.pending.length)) else none
  | .grow s len, _ => if len ≤ s.length then some { v with pending := v.pending ++ s.take len } else none
  | .finish, r => some { v with strings := (r, v.pending ++ [0]) :: v.strings, pending := [] }

/-- The users' view after a history of calls with the given results. -/
def StrView.after : StrView → List StrOp → List Nat → Option StrView
  | v, [], [] => some v
  | v, o :: os, r :: rs => (v.see o r).bind fun v' => v'.after os rs
  | _, _, _ => none

end Maa.Spec
