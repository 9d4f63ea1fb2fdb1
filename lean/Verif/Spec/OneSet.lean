import Verif.Spec.Map
import Verif.Spec.Run

/-! # What a user sees of one set -/

namespace Maa.Spec

/-- Calls on one set. -/
inductive OneSetOp (K : Type) where
  | insert (e : K)
  | delete (e : K)
  | member (e : K)
  | readonly (flag : Int)

/-- Elements (paired with the unit value: a set is a finite map to nothing) and the read-only flag. -/
structure OneSet (K : Type) where
  elems : List (K × Unit) := []
  readonly : Int := 0

/-- The specification of one call on one set. -/
def oneSetStep {K : Type} (eq : K → K → Bool) (s : OneSet K) : OneSetOp K → Res (OneSet K × Int)
  | .insert e =>
    if s.readonly ≠ 0 then .abort
    else .ok ({ s with elems := (insert eq s.elems e ()).1 }, (insert eq s.elems e ()).2)
  | .delete e =>
    if s.readonly ≠ 0 then .abort
    else .ok ({ s with elems := (delete eq s.elems e).1 }, (delete eq s.elems e).2)
  | .member e => .ok (s, if (find eq s.elems e).isSome then 1 else 0)
  | .readonly flag => .ok ({ s with readonly := flag }, s.readonly)

end Maa.Spec
