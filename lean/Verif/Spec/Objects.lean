import Verif.Spec.Run

/-! # Users of an object pool -/

namespace Maa.Spec

/-- Calls on one object pool. -/
inductive ObjOp where
  | get
  | getEmpty
  | free (obj : Nat)

/-- What the users of the pool know: the objects they hold, how often they asked for one, and the largest
number held at one time. -/
structure Client where
  held : List Nat := []
  gets : Nat := 0
  frees : Nat := 0
  peak : Nat := 0

/-- A call and the value it returned, seen by the users; `none` when somebody frees an object nobody
holds. -/
def Client.see (c : Client) : ObjOp → Nat → Option Client
  | .free p, _ =>
    if p ∈ c.held then some { c with held := c.held.erase p, frees := c.frees + 1 } else none
  | _, r => some { c with held := r :: c.held, gets := c.gets + 1, peak := max c.peak (c.held.length + 1) }

/-- The users' view after a history of calls with the given results. -/
def Client.after : Client → List ObjOp → List Nat → Option Client
  | c, [], [] => some c
  | c, o :: os, r :: rs => (c.see o r).bind fun c' => c'.after os rs
  | _, _, _ => none

end Maa.Spec
