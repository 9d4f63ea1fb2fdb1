import Verif.Spec.Table
import Verif.Spec.OneSet

/-! # Callbacks that call the library

A callback given to an iterating function may itself call the library before it returns.  `Calls O R σ`
is what one invocation of it does: return (new callback state, `int` result), or make a call `o` and
go on depending on the value it returned. -/

namespace Maa.Spec

/-- What a callback does when invoked: any finite interaction with the library. -/
inductive Calls (O R σ : Type) where
  | ret (st : σ) (r : Int)
  | call (o : O) (k : R → Calls O R σ)

/-- Perform the interaction, `step` being the library. -/
def Calls.run {S O R σ : Type} (step : S → O → Res (S × R)) : Calls O R σ → S → Res (S × σ × Int)
  | .ret st r, s => .ok (s, st, r)
  | .call o k, s => (step s o).bind fun q => (k q.2).run step q.1

/-- Visit the listed items in order; while item `i` is visited the callback may make the calls `step`
allows, where `step rest` knows which items are still to be visited.  Stop at the first non-zero
result; the value returned is 1 then and 0 if the list was exhausted. -/
def visit {S O R ι σ : Type} (step : List ι → S → O → Res (S × R)) (f : σ → ι → Calls O R σ) :
    List ι → S → σ → Res (S × σ × Int)
  | [], s, st => .ok (s, st, 0)
  | i :: rest, s, st =>
    ((f st i).run (step rest) s).bind fun q =>
      if q.2.2 ≠ 0 then .ok (q.1, q.2.1, 1) else visit step f rest q.1 q.2.1

/-- The calls a callback of `hsh_iterate` may make safely: look up or delete any key that is not one of
the keys still to be visited (in particular the key being visited), and switch the read-only flag.
They act on the finite map.  Anything else has no defined outcome (`ub`). -/
def hashCallStep {K : Type} (eq : K → K → Bool) (rest : List (K × Nat)) (s : MapState K) (o : HashOp K) :
    Res (MapState K × Ret) :=
  match o with
  | .insert _ _ => .ub
  | .delete k => if rest.any (fun p => eq p.1 k) then .ub else hashStep eq s (.delete k)
  | .retrieve k => if rest.any (fun p => eq p.1 k) then .ub else hashStep eq s (.retrieve k)
  | .readonly f => hashStep eq s (.readonly f)

/-- The calls a callback of `set_iterate` may make: membership tests are answered; insertions and
deletions abort the program, because the set is read-only meanwhile.  Switching the flag has no
defined outcome. -/
def setCallStep {K : Type} (eq : K → K → Bool) (_rest : List (K × Unit)) (s : OneSet K) (o : OneSetOp K) :
    Res (OneSet K × Int) :=
  match o with
  | .insert _ => .abort
  | .delete _ => .abort
  | .member k => oneSetStep eq s (.member k)
  | .readonly _ => .ub

end Maa.Spec
