import Verif.Spec.Sl

/-! # Programs with ordered collections

A program makes calls on its collections, walks over them (`sl_iterate`), also inside the body of another walk, and decides what to do next
by what it has seen.  Its own variables are a value of type `σ`. -/

namespace Maa.Spec

variable {σ : Type}

/-- A program.  `ret`: end with the variables and a result; `call`: make a call and go on with its result; `walk` (`sl_iterate`): walk over
collection `l`, `f` being the body (it gets the variables and a datum, and leaves the walk with a non-zero result), and go on with the variables and
the result of the walk. -/
inductive SlProg (σ : Type) where
  | ret (st : σ) (r : Int)
  | call (o : SlOp) (k : Nat → SlProg σ)
  | walk (l : Nat) (st : σ) (f : σ → Nat → SlProg σ) (k : σ → Int → SlProg σ)

/-- All calls the program can make satisfy `P`. -/
def SlProg.All (P : SlOp → Prop) : SlProg σ → Prop
  | .ret _ _ => True
  | .call o k => P o ∧ ∀ x, (k x).All P
  | .walk _ _ f k => (∀ st d, (f st d).All P) ∧ ∀ st r, (k st r).All P

/-- Put `d` in its place in a sequence ordered by keys. -/
def Coll.arrange (c : Coll) (d : Nat) : List Nat → List Nat
  | [] => [d]
  | e :: es => if c.cmp (c.key d) (c.key e) ≤ 0 then d :: e :: es else e :: Coll.arrange c d es

/-- The data in the order of their keys. -/
def Coll.ordered (c : Coll) : List Nat := c.data.foldr c.arrange []

/-- Visit the data of a fixed sequence one after the other, until the body gives a non-zero result, which is then the result of the walk. -/
def visitData (body : Colls → σ → Nat → Res (Colls × σ × Int)) : List Nat → Colls → σ → Res (Colls × σ × Int)
  | [], S, st => .ok (S, st, 0)
  | d :: ds, S, st => (body S st d).bind fun q => if q.2.2 ≠ 0 then .ok q else visitData body ds q.1 q.2.1

/-- What the program does.  A walk visits the data the collection has at its start, in the order of their keys, whatever the bodies do to the
collection meanwhile; a walk over the NULL list visits nothing. -/
def Colls.exec : SlProg σ → Colls → Res (Colls × σ × Int)
  | .ret st r, S => .ok (S, st, r)
  | .call o k, S => (S.step o).bind fun q => Colls.exec (k q.2) q.1
  | .walk l st f k, S =>
    if l = 0 then Colls.exec (k st 0) S
    else match S.colls l with
      | none => .ub
      | some c => (visitData (fun S st d => Colls.exec (f st d) S) c.ordered S st).bind fun q => Colls.exec (k q.2.1 q.2.2) q.1

end Maa.Spec
