import Verif.Spec.SlProgs

/-! # What ordered collections may do with any comparison function

If the comparison function is not an order, which datum a search finds depends on the inside of the list.  What is left is a choice: a call
may have any of the outcomes below. -/

namespace Maa.Spec

variable {σ : Type}

/-- Go on after an outcome: with its value if there is one, otherwise the outcome is final. -/
def Res.Then {α β : Type} : Res α → (α → Res β → Prop) → Res β → Prop
  | .ok a, k, r => k a r
  | .abort, _, r => r = .abort
  | .fatal, _, r => r = .fatal
  | .ub, _, r => r = .ub

/-- A call on collection `l`, as `Colls.on`. -/
def Colls.mayOn (S : Colls) (l : Nat) (k : Coll → Prop) (r : Res (Colls × Nat)) : Prop :=
  if l = 0 then r = .abort
  else match S.colls l with
    | none => r = .ub
    | some c => k c

/-- The outcomes a call may have.  An insertion adds the datum, or ends the program, which it does only if a datum of the collection compares
equal; a deletion removes one datum that compares equal, or ends the program; a search gives a datum that compares equal, or NULL. -/
def Colls.may (S : Colls) (o : SlOp) (r : Res (Colls × Nat)) : Prop :=
  match o with
  | .create _ _ => r = S.step o
  | .destroy _ => r = S.step o
  | .insert l d _ => S.mayOn l (fun c =>
      r = .ok (S.set l (some { c with data := d :: c.data }), 0) ∨ r = .abort ∧ ∃ e ∈ c.data, c.cmp (c.key e) (c.key d) = 0) r
  | .delete l d => S.mayOn l (fun c =>
      (∃ e ∈ c.data, c.cmp (c.key e) (c.key d) = 0 ∧ r = .ok (S.set l (some { c with data := c.data.erase e }), 0)) ∨ r = .abort) r
  | .find l k => S.mayOn l (fun c => (∃ e ∈ c.data, c.cmp (c.key e) k = 0 ∧ r = .ok (S, e)) ∨ r = .ok (S, 0)) r

/-- Visit the data of a fixed sequence, as `visitData`. -/
def mayVisit (body : Colls → σ → Nat → Res (Colls × σ × Int) → Prop) : List Nat → Colls → σ → Res (Colls × σ × Int) → Prop
  | [], S, st, r => r = .ok (S, st, 0)
  | d :: ds, S, st, r => ∃ q, body S st d q ∧ Res.Then q (fun a r => if a.2.2 ≠ 0 then r = .ok a else mayVisit body ds a.1 a.2.1 r) r

/-- The outcomes a program may have.  A walk visits the data the collection has at its start, each as often as it is in the collection, in some
sequence. -/
def Colls.mayExec : SlProg σ → Colls → Res (Colls × σ × Int) → Prop
  | .ret st x, S, r => r = .ok (S, st, x)
  | .call o k, S, r => ∃ q, S.may o q ∧ Res.Then q (fun a r => Colls.mayExec (k a.2) a.1 r) r
  | .walk l st f k, S, r =>
    if l = 0 then Colls.mayExec (k st 0) S r
    else match S.colls l with
      | none => r = .ub
      | some c => ∃ vs : List Nat, vs.Perm c.data ∧
        ∃ q, mayVisit (fun S st d r => Colls.mayExec (f st d) S r) vs S st q ∧ Res.Then q (fun a r => Colls.mayExec (k a.2.1 a.2.2) a.1 r) r

end Maa.Spec
