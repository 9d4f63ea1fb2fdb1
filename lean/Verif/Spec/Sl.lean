import Verif.Spec.Run

/-! # Ordered collections

A program has any number of collections, named by handles (handle 0 is the NULL list).  A collection has a
comparison of keys, a function giving the key of a datum, and holds data no two of which have equal keys. -/

namespace Maa.Spec

/-- A comparison function in the manner of `qsort`: a total preorder, negative for "before", zero for "equal". -/
structure TotalOrder (cmp : Nat → Nat → Int) : Prop where
  antisymm : ∀ a b, cmp a b < 0 ↔ 0 < cmp b a
  trans : ∀ a b c, cmp a b ≤ 0 → cmp b c ≤ 0 → cmp a c ≤ 0

/-- Calls on the collections of a program; `none` is a NULL function pointer, `rnd` what `random()` returns, the first
time it is called during the insertion, the second time, and so on. -/
inductive SlOp where
  | create (cmp : Option (Nat → Nat → Int)) (key : Option (Nat → Nat))
  | destroy (l : Nat)
  | insert (l datum : Nat) (rnd : Nat → Nat)
  | delete (l datum : Nat)
  | find (l key : Nat)

/-- One collection. -/
structure Coll where
  cmp : Nat → Nat → Int
  key : Nat → Nat
  data : List Nat

/-- The collections of the program. -/
structure Colls where
  colls : Nat → Option Coll
  next : Nat

/-- Program start. -/
def Colls.empty : Colls := { colls := fun _ => none, next := 1 }

/-- Datum in the collection whose key compares equal to `k`. -/
def Coll.lookup (c : Coll) (k : Nat) : Option Nat := c.data.find? fun d => c.cmp (c.key d) k = 0

/-- Replace a collection. -/
def Colls.set (S : Colls) (l : Nat) (c : Option Coll) : Colls := { S with colls := fun j => if j = l then c else S.colls j }

/-- A call on collection `l`: NULL aborts, a collection that does not exist may not be used. -/
def Colls.on (S : Colls) (l : Nat) (k : Coll → Res (Colls × Nat)) : Res (Colls × Nat) :=
  if l = 0 then .abort
  else match S.colls l with
    | none => .ub
    | some c => k c

/-- What each call does and returns (`void` functions return 0 here). -/
def Colls.step (S : Colls) : SlOp → Res (Colls × Nat)
  | .create (some cmp) (some key) =>
    .ok ({ colls := fun j => if j = S.next then some { cmp := cmp, key := key, data := [] } else S.colls j, next := S.next + 1 }, S.next)
  | .create _ _ => .abort
  | .destroy l => S.on l fun _ => .ok (S.set l none, 0)
  | .insert l d _ => S.on l fun c =>
    match c.lookup (c.key d) with
    | some _ => .abort
    | none => .ok (S.set l (some { c with data := d :: c.data }), 0)
  | .delete l d => S.on l fun c =>
    match c.lookup (c.key d) with
    | none => .abort
    | some e => .ok (S.set l (some { c with data := c.data.filter (· ≠ e) }), 0)
  | .find l k => S.on l fun c => .ok (S, (c.lookup k).getD 0)

/-- A callback: from a state of the user's own and the datum it is given, the calls it makes, its new state and the
integer it returns. -/
abbrev SlCallback (X : Type) := X → Nat → List SlOp × X × Int

/-- Calling the callback on the data of a fixed sequence, until it returns non-zero: the new collections, the user's
state, the value returned and the data the callback was called with. -/
def Colls.visit {X : Type} (f : SlCallback X) : Colls → X → List Nat → Res (Colls × X × Int × List Nat)
  | S, x, [] => .ok (S, x, 0, [])
  | S, x, d :: ds =>
    (run Colls.step S (f x d).1).bind fun r =>
      if (f x d).2.2 ≠ 0 then .ok (r.1, (f x d).2.1, (f x d).2.2, [d])
      else (Colls.visit f r.1 (f x d).2.1 ds).bind fun q => .ok (q.1, q.2.1, q.2.2.1, d :: q.2.2.2)

/-- The functions passed to `sl_create` in a history. -/
def SlOp.Ok : SlOp → Prop
  | .create (some cmp) (some _) => TotalOrder cmp
  | _ => True

end Maa.Spec
