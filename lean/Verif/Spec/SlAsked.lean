import Verif.Spec.Sl

/-! # What the functions of a skip list are asked

`sl_create` is given a function that compares two keys and one that gives the key of a datum.  This says which calls of them one call of the library may
make. -/

namespace Maa.Spec

/-- A call the library makes to a function of the program. -/
inductive SlAsked where
  /-- `key(datum)` -/
  | key (datum : Nat)
  /-- `compare(a, b)` -/
  | compare (a b : Nat)
deriving DecidableEq, Repr

/-- A search for the key `k` among the data of a collection.  For each datum it looks at, it asks for the key of the datum and then compares that key with
`k`.  Data before `k` are looked at in ascending order, so each at most once, and not all of them need be; at most 18 times
it looks at a datum that is not before `k`, and if it looks at any, the last one is the first of those. -/
def Coll.SearchAsks (c : Coll) (k : Nat) (asked : List SlAsked) : Prop :=
  ∃ looked : List Nat, asked = looked.flatMap (fun d => [SlAsked.key d, .compare (c.key d) k]) ∧
    (∀ d ∈ looked, d ∈ c.data) ∧
    (looked.filter fun d => c.cmp (c.key d) k < 0).Pairwise (fun a b => c.cmp (c.key a) (c.key b) < 0) ∧
    (looked.filter fun d => ¬ c.cmp (c.key d) k < 0).length ≤ 18 ∧
    ((∀ d ∈ c.data, c.cmp (c.key d) k < 0) ∨
      ∃ e, looked.getLast? = some e ∧ e ∈ c.data ∧ 0 ≤ c.cmp (c.key e) k ∧ ∀ d ∈ c.data, 0 ≤ c.cmp (c.key d) k → c.cmp (c.key e) (c.key d) ≤ 0)

/-- What one call may ask. -/
def Colls.Asks (S : Colls) (asked : List SlAsked) : SlOp → Prop
  | .create _ _ => asked = []
  | .destroy _ => asked = []
  | .insert l d _ => ∃ c as, S.colls l = some c ∧ asked = .key d :: as ∧ c.SearchAsks (c.key d) as
  | .delete l d => ∃ c as, S.colls l = some c ∧ asked = .key d :: as ∧ c.SearchAsks (c.key d) as
  | .find l k => ∃ c, S.colls l = some c ∧ c.SearchAsks k asked

end Maa.Spec
