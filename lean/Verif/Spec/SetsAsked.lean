import Verif.Spec.Asked
import Verif.Spec.Sets

/-! # What the functions of several sets are asked

Which calls of the hash and comparison functions one call of set.c may make, for programs with any number of sets.  Every search is one of
Spec/Asked.lean; the number of slots the searched set has at that moment is left open. -/

namespace Maa.Spec

variable {K : Type}

/-- What a comparison function calls equal. -/
def same (cmp : K → K → Int) (a b : K) : Bool := cmp a b == 0

/-- A search in a set with some number of slots. -/
def LooksFor (hash : K → Nat) (cmp : K → K → Int) (keys : List K) (key : K) (asked : List (Asked K)) : Prop :=
  ∃ size, 0 < size ∧ SearchAsks hash cmp size keys key asked

/-- Adding elements one after the other to a set with the elements `keys`: one search for each. -/
def AddAsks (hash : K → Nat) (cmp : K → K → Int) : List K → List K → List (Asked K) → Prop
  | _, [], asked => asked = []
  | keys, e :: es, asked => ∃ a rest, asked = a ++ rest ∧ LooksFor hash cmp keys e a ∧ AddAsks hash cmp (sinsert (same cmp) keys e) es rest

/-- Removing elements one after the other from a set with the elements `keys`: one search for each. -/
def RemoveAsks (hash : K → Nat) (cmp : K → K → Int) : List K → List K → List (Asked K) → Prop
  | _, [], asked => asked = []
  | keys, e :: es, asked => ∃ a rest, asked = a ++ rest ∧ LooksFor hash cmp keys e a ∧ RemoveAsks hash cmp (sdelete (same cmp) keys e) es rest

/-- Looking elements up among `keys`, and adding those that are there (`keep`), or those that are not, to `new`: one search for each, and one more in the
new set for each that is added. -/
def SelectAsks (hash : K → Nat) (cmp : K → K → Int) (keep : Bool) (keys : List K) : List K → List K → List (Asked K) → Prop
  | _, [], asked => asked = []
  | new, e :: es, asked => ∃ a rest, asked = a ++ rest ∧ LooksFor hash cmp keys e a ∧
      if mem (same cmp) keys e = keep then
        ∃ b rest', rest = b ++ rest' ∧ LooksFor hash cmp new e b ∧ SelectAsks hash cmp keep keys (sinsert (same cmp) new e) es rest'
      else SelectAsks hash cmp keep keys new es rest

/-- Looking elements up among `keys`, up to the first that is not there. -/
def AllThereAsks (hash : K → Nat) (cmp : K → K → Int) (keys : List K) : List K → List (Asked K) → Prop
  | [], asked => asked = []
  | e :: es, asked => ∃ a rest, asked = a ++ rest ∧ LooksFor hash cmp keys e a ∧
      if mem (same cmp) keys e then AllThereAsks hash cmp keys es rest else rest = []

/-- What one call may ask, given the sets before the call; `hash f` and `cmp f` are the functions.  The elements of a set are met in any order. -/
def SetOp.asks (hash : Nat → K → Nat) (cmp : Nat → K → K → Int) (S : AStore K) (asked : List (Asked K)) : SetOp K → Prop
  | .insert i e | .delete i e | .member i e => ∃ a, S.objs i = some a ∧ LooksFor (hash a.hashFn) (cmp a.cmpFn) a.elems e asked
  | .add i j => ∃ a b order, S.objs i = some a ∧ S.objs j = some b ∧ order.Perm b.elems ∧
      AddAsks (hash a.hashFn) (cmp a.cmpFn) a.elems order asked
  | .del i j => ∃ a b order, S.objs i = some a ∧ S.objs j = some b ∧ order.Perm b.elems ∧
      RemoveAsks (hash a.hashFn) (cmp a.cmpFn) a.elems order asked
  | .union i j => ∃ a b order1 order2, S.objs i = some a ∧ S.objs j = some b ∧ order1.Perm a.elems ∧ order2.Perm b.elems ∧
      AddAsks (hash a.hashFn) (cmp a.cmpFn) [] (order1 ++ order2) asked
  | .inter i j => ∃ a b order, S.objs i = some a ∧ S.objs j = some b ∧ order.Perm a.elems ∧
      SelectAsks (hash a.hashFn) (cmp a.cmpFn) true b.elems [] order asked
  | .diff i j => ∃ a b order, S.objs i = some a ∧ S.objs j = some b ∧ order.Perm a.elems ∧
      SelectAsks (hash a.hashFn) (cmp a.cmpFn) false b.elems [] order asked
  | .equal i j => ∃ a b order, S.objs i = some a ∧ S.objs j = some b ∧ order.Perm a.elems ∧
      if a.elems.length = b.elems.length then AllThereAsks (hash a.hashFn) (cmp a.cmpFn) b.elems order asked else asked = []
  | .create _ _ | .readonly _ _ | .destroy _ | .count _ | .stats _ => asked = []

/-- How often the hash function was called. -/
def hashCalls : List (Asked K) → Nat
  | [] => 0
  | .hash _ :: rest => hashCalls rest + 1
  | .compare _ _ :: rest => hashCalls rest

end Maa.Spec
