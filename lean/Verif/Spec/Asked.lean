import Verif.Spec.OneSet
import Verif.Spec.Table
import Verif.Spec.TabLoose

/-! # What the functions of a table are asked

`hsh_HashTable` and `set_Set` call two functions of the program: one that hashes a key and one that compares two keys.  This says which calls of
them one call of the library may make. -/

namespace Maa.Spec

/-- A call the library makes to a function of the program. -/
inductive Asked (K : Type) where
  /-- `hash(k)` -/
  | hash (k : K)
  /-- `compare(a, b)` -/
  | compare (a b : K)
deriving DecidableEq, Repr

/-- A search for `key` among the keys `keys`, in a table of `size` slots: `key` is hashed once, before anything else; then keys of the table which fall into
the same slot are compared with it, each at most once; the search ends with the first that is equal, and goes through all of them if none is. -/
def SearchAsks {K : Type} (hash : K → Nat) (cmp : K → K → Int) (size : Nat) (keys : List K) (key : K) (asked : List (Asked K)) : Prop :=
  ∃ seen rest, asked = .hash key :: seen.map (Asked.compare · key) ∧
    (seen ++ rest).Perm (keys.filter fun k => hash k % size = hash key % size) ∧
    (∀ k ∈ seen.dropLast, cmp k key ≠ 0) ∧
    ((∃ k, seen.getLast? = some k ∧ cmp k key = 0) ∨ rest = [] ∧ ∀ k ∈ seen, cmp k key ≠ 0)

/-- The same when the functions may answer anything, and something else at every call: the keys in the slot are those whose hash value, when they were
inserted, belongs there. -/
def LooseSearchAsks {K D : Type} (hash : K → Nat) (cmp : K → K → Int) (size : Nat) (pairs : List (Stored K D)) (key : K) (asked : List (Asked K)) : Prop :=
  ∃ seen rest : List (Stored K D), asked = .hash key :: seen.map (fun e => Asked.compare e.key key) ∧
    (seen ++ rest).Perm (pairs.filter fun e => e.hash % size = hash key % size) ∧
    (∀ e ∈ seen.dropLast, cmp e.key key ≠ 0) ∧
    ((∃ e, seen.getLast? = some e ∧ cmp e.key key = 0) ∨ rest = [] ∧ ∀ e ∈ seen, cmp e.key key ≠ 0)

/-- What one call on a hash table may ask, given the keys that are in it before the call. -/
def HashOp.asks {K : Type} (hash : K → Nat) (cmp : K → K → Int) (size : Nat) (keys : List K) (asked : List (Asked K)) : HashOp K → Prop
  | .insert k _ => SearchAsks hash cmp size keys k asked
  | .delete k => SearchAsks hash cmp size keys k asked
  | .retrieve k => SearchAsks hash cmp size keys k asked
  | .readonly _ => asked = []

/-- What one call may ask when the functions may answer anything. -/
def HashOp.looseAsks {K D : Type} (hash : K → Nat) (cmp : K → K → Int) (size : Nat) (pairs : List (Stored K D)) (asked : List (Asked K)) : HashOp K → Prop
  | .insert k _ => LooseSearchAsks hash cmp size pairs k asked
  | .delete k => LooseSearchAsks hash cmp size pairs k asked
  | .retrieve k => LooseSearchAsks hash cmp size pairs k asked
  | .readonly _ => asked = []

/-- The same for a set. -/
def OneSetOp.looseAsks {K D : Type} (hash : K → Nat) (cmp : K → K → Int) (size : Nat) (pairs : List (Stored K D)) (asked : List (Asked K)) : OneSetOp K → Prop
  | .insert k => LooseSearchAsks hash cmp size pairs k asked
  | .delete k => LooseSearchAsks hash cmp size pairs k asked
  | .member k => LooseSearchAsks hash cmp size pairs k asked
  | .readonly _ => asked = []

/-- What one call on a set may ask, given its elements before the call. -/
def OneSetOp.asks {K : Type} (hash : K → Nat) (cmp : K → K → Int) (size : Nat) (keys : List K) (asked : List (Asked K)) : OneSetOp K → Prop
  | .insert k => SearchAsks hash cmp size keys k asked
  | .delete k => SearchAsks hash cmp size keys k asked
  | .member k => SearchAsks hash cmp size keys k asked
  | .readonly _ => asked = []

end Maa.Spec
