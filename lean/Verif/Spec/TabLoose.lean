import Verif.Model.Tab
import Verif.Spec.Table
import Verif.Spec.OneSet
import Verif.Spec.SlLoose

/-! # What hash tables and sets may do with any hash and comparison functions

The functions need not be consistent with themselves or with each other, and they may answer differently from one call to the next: that is also
what happens when the caller changes the contents of a key that is in a table.  So every call comes with the functions as they answer during
that call (`KeyOps`).  Which pair a search finds then depends on the inside of the table; what is left is a choice between the outcomes below. -/

namespace Maa.Spec

variable {K D : Type}

/-- A pair of a table, together with the hash value its key had when it was inserted. -/
structure Stored (K D : Type) where
  key : K
  hash : Nat
  datum : D

/-- The pairs of a table (in no particular order), the read-only flag and two call counters. -/
structure LooseTab (K D : Type) where
  pairs : List (Stored K D) := []
  readonly : Int := 0
  retrievals : Nat := 0
  misses : Nat := 0

/-- The stored pair compares equal to the key. -/
def Matches (ops : KeyOps K) (k : K) (e : Stored K D) : Prop := ops.cmp e.key k = 0

/-- A search for the key cannot miss: a pair that compares equal was inserted with the hash value the key has. -/
def Sure (ops : KeyOps K) (L : List (Stored K D)) (k : K) : Prop := ∃ e ∈ L, e.hash = ops.hash k ∧ Matches ops k e

/-- Insertion: the pair is added, or refused because some pair compares equal. -/
def mayInsert (ops : KeyOps K) (L : List (Stored K D)) (k : K) (d : D) (L' : List (Stored K D)) (x : Int) : Prop :=
  (x = 0 ∧ L' = ⟨k, ops.hash k, d⟩ :: L ∧ ¬ Sure ops L k) ∨ (x = 1 ∧ L' = L ∧ ∃ e ∈ L, Matches ops k e)

/-- Deletion: one pair that compares equal is removed, or nothing happens. -/
def mayDelete (ops : KeyOps K) (L : List (Stored K D)) (k : K) (L' : List (Stored K D)) (x : Int) : Prop :=
  (x = 0 ∧ ∃ l1 e l2, L = l1 ++ e :: l2 ∧ L' = l1 ++ l2 ∧ Matches ops k e) ∨ (x = 1 ∧ L' = L ∧ ¬ Sure ops L k)

/-- Search: the datum of a pair that compares equal, or nothing. -/
def mayFind (ops : KeyOps K) (L : List (Stored K D)) (k : K) (x : Option D) : Prop :=
  (∃ e ∈ L, Matches ops k e ∧ x = some e.datum) ∨ (x = none ∧ ¬ Sure ops L k)

/-- The outcomes a call on a hash table may have. -/
def hashMay (m : LooseTab K Nat) (o : KeyOps K × HashOp K) (r : Res (LooseTab K Nat × Ret)) : Prop :=
  match o.2 with
  | .insert k d => if m.readonly ≠ 0 then r = .abort else
      ∃ L x, mayInsert o.1 m.pairs k d L x ∧ r = .ok ({ m with pairs := L }, .int x)
  | .delete k => if m.readonly ≠ 0 then r = .abort else
      ∃ L x, mayDelete o.1 m.pairs k L x ∧ r = .ok ({ m with pairs := L }, .int x)
  | .retrieve k => ∃ x, mayFind o.1 m.pairs k x ∧ r = match x with
      | some d => .ok ({ m with retrievals := m.retrievals + 1 }, .ptr d)
      | none => .ok ({ m with retrievals := m.retrievals + 1, misses := m.misses + 1 }, .ptr 0)
  | .readonly f => r = .ok ({ m with readonly := f }, .int m.readonly)

/-- The outcomes a call on a set may have. -/
def setMay (m : LooseTab K Unit) (o : KeyOps K × OneSetOp K) (r : Res (LooseTab K Unit × Int)) : Prop :=
  match o.2 with
  | .insert k => if m.readonly ≠ 0 then r = .abort else
      ∃ L x, mayInsert o.1 m.pairs k () L x ∧ r = .ok ({ m with pairs := L }, x)
  | .delete k => if m.readonly ≠ 0 then r = .abort else
      ∃ L x, mayDelete o.1 m.pairs k L x ∧ r = .ok ({ m with pairs := L }, x)
  | .member k => ∃ x, mayFind o.1 m.pairs k x ∧ r = match x with
      | some _ => .ok ({ m with retrievals := m.retrievals + 1 }, 1)
      | none => .ok ({ m with retrievals := m.retrievals + 1, misses := m.misses + 1 }, 0)
  | .readonly f => r = .ok ({ m with readonly := f }, m.readonly)

/-- The outcomes a history of calls may have. -/
def mayRun {S O X : Type} (may : S → O → Res (S × X) → Prop) : S → List O → Res (S × List X) → Prop
  | s, [], r => r = .ok (s, [])
  | s, o :: os, r => ∃ q, may s o q ∧ Res.Then q (fun a r => ∃ p, mayRun may a.1 os p ∧ r = p.bind fun b => .ok (b.1, a.2 :: b.2)) r

/-- The pairs as the caller knows them. -/
def LooseTab.contents (m : LooseTab K D) : List (K × D) := m.pairs.map fun e => (e.key, e.datum)

end Maa.Spec
