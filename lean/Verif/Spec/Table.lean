import Verif.Spec.Map
import Verif.Spec.Run

/-! # What a user sees of a hash table, and of an iteration -/

namespace Maa.Spec

/-- Calls on one hash table. -/
inductive HashOp (K : Type) where
  | insert (key : K) (datum : Nat)
  | delete (key : K)
  | retrieve (key : K)
  | readonly (flag : Int)

/-- Returned values: an `int`, or a pointer (`0` is `NULL`). -/
inductive Ret where
  | int (n : Int)
  | ptr (p : Nat)
  deriving DecidableEq

/-- A finite map with a read-only flag and two call counters. -/
structure MapState (K : Type) where
  map : List (K × Nat) := []
  readonly : Int := 0
  retrievals : Nat := 0
  misses : Nat := 0

/-- The specification of one call: a plain finite map. -/
def hashStep {K : Type} (eq : K → K → Bool) (s : MapState K) : HashOp K → Res (MapState K × Ret)
  | .insert k d =>
    if s.readonly ≠ 0 then .abort
    else .ok ({ s with map := (insert eq s.map k d).1 }, .int (insert eq s.map k d).2)
  | .delete k =>
    if s.readonly ≠ 0 then .abort
    else .ok ({ s with map := (delete eq s.map k).1 }, .int (delete eq s.map k).2)
  | .retrieve k =>
    match find eq s.map k with
    | some d => .ok ({ s with retrievals := s.retrievals + 1 }, .ptr d)
    | none => .ok ({ s with retrievals := s.retrievals + 1, misses := s.misses + 1 }, .ptr 0)
  | .readonly flag => .ok ({ s with readonly := flag }, .int s.readonly)

/-- A callback that, besides doing whatever `f` does, writes down each call and its result. -/
def recorder {σ ι : Type} (f : σ → ι → σ × Int) : σ × List (ι × Int) → ι → (σ × List (ι × Int)) × Int :=
  fun s i => (((f s.1 i).1, s.2 ++ [(i, (f s.1 i).2)]), (f s.1 i).2)

/-- The calls recorded in `log`, together with the value `r` returned by the iterating function, are a
correct iteration over the collection `items`: every item is visited at most once; nothing else is
visited; all calls but possibly the last returned zero; if `r` is zero everything was visited and
every call returned zero; if `r` is non-zero the last call returned non-zero. -/
def IterationOf {ι : Type} (items : List ι) (log : List (ι × Int)) (r : Int) : Prop :=
  (∃ unvisited, (log.map Prod.fst ++ unvisited).Perm items ∧ (r = 0 → unvisited = [])) ∧
  (r = 0 → ∀ c ∈ log, c.2 = 0) ∧
  (r ≠ 0 → ∃ before last, log = before ++ [last] ∧ last.2 ≠ 0 ∧ ∀ c ∈ before, c.2 = 0)

end Maa.Spec
