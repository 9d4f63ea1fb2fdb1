import Verif.Model.Tab
import Verif.Spec.Table

/-! # Model of maa/hash.c (chain level) -/

namespace Maa.Hash

/-- `hsh_HashTable`, maa/hash.c:44-57. -/
abbrev Table (K : Type) := Tab.Tab K Ptr

variable {K : Type}

/-- `hsh_create`, maa/hash.c:127-133. -/
def hshCreate : Res (Table K) := Tab.create 0

/-- `hsh_insert`, maa/hash.c:216-262. -/
def hshInsert (ops : KeyOps K) (t : Table K) (key : K) (datum : Ptr) : Res (Table K × Int) :=
  Tab.insert ops t key datum

/-- `hsh_delete`, maa/hash.c:268-294. -/
def hshDelete (ops : KeyOps K) (t : Table K) (key : K) : Res (Table K × Int) :=
  Tab.delete ops t key

/-- `hsh_retrieve`, maa/hash.c:300-329: the datum, or `NULL` (0). -/
def hshRetrieve (ops : KeyOps K) (t : Table K) (key : K) : Res (Table K × Ptr) := do
  let r ← Tab.retrieve ops t key
  pure (r.1, match r.2 with | some d => d | none => 0)

/-- `hsh_iterate` / `hsh_iterate_arg`, maa/hash.c:338-359,368-391. -/
def hshIterate {σ : Type} (t : Table K) (f : σ → K → Ptr → σ × Int) (s : σ) : σ × Int :=
  Tab.iterLoop (fun s e => f s e.key e.datum) s (Tab.all t)

/-- `hsh_get_stats`, maa/hash.c:416-453. -/
def hshGetStats (t : Table K) : Res Tab.Stats := Tab.getStats t

/-- `hsh_readonly`, maa/hash.c:617-627. -/
def hshReadonly (t : Table K) (flag : Int) : Table K × Int := Tab.setReadonly t flag

/-- `hsh_destroy`, maa/hash.c:174-181. -/
def hshDestroy (t : Table K) : Res Unit := Tab.destroy t

/-- One call on the model of hash.c (dispatch only; maa/hash.c:216-329,617-627). -/
def hshStep (ops : KeyOps K) (t : Table K) : Spec.HashOp K → Res (Table K × Spec.Ret)
  | .insert k d => (hshInsert ops t k d).bind fun r => .ok (r.1, .int r.2)
  | .delete k => (hshDelete ops t k).bind fun r => .ok (r.1, .int r.2)
  | .retrieve k => (hshRetrieve ops t k).bind fun r => .ok (r.1, .ptr r.2)
  | .readonly f => .ok ((hshReadonly t f).1, .int (hshReadonly t f).2)

/-- A table some history of calls on a fresh table leads to, with the map that history denotes
(names used in the statements of Props/Hash.lean; no code of its own). -/
def Reaches (ops : KeyOps K) (hist : List (Spec.HashOp K)) (t : Table K) (s : Spec.MapState K) : Prop :=
  ∃ t0 outs, hshCreate (K := K) = .ok t0 ∧ Spec.run (hshStep ops) t0 hist = .ok (t, outs) ∧
    Spec.run (Spec.hashStep (eqv ops)) {} hist = .ok (s, outs)

end Maa.Hash
