import Verif.Spec.Symbols
import Verif.Model.StrPool
import Verif.Model.Borrowed

/-! # maa/parse-concrete.c with the string pool

`prs_register_concrete` puts two pointers into its table that `str_find` returned (maa/parse-concrete.c:34): here they are pointers into the memory of the
string pool (Model/StrPool.lean), and the table (Model/Borrowed.lean) reads its keys there. -/

namespace Maa.Symbols

open Spec (SymOp SymOut PrsOp)
open StrPool (Global)

/-- The program: the string pool and `_prs_hash`, maa/parse-concrete.c:28.  `freed`: the table has been destroyed and the pointer still points to it. -/
structure World where
  pool : Global
  hash : Option Borrowed.Table
  freed : Bool

/-- Program start, with a string pool in any state. -/
def World.start (g : Global) : World := { pool := g, hash := none, freed := false }

/-- What can be read in the memory of the string pool (written by maa/memory.c:116-135). -/
def poolMem (g : Global) : Borrowed.Mem := fun p => (g.mem.mem p).map fun c => c.1

/-- `str_find(symbol)` and `str_find(concrete)`, maa/parse-concrete.c:34; `left`: the compiler evaluates the first one first (C does not say). -/
def findBoth (left : Bool) (g : Global) (symbol concrete : List Byte) : Res (Global × Ptr × Ptr) :=
  if left then
    (StrPool.strFind g (CStr.ofStr symbol)).bind fun a => (StrPool.strFind a.1 (CStr.ofStr concrete)).bind fun b => .ok (b.1, a.2, b.2)
  else
    (StrPool.strFind g (CStr.ofStr concrete)).bind fun b => (StrPool.strFind b.1 (CStr.ofStr symbol)).bind fun a => .ok (a.1, a.2, b.2)

/-- `if (!_prs_hash) _prs_hash = hsh_create(NULL, NULL);`, maa/parse-concrete.c:32; gives the table. -/
def check (w : World) : Res Borrowed.Table :=
  match w.hash with
  | some t => .ok t
  | none => Borrowed.create

/-- `prs_register_concrete`, maa/parse-concrete.c:30-35. -/
def register (left : Bool) (w : World) (symbol concrete : List Byte) : Res World :=
  if w.freed then .ub else
    (check w).bind fun t =>
    (findBoth left w.pool symbol concrete).bind fun r =>
    (Borrowed.insert (poolMem r.1) t r.2.1 r.2.2).bind fun q => .ok { w with pool := r.1, hash := some q.1 }

/-- `prs_concrete`, maa/parse-concrete.c:37-41: the address returned. -/
def concrete (w : World) (symbol : Option (List Byte)) : Res (World × Ptr) :=
  if w.freed then .ub else
    match w.hash with
    | none => .ok (w, 0)
    | some t =>
      match symbol with
      | none => .abort
      | some s => (Borrowed.retrieveKey (poolMem w.pool) t s).bind fun r => .ok ({ w with hash := some r.1 }, r.2)

/-- `_prs_shutdown`, maa/parse-concrete.c:43-46: the pointer is left as it is. -/
def shutdown (w : World) : Res World :=
  if w.freed then .ub else
    match w.hash with
    | none => .ok w
    | some t => (Borrowed.destroy t).bind fun _ => .ok { w with freed := true }

/-- The string at the address returned, if it is not NULL. -/
def shown (g : Global) (p : Ptr) : Res (Option (List Byte)) :=
  if p = 0 then .ok none else (Borrowed.text (poolMem g) p).bind fun s => .ok (some s)

/-- One call (dispatch only; maa/parse-concrete.c:30-46, maa/string.c:288-391). -/
def step (left : Bool) (w : World) : SymOp → Res (World × SymOut)
  | .str o => (StrPool.gstep w.pool o).bind fun r => .ok ({ w with pool := r.1 }, .str)
  | .prs (.register s c) => (register left w s c).bind fun w => .ok (w, .form none)
  | .prs (.concrete s) => (concrete w s).bind fun r => (shown r.1.pool r.2).bind fun v => .ok (r.1, .form v)
  | .prs .shutdown => (shutdown w).bind fun w => .ok (w, .form none)

end Maa.Symbols
