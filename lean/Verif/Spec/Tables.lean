import Verif.Spec.Calls

/-! # Several hash tables

Every table is a finite map of its own; tables are named by the handle their creation returned. -/

namespace Maa.Spec

variable {K σ : Type}

/-- Calls of a program with several hash tables: create one (with hash function `h` and compare function `c`), make a call on one, destroy one. -/
inductive TabOp (K : Type) where
  | create (h c : Nat)
  | call (i : Nat) (o : HashOp K)
  | destroy (i : Nat)

/-- One table: its map and the compare function it was created with. -/
structure TabState (K : Type) where
  st : MapState K := {}
  cmpFn : Nat

/-- All tables of the program. -/
structure Tables (K : Type) where
  objs : Nat → Option (TabState K)
  next : Nat

/-- No tables. -/
def Tables.empty : Tables K := { objs := fun _ => none, next := 0 }

/-- Replace one table. -/
def Tables.put (α : Tables K) (i : Nat) (t : Option (TabState K)) : Tables K :=
  { α with objs := fun j => if j = i then t else α.objs j }

/-- Using a table that does not exist is undefined. -/
def Tables.get (α : Tables K) (i : Nat) : Res (TabState K) :=
  match α.objs i with
  | some t => .ok t
  | none => .ub

/-- What each call does.  `eq c` is the equality that compare function `c` stands for. -/
def tabStep (eq : Nat → K → K → Bool) (α : Tables K) : TabOp K → Res (Tables K × Ret)
  | .create _ c => .ok ({ objs := fun j => if j = α.next then some { cmpFn := c } else α.objs j, next := α.next + 1 }, .int α.next)
  | .call i o => (α.get i).bind fun t => (hashStep (eq t.cmpFn) t.st o).bind fun r => .ok (α.put i (some { t with st := r.1 }), r.2)
  | .destroy i => (α.get i).bind fun t => if t.st.readonly ≠ 0 then .abort else .ok (α.put i none, .int 0)

/-- Set the read-only flag of table `i`. -/
def Tables.lock (α : Tables K) (i : Nat) (flag : Int) : Tables K :=
  match α.objs i with
  | some t => α.put i (some { t with st := { t.st with readonly := flag } })
  | none => α

/-- A loop `HSH_ITERATE` over table `i`, whose entries come in the order `order`, with the body `f`, which may make any calls on any tables
and may leave the loop (result non-zero): the table is read-only during the loop and writable after a complete loop; a loop over an empty
table does nothing. -/
def tabLoop (eq : Nat → K → K → Bool) (i : Nat) (f : σ → K × Nat → Calls (TabOp K) Ret σ) (order : List (K × Nat)) (α : Tables K) (st : σ) :
    Res (Tables K × σ × Int) :=
  if order = [] then .ok (α, st, 0)
  else (visit (fun _ => tabStep eq) f order (α.lock i 1) st).bind fun q => .ok (if q.2.2 = 0 then q.1.lock i 0 else q.1, q.2)

/-- Every call the program may make satisfies `P`. -/
def Calls.All {O R : Type} (P : O → Prop) : Calls O R σ → Prop
  | .ret _ _ => True
  | .call o k => P o ∧ ∀ r, (k r).All P

/-- The calls of a history on table `i`, and what they returned. -/
def callsOn (i : Nat) : List (TabOp K) → List Ret → List (HashOp K × Ret)
  | .call j o :: os, r :: rs => if j = i then (o, r) :: callsOn i os rs else callsOn i os rs
  | _ :: os, _ :: rs => callsOn i os rs
  | _, _ => []

end Maa.Spec
