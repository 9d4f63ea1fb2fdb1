import Verif.Model.Tab
import Verif.Spec.Sets
import Verif.Spec.Run

/-! # Model of maa/set.c (chain level)

The parts of set.c that are copies of hash.c are the definitions of Model/Tab.lean with payload
`Unit`.  A set also carries the identity of its two function pointers, because the binary operations
compare them. -/

namespace Maa.Set

/-- What the function pointers mean: `hash f` and `cmp f` are the functions a pointer value `f` stands
for (environment). -/
structure FnEnv (K : Type) where
  hash : Nat → K → Nat
  cmp : Nat → K → K → Int

/-- The callbacks of a set created with function pointers `h` and `c`. -/
def FnEnv.ops {K : Type} (env : FnEnv K) (h c : Nat) : KeyOps K := { hash := env.hash h, cmp := env.cmp c }

/-- `set_Set`, maa/set.c:48-62. -/
structure SetObj (K : Type) where
  tab : Tab.Tab K Unit
  hashFn : Nat
  cmpFn : Nat

variable {K : Type}

/-- The callbacks of a set. -/
def SetObj.ops (env : FnEnv K) (s : SetObj K) : KeyOps K := env.ops s.hashFn s.cmpFn

/-- `set_create`, maa/set.c:126-129. -/
def setCreate (h c : Nat) : Res (SetObj K) :=
  (Tab.create 0).bind fun t => .ok { tab := t, hashFn := h, cmpFn := c }

/-- `set_insert`, maa/set.c:226-269. -/
def setInsert (env : FnEnv K) (s : SetObj K) (e : K) : Res (SetObj K × Int) :=
  (Tab.insert (s.ops env) s.tab e ()).bind fun r => .ok ({ s with tab := r.1 }, r.2)

/-- `set_delete`, maa/set.c:274-300. -/
def setDelete (env : FnEnv K) (s : SetObj K) (e : K) : Res (SetObj K × Int) :=
  (Tab.delete (s.ops env) s.tab e).bind fun r => .ok ({ s with tab := r.1 }, r.2)

/-- `set_member`, maa/set.c:305-333. -/
def setMember (env : FnEnv K) (s : SetObj K) (e : K) : Res (SetObj K × Int) :=
  (Tab.retrieve (s.ops env) s.tab e).bind fun r =>
    .ok ({ s with tab := r.1 }, match r.2 with | some _ => 1 | none => 0)

/-- `set_readonly`, maa/set.c:467-477. -/
def setReadonly (s : SetObj K) (flag : Int) : SetObj K × Int :=
  ({ s with tab := (Tab.setReadonly s.tab flag).1 }, (Tab.setReadonly s.tab flag).2)

/-- `set_destroy`, maa/set.c:188-197. -/
def setDestroy (s : SetObj K) : Res Unit := Tab.destroy s.tab

/-- `set_count`, maa/set.c:723-729 (simplification: the conversion of `unsigned long` to `int` is
exact). -/
def setCount (s : SetObj K) : Int := s.tab.entries

/-- `set_get_stats`, maa/set.c:734-773. -/
def setGetStats (s : SetObj K) : Res Tab.Stats := Tab.getStats s.tab

/-- `set_iterate` / `set_iterate_arg`, maa/set.c:342-368,377-404: the flag is set to 1 during the loop
and restored on both exits.  Returns the set, the callback's state and the result. -/
def setIterate {σ : Type} (s : SetObj K) (f : σ → K → σ × Int) (st : σ) : SetObj K × σ × Int :=
  let savedReadonly := s.tab.readonly
  let s1 := { s with tab := { s.tab with readonly := 1 } }
  let r := Tab.iterLoop (fun st e => f st e.key) st (Tab.all s1.tab)
  ({ s1 with tab := { s1.tab with readonly := savedReadonly } }, r.1, r.2)

/-- The checks at the start of the six binary functions, e.g. maa/set.c:494-500. -/
def sameFns (s1 s2 : SetObj K) : Bool := s1.hashFn == s2.hashFn && s1.cmpFn == s2.cmpFn

/-- Insert a list of elements one after the other, ignoring the results: the loop body of `set_add`
(maa/set.c:502-509) and `set_union` (maa/set.c:573-590). -/
def insertAll (env : FnEnv K) : SetObj K → List K → Res (SetObj K)
  | s, [] => .ok s
  | s, e :: es => (setInsert env s e).bind fun r => insertAll env r.1 es

/-- Delete a list of elements: the loop of `set_del`, maa/set.c:537-544. -/
def deleteAll (env : FnEnv K) : SetObj K → List K → Res (SetObj K)
  | s, [] => .ok s
  | s, e :: es => (setDelete env s e).bind fun r => deleteAll env r.1 es

/-- The elements in the order the loops over `t->buckets` meet them, e.g. maa/set.c:502-509. -/
def elems (s : SetObj K) : List K := (Tab.all s.tab).map (·.key)

/-- `set_add` for two different sets, maa/set.c:485-512.  Returns the new first set; the second one is
only read. -/
def setAdd (env : FnEnv K) (s1 s2 : SetObj K) : Res (SetObj K) :=
  if sameFns s1 s2 then insertAll env s1 (elems s2) else .fatal

/-- `set_del` for two different sets, maa/set.c:520-547. -/
def setDel (env : FnEnv K) (s1 s2 : SetObj K) : Res (SetObj K) :=
  if sameFns s1 s2 then deleteAll env s1 (elems s2) else .fatal

/-- `set_union`, maa/set.c:554-593.  The operands are only read. -/
def setUnion (env : FnEnv K) (s1 s2 : SetObj K) : Res (SetObj K) :=
  if sameFns s1 s2 then
    (setCreate s1.hashFn s1.cmpFn).bind fun s =>
      (insertAll env s (elems s1)).bind fun s => insertAll env s (elems s2)
  else .fatal

/-- The loop of `set_inter` (maa/set.c:624-633, `keep = true`) and of `set_diff` (maa/set.c:667-675,
`keep = false`): test each element of the first set in the second one and insert it into the new
set when the answer is `keep`.  Threads the new set and the second set (whose counters change). -/
def selectLoop (env : FnEnv K) (keep : Bool) : SetObj K → SetObj K → List K →
    Res (SetObj K × SetObj K)
  | s, s2, [] => .ok (s, s2)
  | s, s2, e :: es =>
    (setMember env s2 e).bind fun r =>
      if (r.2 ≠ 0) = keep then
        (setInsert env s e).bind fun q => selectLoop env keep q.1 r.1 es
      else selectLoop env keep s r.1 es

/-- Common body of `set_inter` (maa/set.c:600-635) and `set_diff` (maa/set.c:643-678).  Returns the new
set and the second set.  When both arguments are the same set the first set's chains are read while
the second is searched; the search leaves the chains alone because the flag is set, so reading
them up front gives the same list. -/
def setSelect (env : FnEnv K) (keep : Bool) (s1 s2 : SetObj K) : Res (SetObj K × SetObj K) :=
  if sameFns s1 s2 then
    (setCreate s1.hashFn s1.cmpFn).bind fun s =>
      let savedReadonly := s2.tab.readonly
      let s2' := { s2 with tab := { s2.tab with readonly := 1 } }
      (selectLoop env keep s s2' (elems s1)).bind fun r =>
        .ok (r.1, { r.2 with tab := { r.2.tab with readonly := savedReadonly } })
  else .fatal

/-- `set_inter`, maa/set.c:600-635. -/
def setInter (env : FnEnv K) (s1 s2 : SetObj K) : Res (SetObj K × SetObj K) := setSelect env true s1 s2

/-- `set_diff`, maa/set.c:643-678. -/
def setDiff (env : FnEnv K) (s1 s2 : SetObj K) : Res (SetObj K × SetObj K) := setSelect env false s1 s2

/-- The loop of `set_equal`, maa/set.c:707-718. -/
def equalLoop (env : FnEnv K) : SetObj K → List K → Res (SetObj K × Int)
  | s2, [] => .ok (s2, 1)
  | s2, e :: es =>
    (setMember env s2 e).bind fun r => if r.2 = 0 then .ok (r.1, 0) else equalLoop env r.1 es

/-- `set_equal`, maa/set.c:685-721.  Returns the second set and the answer. -/
def setEqual (env : FnEnv K) (s1 s2 : SetObj K) : Res (SetObj K × Int) :=
  if sameFns s1 s2 then
    if s1.tab.entries ≠ s2.tab.entries then .ok (s2, 0)
    else
      let savedReadonly := s2.tab.readonly
      let s2' := { s2 with tab := { s2.tab with readonly := 1 } }
      (equalLoop env s2' (elems s1)).bind fun r =>
        .ok ({ r.1 with tab := { r.1.tab with readonly := savedReadonly } }, r.2)
  else .fatal

/-! ## Histories over several sets -/

/-- A program's sets: `objs h` is the set with handle `h`, handles are given out in order (stands for
the `set_Set` pointers a program holds). -/
structure Store (K : Type) where
  objs : Nat → Option (SetObj K)
  next : Nat

/-- No sets yet. -/
def Store.empty : Store K := { objs := fun _ => none, next := 0 }

/-- Replace one set. -/
def Store.put (σ : Store K) (i : Nat) (s : Option (SetObj K)) : Store K :=
  { σ with objs := fun j => if j = i then s else σ.objs j }

/-- A set returned by a call gets the next handle. -/
def Store.alloc (σ : Store K) (s : SetObj K) : Store K :=
  { objs := fun j => if j = σ.next then some s else σ.objs j, next := σ.next + 1 }

/-- Use of a set that does not exist (never created or destroyed) is undefined behaviour. -/
def Store.get (σ : Store K) (i : Nat) : Res (SetObj K) :=
  match σ.objs i with
  | some s => .ok s
  | none => .ub

/-- One call of the set.c API on a store (dispatch only).  `add i i` and `del i i` are not in the
operation type's domain here: see Model/HashHeap.lean for aliased arguments. -/
def setStep (env : FnEnv K) (σ : Store K) : Spec.SetOp K → Res (Store K × Int)
  | .create h c => (setCreate h c).bind fun s => .ok (σ.alloc s, σ.next)
  | .insert i e => (σ.get i).bind fun s => (setInsert env s e).bind fun r => .ok (σ.put i r.1, r.2)
  | .delete i e => (σ.get i).bind fun s => (setDelete env s e).bind fun r => .ok (σ.put i r.1, r.2)
  | .member i e => (σ.get i).bind fun s => (setMember env s e).bind fun r => .ok (σ.put i r.1, r.2)
  | .readonly i f => (σ.get i).bind fun s => .ok (σ.put i (setReadonly s f).1, (setReadonly s f).2)
  | .destroy i => (σ.get i).bind fun s => (setDestroy s).bind fun _ => .ok (σ.put i none, 0)
  | .count i => (σ.get i).bind fun s => .ok (σ, setCount s)
  | .stats i => (σ.get i).bind fun s => (setGetStats s).bind fun r => .ok (σ, r.entries)
  | .add i j => (σ.get i).bind fun s1 => (σ.get j).bind fun s2 =>
      (setAdd env s1 s2).bind fun r => .ok (σ.put i r, i)
  | .del i j => (σ.get i).bind fun s1 => (σ.get j).bind fun s2 =>
      (setDel env s1 s2).bind fun r => .ok (σ.put i r, i)
  | .union i j => (σ.get i).bind fun s1 => (σ.get j).bind fun s2 =>
      (setUnion env s1 s2).bind fun r => .ok (σ.alloc r, σ.next)
  | .inter i j => (σ.get i).bind fun s1 => (σ.get j).bind fun s2 =>
      (setInter env s1 s2).bind fun r => .ok ((σ.put j r.2).alloc r.1, σ.next)
  | .diff i j => (σ.get i).bind fun s1 => (σ.get j).bind fun s2 =>
      (setDiff env s1 s2).bind fun r => .ok ((σ.put j r.2).alloc r.1, σ.next)
  | .equal i j => (σ.get i).bind fun s1 => (σ.get j).bind fun s2 =>
      (setEqual env s1 s2).bind fun r => .ok (σ.put j r.1, r.2)

/-! ## Names used in statements (no code of their own) -/

/-- Equality of elements under compare function `c` (maa/set.c:261: `!t->compare(pt->elem, elem)`). -/
def eqOf (env : FnEnv K) (c : Nat) (a b : K) : Bool := env.cmp c a b == 0

/-- The calls covered by the history theorems: sets are created with functions obeying the documented
contract, and `set_add` / `set_del` get two different sets. -/
def OkOp (env : FnEnv K) (o : Spec.SetOp K) : Prop :=
  o.NoAlias ∧ ∀ h c, o = .create h c → (env.ops h c).Lawful

/-- A set some program holds after some history of calls. -/
def Reachable (env : FnEnv K) (s : SetObj K) : Prop :=
  ∃ hist σ outs i, (∀ o ∈ hist, OkOp env o) ∧
    Spec.run (setStep env) Store.empty hist = .ok (σ, outs) ∧ σ.objs i = some s

/-- `set_member(s,x)` returns `v`. -/
def MemberIs (env : FnEnv K) (s : SetObj K) (x : K) (v : Int) : Prop :=
  ∃ s', setMember env s x = .ok (s', v)

end Maa.Set
