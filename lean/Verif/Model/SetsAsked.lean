import Verif.Model.Set
import Verif.Spec.SetsAsked

/-! # The calls that the functions of maa/set.c make to the functions of the program, with several sets

The functions of Model/Set.lean once more, with a record of the calls `t->hash(...)` and `t->compare(...)`.  As there, memory is left out (a chain is a
list); Model/SetHeap.lean has the same functions with memory. -/

namespace Maa.Set

open Tab (Entry)
open Spec (Asked)

variable {K : Type}

/-- The search loops, maa/set.c:263-264,286-287,317-318: is there an entry that compares equal, and which keys are given to `t->compare`. -/
def findA (ops : KeyOps K) (key : K) : List (Entry K Unit) → Bool × List K
  | [] => (false, [])
  | pt :: rest =>
    if ops.cmp pt.key key == 0 then (true, [pt.key])
    else ((findA ops key rest).1, pt.key :: (findA ops key rest).2)

/-- The record of a call which hashed `key` and then compared the keys `seen` with it. -/
def recordA (key : K) (seen : List K) : List (Asked K) := .hash key :: seen.map (Asked.compare · key)

/-- `set_insert`, maa/set.c:226-269; growing calls neither function, since hash values are kept (maa/set.c:245-249). -/
def setInsertA (env : FnEnv K) (s : SetObj K) (e : K) : Res ((SetObj K × Int) × List (Asked K)) :=
  let hashValue := (s.ops env).hash e
  if s.tab.readonly ≠ 0 then .abort else
    (Tab.grow s.tab).bind fun t =>
      if t.prime = 0 then .ub else
        let f := findA (s.ops env) e (t.buckets (hashValue % t.prime))
        if f.1 then .ok (({ s with tab := t }, 1), recordA e f.2)
        else .ok (({ s with tab := Tab.push t { key := e, hash := hashValue, datum := () } }, 0), recordA e f.2)

/-- `set_delete`, maa/set.c:274-300. -/
def setDeleteA (env : FnEnv K) (s : SetObj K) (e : K) : Res ((SetObj K × Int) × List (Asked K)) :=
  if s.tab.prime = 0 then .ub else
    let h := (s.ops env).hash e % s.tab.prime
    if s.tab.readonly ≠ 0 then .abort else
      let f := findA (s.ops env) e (s.tab.buckets h)
      if f.1 then
        .ok (({ s with tab := { s.tab with
            entries := s.tab.entries - 1
            buckets := Tab.setBucket s.tab.buckets h ((s.tab.buckets h).eraseP fun pt => (s.ops env).cmp pt.key e == 0) } }, 0), recordA e f.2)
      else .ok ((s, 1), recordA e f.2)

/-- `set_member`, maa/set.c:305-333 (what it does to the chain and the counters is `setMember`). -/
def setMemberA (env : FnEnv K) (s : SetObj K) (e : K) : Res ((SetObj K × Int) × List (Asked K)) :=
  if s.tab.prime = 0 then .ub else
    let f := findA (s.ops env) e (s.tab.buckets ((s.ops env).hash e % s.tab.prime))
    (setMember env s e).bind fun r => .ok ((r.1, if f.1 then 1 else 0), recordA e f.2)

/-- The loop body of `set_add` and `set_union`, maa/set.c:502-509, 573-590. -/
def insertAllA (env : FnEnv K) : SetObj K → List K → Res (SetObj K × List (Asked K))
  | s, [] => .ok (s, [])
  | s, e :: es => (setInsertA env s e).bind fun r => (insertAllA env r.1.1 es).bind fun q => .ok (q.1, r.2 ++ q.2)

/-- The loop of `set_del`, maa/set.c:537-544. -/
def deleteAllA (env : FnEnv K) : SetObj K → List K → Res (SetObj K × List (Asked K))
  | s, [] => .ok (s, [])
  | s, e :: es => (setDeleteA env s e).bind fun r => (deleteAllA env r.1.1 es).bind fun q => .ok (q.1, r.2 ++ q.2)

/-- `set_add` for two different sets, maa/set.c:485-512. -/
def setAddA (env : FnEnv K) (s1 s2 : SetObj K) : Res (SetObj K × List (Asked K)) :=
  if sameFns s1 s2 then insertAllA env s1 (elems s2) else .fatal

/-- `set_del` for two different sets, maa/set.c:520-547. -/
def setDelA (env : FnEnv K) (s1 s2 : SetObj K) : Res (SetObj K × List (Asked K)) :=
  if sameFns s1 s2 then deleteAllA env s1 (elems s2) else .fatal

/-- `set_union`, maa/set.c:554-593. -/
def setUnionA (env : FnEnv K) (s1 s2 : SetObj K) : Res (SetObj K × List (Asked K)) :=
  if sameFns s1 s2 then
    (setCreate s1.hashFn s1.cmpFn).bind fun s =>
      (insertAllA env s (elems s1)).bind fun q =>
        (insertAllA env q.1 (elems s2)).bind fun q' => .ok (q'.1, q.2 ++ q'.2)
  else .fatal

/-- The loop of `set_inter` (maa/set.c:624-633) and of `set_diff` (maa/set.c:667-675). -/
def selectLoopA (env : FnEnv K) (keep : Bool) : SetObj K → SetObj K → List K → Res ((SetObj K × SetObj K) × List (Asked K))
  | s, s2, [] => .ok ((s, s2), [])
  | s, s2, e :: es =>
    (setMemberA env s2 e).bind fun r =>
      if (r.1.2 ≠ 0) = keep then
        (setInsertA env s e).bind fun q => (selectLoopA env keep q.1.1 r.1.1 es).bind fun p => .ok (p.1, r.2 ++ (q.2 ++ p.2))
      else (selectLoopA env keep s r.1.1 es).bind fun p => .ok (p.1, r.2 ++ p.2)

/-- `set_inter` (maa/set.c:600-635) and `set_diff` (maa/set.c:643-678). -/
def setSelectA (env : FnEnv K) (keep : Bool) (s1 s2 : SetObj K) : Res ((SetObj K × SetObj K) × List (Asked K)) :=
  if sameFns s1 s2 then
    (setCreate s1.hashFn s1.cmpFn).bind fun s =>
      let savedReadonly := s2.tab.readonly
      let s2' := { s2 with tab := { s2.tab with readonly := 1 } }
      (selectLoopA env keep s s2' (elems s1)).bind fun r =>
        .ok ((r.1.1, { r.1.2 with tab := { r.1.2.tab with readonly := savedReadonly } }), r.2)
  else .fatal

/-- The loop of `set_equal`, maa/set.c:707-718. -/
def equalLoopA (env : FnEnv K) : SetObj K → List K → Res ((SetObj K × Int) × List (Asked K))
  | s2, [] => .ok ((s2, 1), [])
  | s2, e :: es =>
    (setMemberA env s2 e).bind fun r =>
      if r.1.2 = 0 then .ok ((r.1.1, 0), r.2)
      else (equalLoopA env r.1.1 es).bind fun q => .ok (q.1, r.2 ++ q.2)

/-- `set_equal`, maa/set.c:685-721. -/
def setEqualA (env : FnEnv K) (s1 s2 : SetObj K) : Res ((SetObj K × Int) × List (Asked K)) :=
  if sameFns s1 s2 then
    if s1.tab.entries ≠ s2.tab.entries then .ok ((s2, 0), [])
    else
      let savedReadonly := s2.tab.readonly
      let s2' := { s2 with tab := { s2.tab with readonly := 1 } }
      (equalLoopA env s2' (elems s1)).bind fun r =>
        .ok (({ r.1.1 with tab := { r.1.1.tab with readonly := savedReadonly } }, r.1.2), r.2)
  else .fatal

/-- One call of the set.c API and what it asks (dispatch only; maa/set.c:126-773). -/
def setStepA (env : FnEnv K) (σ : Store K) : Spec.SetOp K → Res ((Store K × Int) × List (Asked K))
  | .insert i e => (σ.get i).bind fun s => (setInsertA env s e).bind fun r => .ok ((σ.put i r.1.1, r.1.2), r.2)
  | .delete i e => (σ.get i).bind fun s => (setDeleteA env s e).bind fun r => .ok ((σ.put i r.1.1, r.1.2), r.2)
  | .member i e => (σ.get i).bind fun s => (setMemberA env s e).bind fun r => .ok ((σ.put i r.1.1, r.1.2), r.2)
  | .add i j => (σ.get i).bind fun s1 => (σ.get j).bind fun s2 =>
      (setAddA env s1 s2).bind fun r => .ok ((σ.put i r.1, i), r.2)
  | .del i j => (σ.get i).bind fun s1 => (σ.get j).bind fun s2 =>
      (setDelA env s1 s2).bind fun r => .ok ((σ.put i r.1, i), r.2)
  | .union i j => (σ.get i).bind fun s1 => (σ.get j).bind fun s2 =>
      (setUnionA env s1 s2).bind fun r => .ok ((σ.alloc r.1, σ.next), r.2)
  | .inter i j => (σ.get i).bind fun s1 => (σ.get j).bind fun s2 =>
      (setSelectA env true s1 s2).bind fun r => .ok (((σ.put j r.1.2).alloc r.1.1, σ.next), r.2)
  | .diff i j => (σ.get i).bind fun s1 => (σ.get j).bind fun s2 =>
      (setSelectA env false s1 s2).bind fun r => .ok (((σ.put j r.1.2).alloc r.1.1, σ.next), r.2)
  | .equal i j => (σ.get i).bind fun s1 => (σ.get j).bind fun s2 =>
      (setEqualA env s1 s2).bind fun r => .ok ((σ.put j r.1.1, r.1.2), r.2)
  | .create h c => (setCreate h c).bind fun s => .ok ((σ.alloc s, σ.next), [])
  | .readonly i f => (σ.get i).bind fun s => .ok ((σ.put i (setReadonly s f).1, (setReadonly s f).2), [])
  | .destroy i => (σ.get i).bind fun s => (setDestroy s).bind fun _ => .ok ((σ.put i none, 0), [])
  | .count i => (σ.get i).bind fun s => .ok ((σ, setCount s), [])
  | .stats i => (σ.get i).bind fun s => (setGetStats s).bind fun r => .ok ((σ, r.entries), [])

end Maa.Set
