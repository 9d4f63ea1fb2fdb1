import Verif.Model.HashIter
import Verif.Model.HashStats

/-! # Everything a program can see of one hash table or set

A history of calls and of walks over the table; nothing new is modelled here (dispatch only). -/

namespace Maa.HashHeap

variable {K D : Type}

open Tab (Entry)

/-- A call, with what the functions of the table answer during it, or a walk. -/
inductive WatchOp (K D O : Type) where
  /-- a call -/
  | call (ops : KeyOps K) (o : O)
  /-- `hsh_iterate` or `set_iterate` with a function that returns `f seen`, `seen` being the pairs shown so far, this one included -/
  | walk (ops : KeyOps K) (f : List (K × D) → Int)
  /-- `HSH_ITERATE` or `SET_ITERATE` to the end, looking up `keys` for each pair -/
  | loop (ops : KeyOps K) (keys : List K)
  /-- the statistics -/
  | stats

/-- What the program sees: the result of a call, the pairs shown by a walk and its result, or the numbers of the statistics. -/
inductive Seen (K D R : Type) where
  | ret (r : R)
  | pairs (ps : List (K × D)) (r : Int)
  | round (ps : List ((K × D) × Int))
  | numbers (s : Tab.Stats)
  deriving DecidableEq

/-- One call on or one walk over a hash table, maa/hash.c:198-498, maa/maa.h:160-163. -/
def watchHash (s : HState K Ptr) : WatchOp K Ptr (Spec.HashOp K) → Res (HState K Ptr × Seen K Ptr Spec.Ret)
  | .call ops o => (heapStep ops s o).bind fun q => .ok (q.1, .ret q.2)
  | .walk ops f =>
    (hiterate ops (fun st p => .ret (st ++ [p]) (f (st ++ [p]))) (s.2.prime + 1) 0 s []).bind fun q => .ok (q.1, .pairs q.2.1 q.2.2)
  | .loop ops keys =>
    (positionLoop ops (fun _ => keys) (s.2.entries + 1) (s.1, (initPosition s.2).1) (initPosition s.2).2 []).bind fun q => .ok (q.1, .round q.2)
  | .stats => (hgetStats s.1 s.2).bind fun n => .ok (s, .numbers n)

/-- One call on or one walk over a set, maa/set.c:226-480, maa/maa.h:233-236. -/
def watchSet (s : HState K Unit) : WatchOp K Unit (Spec.OneSetOp K) → Res (HState K Unit × Seen K Unit Int)
  | .call ops o => (setHeapStep ops s o).bind fun q => .ok (q.1, .ret q.2)
  | .walk ops f =>
    (siterate ops (fun st p => .ret (st ++ [p]) (f (st ++ [p]))) (s.2.prime + 1) s []).bind fun q => .ok (q.1, .pairs q.2.1 q.2.2)
  | .loop ops keys =>
    (positionLoop ops (fun _ => keys) (s.2.entries + 1) (s.1, (initPosition s.2).1) (initPosition s.2).2 []).bind fun q => .ok (q.1, .round q.2)
  | .stats => (hgetStats s.1 s.2).bind fun n => .ok (s, .numbers n)

end Maa.HashHeap
