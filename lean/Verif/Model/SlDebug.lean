import Verif.Model.SlProgs

/-! # The skip lists of maa/sl.c built with `SL_DEBUG` set to 1 ("Debug like crazy", maa/sl.c:47)

`_sl_check` looks at the whole list at the start of every search, and at the end of insertions, deletions and walks.  Simplifications: the
member `levels` (only printed) and the dump printed before the program ends are left out; `_sl_check_entry` (maa/sl.c:93-108) reads the magic number
of an entry whose datum is read next, and does nothing when it is right. -/

namespace Maa.Sl

open Spec (SlOp)

variable {σ : Type}

/-- The loop of `_sl_check`, maa/sl.c:121-132; gives `count`. -/
def checkLoop (s : SList) (h : Heap) : Nat → Nat → Int → Res Int
  | 0, _, _ => .ub
  | n + 1, pt, count =>
    if pt = 0 then .ok count
    else (h.fwd pt 0).bind fun q =>
      (if q = 0 then Res.ok () else (h.datum pt).bind fun d => (h.datum q).bind fun e =>
        if s.compare (s.key d) (s.key e) ≥ 0 then .abort else .ok ()).bind fun _ => checkLoop s h n q (count + 1)

/-- `_sl_check`, maa/sl.c:112-137. -/
def slCheck (σ : State) (l : Nat) : Res Unit :=
  (σ.check l).bind fun s => (σ.heap.fwd s.head 0).bind fun pt =>
    (checkLoop s σ.heap (σ.heap.clock + 1) pt 0).bind fun count => if count ≠ s.count then .abort else .ok ()

/-- `sl_insert`, maa/sl.c:289-324, with the checks in `_sl_locate` (maa/sl.c:275) and at the end (maa/sl.c:323).  The list is not changed before the
first of them. -/
def insertD (σ : State) (l datum : Nat) (rnd : Nat → Nat) : Res State :=
  (σ.check l).bind fun _ => (slCheck σ l).bind fun _ => (insert σ l datum rnd).bind fun σ' => (slCheck σ' l).bind fun _ => .ok σ'

/-- `sl_delete`, maa/sl.c:328-359, with the checks in `_sl_locate` and at the end (maa/sl.c:358). -/
def deleteD (σ : State) (l datum : Nat) : Res State :=
  (σ.check l).bind fun _ => (slCheck σ l).bind fun _ => (delete σ l datum).bind fun σ' => (slCheck σ' l).bind fun _ => .ok σ'

/-- `sl_find`, maa/sl.c:364-376, with the check in `_sl_locate`. -/
def findD (σ : State) (l key : Nat) : Res Nat :=
  (σ.check l).bind fun _ => (slCheck σ l).bind fun _ => find σ l key

/-- The calls (maa/sl.c:172-376); `sl_create` and `sl_destroy` check nothing more than before. -/
def stepD (σ : State) : SlOp → Res (State × Nat)
  | .create cmp key => create σ cmp key
  | .destroy l => (destroy σ l).bind fun σ => .ok (σ, 0)
  | .insert l d rnd => (insertD σ l d rnd).bind fun σ => .ok (σ, 0)
  | .delete l d => (deleteD σ l d).bind fun σ => .ok (σ, 0)
  | .find l k => (findD σ l k).bind fun d => .ok (σ, d)

/-- `sl_iterate` and `sl_iterate_arg`, maa/sl.c:383-413, 420-451, with the check after the last call of `f` (maa/sl.c:410, 448), which is
not reached when `f` ends the walk. -/
def walkCallsD (body : State → σ → Nat → Res (State × σ × Int)) (l : Nat) (s : State) (st : σ) : Res (State × σ × Int) :=
  if l = 0 then .ok (s, st, 0)
  else (walkCalls body l s st).bind fun q => if q.2.2 ≠ 0 then .ok q else (slCheck q.1 l).bind fun _ => .ok q

/-- Run a program on the skip lists in memory (maa/sl.c). -/
def execD : Spec.SlProg σ → State → Res (State × σ × Int)
  | .ret st r, s => .ok (s, st, r)
  | .call o k, s => (stepD s o).bind fun q => execD (k q.2) q.1
  | .walk l st f k, s => (walkCallsD (fun s st d => execD (f st d) s) l s st).bind fun q => execD (k q.2.1 q.2.2) q.1

end Maa.Sl
