import Verif.Model.Sl

/-! # Skip lists whose functions change their minds (maa/sl.c)

The library calls the compare and key functions of a list anew whenever it compares.  What they answer may have changed since: the
program may have changed a key that is in the list, or what the functions compare by. -/

namespace Maa.Sl

/-- What the functions of each list answer during one call. -/
abbrev Answers := Nat → (Nat → Nat → Int) × (Nat → Nat)

/-- The program at a moment when the functions of its lists answer as `f` says: `l->compare` and `l->key`, maa/sl.c:66-67, read at
every comparison. -/
def State.answering (σ : State) (f : Answers) : State :=
  { σ with lists := fun l => (σ.lists l).map fun s => { s with compare := (f l).1, key := (f l).2 } }

/-- A call during which the functions answer as `f` says (maa/sl.c:172-376). -/
def stepNow (σ : State) (o : Answers × Spec.SlOp) : Res (State × Nat) := step (σ.answering o.1) o.2

/-! The same calls when the compare function may change its mind in the middle of a call: `cmp t` is what it answers the `t`-th time it is
called. -/

/-- The inner loop of `_sl_locate`, maa/sl.c:277-279, with the number of comparisons made before it, and after. -/
def advanceF (cmp : Nat → Nat → Nat → Int) (s : SList) (h : Heap) (key i : Nat) : Nat → Nat → Nat → Res (Nat × Nat)
  | 0, _, _ => .ub
  | n + 1, t, pt =>
    (h.fwd pt i).bind fun q =>
      if q = 0 then .ok (t, pt)
      else (h.datum q).bind fun d => if cmp t (s.key d) key < 0 then advanceF cmp s h key i n (t + 1) q else .ok (t + 1, pt)

/-- The outer loop of `_sl_locate`, maa/sl.c:276-281. -/
def locateLoopF (cmp : Nat → Nat → Nat → Int) (s : SList) (h : Heap) (key : Nat) :
    Nat → Nat → Nat → List (Option Nat) → Res (Nat × Nat × List (Option Nat))
  | 0, t, pt, u => .ok (t, pt, u)
  | i + 1, t, pt, u =>
    (advanceF cmp s h key i h.clock t pt).bind fun r => (setUpdate u i r.2).bind fun u => locateLoopF cmp s h key i r.1 r.2 u

/-- `_sl_locate`, maa/sl.c:270-284: the number of comparisons, the entry found and `update`. -/
def locateF (cmp : Nat → Nat → Nat → Int) (s : SList) (h : Heap) (key : Nat) : Res (Nat × Nat × List (Option Nat)) :=
  (locateLoopF cmp s h key (s.level + 1) 0 s.head noUpdate).bind fun r => (h.fwd r.2.1 0).bind fun pt => .ok (r.1, pt, r.2.2)

/-- `sl_delete`, maa/sl.c:328-359. -/
def deleteF (cmp : Nat → Nat → Nat → Int) (σ : State) (l datum : Nat) : Res State :=
  (σ.check l).bind fun s =>
    let key := s.key datum
    (locateF cmp s σ.heap key).bind fun r =>
      (if r.2.1 = 0 then .abort
        else (σ.heap.datum r.2.1).bind fun d => if cmp r.1 (s.key d) key ≠ 0 then .abort else .ok ()).bind fun _ =>
        (unlinkLoop r.2.2 r.2.1 (List.range (s.level + 1)) σ.heap).bind fun h => (h.free r.2.1).bind fun h =>
          (lowerLevel h s.head s.level).bind fun level => .ok (σ.put l h (some { s with level := level, count := s.count - 1 }))

/-- `sl_find`, maa/sl.c:364-376. -/
def findF (cmp : Nat → Nat → Nat → Int) (σ : State) (l key : Nat) : Res Nat :=
  (σ.check l).bind fun s =>
    (locateF cmp s σ.heap key).bind fun r =>
      if r.2.1 = 0 then .ok 0
      else (σ.heap.datum r.2.1).bind fun d => if cmp r.1 (s.key d) key = 0 then .ok d else .ok 0

/-- `sl_insert`, maa/sl.c:289-324. -/
def insertF (cmp : Nat → Nat → Nat → Int) (σ : State) (l datum : Nat) (rnd : Nat → Nat) : Res State :=
  let level := randomLevel rnd
  (σ.check l).bind fun s =>
    let key := s.key datum
    (locateF cmp s σ.heap key).bind fun r =>
      (if r.2.1 = 0 then Res.ok ()
        else (σ.heap.datum r.2.1).bind fun d => if cmp r.1 (s.key d) key = 0 then .abort else .ok ()).bind fun _ =>
        (if level > s.level then (setUpdate r.2.2 (s.level + 1) s.head).bind fun u => .ok (s.level + 1, s.level + 1, u)
         else Res.ok (level, s.level, r.2.2)).bind fun x =>
          (createEntry σ.heap x.1 datum).bind fun e =>
            (linkLoop x.2.2 e.2 (List.range (x.1 + 1)) e.1).bind fun h =>
              .ok (σ.put l h (some { s with level := x.2.1, count := s.count + 1 }))

end Maa.Sl
