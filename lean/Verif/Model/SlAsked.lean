import Verif.Model.Sl
import Verif.Spec.SlAsked

/-! # The calls that maa/sl.c makes to the functions of the program

The functions of Model/Sl.lean once more, with a record of the calls `l->key(...)` and `l->compare(...)`.  A call that ends the program leaves no record. -/

namespace Maa.Sl

open Spec (SlOp SlAsked)

/-- The inner loop of `_sl_locate`, maa/sl.c:277-279, with the data it looks at. -/
def advanceA (s : SList) (h : Heap) (key i : Nat) : Nat → Nat → Res (Nat × List Nat)
  | 0, _ => .ub
  | n + 1, pt =>
    (h.fwd pt i).bind fun q =>
      if q = 0 then .ok (pt, [])
      else (h.datum q).bind fun d =>
        if s.compare (s.key d) key < 0 then (advanceA s h key i n q).bind fun r => .ok (r.1, d :: r.2) else .ok (pt, [d])

/-- The outer loop of `_sl_locate`, maa/sl.c:276-281. -/
def locateLoopA (s : SList) (h : Heap) (key : Nat) : Nat → Nat → List (Option Nat) → Res ((Nat × List (Option Nat)) × List Nat)
  | 0, pt, u => .ok ((pt, u), [])
  | i + 1, pt, u =>
    (advanceA s h key i h.clock pt).bind fun p => (setUpdate u i p.1).bind fun u =>
      (locateLoopA s h key i p.1 u).bind fun r => .ok (r.1, p.2 ++ r.2)

/-- `_sl_locate`, maa/sl.c:270-284. -/
def locateA (s : SList) (h : Heap) (key : Nat) : Res ((Nat × List (Option Nat)) × List Nat) :=
  (locateLoopA s h key (s.level + 1) s.head noUpdate).bind fun r => (h.fwd r.1.1 0).bind fun pt => .ok ((pt, r.1.2), r.2)

/-- `l->compare(l->key(d), key)` for these data, maa/sl.c:278,304,340,373. -/
def record (s : SList) (key : Nat) (looked : List Nat) : List SlAsked := looked.flatMap fun d => [SlAsked.key d, .compare (s.key d) key]

/-- `sl_insert`, maa/sl.c:289-324. -/
def insertA (σ : State) (l datum : Nat) (rnd : Nat → Nat) : Res (State × List SlAsked) :=
  let level := randomLevel rnd
  (σ.check l).bind fun s =>
    let key := s.key datum
    (locateA s σ.heap key).bind fun r =>
      (if r.1.1 = 0 then Res.ok []
        else (σ.heap.datum r.1.1).bind fun d => if s.compare (s.key d) key = 0 then .abort else .ok [d]).bind fun last =>
        (if level > s.level then (setUpdate r.1.2 (s.level + 1) s.head).bind fun u => .ok (s.level + 1, s.level + 1, u)
         else Res.ok (level, s.level, r.1.2)).bind fun x =>
          (createEntry σ.heap x.1 datum).bind fun e =>
            (linkLoop x.2.2 e.2 (List.range (x.1 + 1)) e.1).bind fun h =>
              .ok (σ.put l h (some { s with level := x.2.1, count := s.count + 1 }), .key datum :: record s key (r.2 ++ last))

/-- `sl_delete`, maa/sl.c:328-359. -/
def deleteA (σ : State) (l datum : Nat) : Res (State × List SlAsked) :=
  (σ.check l).bind fun s =>
    let key := s.key datum
    (locateA s σ.heap key).bind fun r =>
      (if r.1.1 = 0 then .abort else (σ.heap.datum r.1.1).bind fun d => if s.compare (s.key d) key ≠ 0 then .abort else .ok [d]).bind fun last =>
        (unlinkLoop r.1.2 r.1.1 (List.range (s.level + 1)) σ.heap).bind fun h => (h.free r.1.1).bind fun h =>
          (lowerLevel h s.head s.level).bind fun level =>
            .ok (σ.put l h (some { s with level := level, count := s.count - 1 }), .key datum :: record s key (r.2 ++ last))

/-- `sl_find`, maa/sl.c:364-376. -/
def findA (σ : State) (l key : Nat) : Res (Nat × List SlAsked) :=
  (σ.check l).bind fun s =>
    (locateA s σ.heap key).bind fun r =>
      if r.1.1 = 0 then .ok (0, record s key r.2)
      else (σ.heap.datum r.1.1).bind fun d =>
        if s.compare (s.key d) key = 0 then .ok (d, record s key (r.2 ++ [d])) else .ok (0, record s key (r.2 ++ [d]))

/-- The calls, and what they ask (maa/sl.c:172-376). -/
def stepA (σ : State) : SlOp → Res ((State × Nat) × List SlAsked)
  | .create cmp key => (create σ cmp key).bind fun r => .ok (r, [])
  | .destroy l => (destroy σ l).bind fun σ => .ok ((σ, 0), [])
  | .insert l d rnd => (insertA σ l d rnd).bind fun r => .ok ((r.1, 0), r.2)
  | .delete l d => (deleteA σ l d).bind fun r => .ok ((r.1, 0), r.2)
  | .find l k => (findA σ l k).bind fun r => .ok ((σ, r.1), r.2)

end Maa.Sl
