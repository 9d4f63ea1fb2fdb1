import Verif.Spec.Run

/-! # Lists with positions

A list is a sequence of elements; an element has a position (an opaque non-NULL pointer that no other
element of any list has) and a datum.  Lists are named by handles; handle 0 is the NULL list. -/

namespace Maa.Spec

/-- Calls on the lists of a program. -/
inductive LstOp where
  | create
  | destroy (l : Nat)
  | append (l datum : Nat)
  | push (l datum : Nat)
  | pop (l : Nat)
  | top (l : Nat)
  | nthGet (l n : Nat)
  | nthSet (l n datum : Nat)
  | member (l datum : Nat)
  | length (l : Nat)
  | truncate (l n : Nat)
  | truncatePosition (l pos : Nat)
  | initPosition (l : Nat)
  | lastPosition (l : Nat)
  | nextPosition (pos : Nat)
  | nthPosition (l n : Nat)
  | getPosition (pos : Nat)
  | setPosition (pos datum : Nat)
  | totalAllocated
  | shutdown

/-- All lists of the program: elements are (position, datum) pairs. `alive`: the library has a node pool
(from the first `lst_create` until `_lst_shutdown`).  `bytes` counts what was ever allocated. -/
structure Lists where
  lists : Nat → Option (List (Nat × Nat))
  next : Nat
  alive : Bool
  bytes : Nat

/-- Program start; handles start at 1. -/
def Lists.empty : Lists := { lists := fun _ => none, next := 1, alive := false, bytes := 0 }

/-- Replace one list. -/
def Lists.set (S : Lists) (i : Nat) (l : Option (List (Nat × Nat))) : Lists :=
  { S with lists := fun j => if j = i then l else S.lists j }

/-- `p` is the position of an element of some list. -/
def Lists.InUse (S : Lists) (p : Nat) : Prop := ∃ i l, S.lists i = some l ∧ p ∈ l.map Prod.fst

/-- `p` is the position of an element of list `i`. -/
def Lists.InList (S : Lists) (i p : Nat) : Prop := ∃ l, S.lists i = some l ∧ p ∈ l.map Prod.fst

/-- The list handle an operation is about. -/
def LstOp.handle : LstOp → Option Nat
  | .destroy l | .append l _ | .push l _ | .pop l | .top l | .nthGet l _ | .nthSet l _ _ | .member l _
  | .length l | .truncate l _ | .truncatePosition l _ | .initPosition l | .lastPosition l
  | .nthPosition l _ => some l
  | _ => none

/-- Calls the documentation gives no meaning to: a list that does not exist, a position that belongs to no
list (or to another list), adding elements after the library was shut down. -/
def Lists.Undefined (S : Lists) (o : LstOp) : Prop :=
  (∃ l, o.handle = some l ∧ l ≠ 0 ∧ S.lists l = none) ∨
  (match o with
   | .append l _ => l ≠ 0 ∧ S.alive = false
   | .push _ _ => S.alive = false
   | .nextPosition p => p ≠ 0 ∧ ¬ S.InUse p
   | .getPosition p => p ≠ 0 ∧ ¬ S.InUse p
   | .setPosition p _ => p ≠ 0 ∧ ¬ S.InUse p
   | .truncatePosition l p => l ≠ 0 ∧ p ≠ 0 ∧ ¬ S.InList l p
   | _ => False)

/-- Position of the first / last element, or NULL. -/
def firstPos (l : List (Nat × Nat)) : Nat := (l.head?.map Prod.fst).getD 0
/-- Position of the last element, or NULL. -/
def lastPos (l : List (Nat × Nat)) : Nat := (l.getLast?.map Prod.fst).getD 0
/-- `n`-th element, counting from 1. -/
def nth (l : List (Nat × Nat)) (n : Nat) : Option (Nat × Nat) := if n = 0 then none else l[n - 1]?

/-- What a call on an existing list may do: `k` describes it from the list's contents. A call on the NULL
list aborts. -/
def Lists.on (S : Lists) (i : Nat) (r : Res (Lists × Nat)) (k : List (Nat × Nat) → Prop) : Prop :=
  if i = 0 then r = .abort else ∃ l, S.lists i = some l ∧ k l

/-- The outcomes the documentation allows for one call (void functions return 0). -/
def Lists.Allowed (S : Lists) (r : Res (Lists × Nat)) : LstOp → Prop
  | .create => r = .ok ({ lists := fun j => if j = S.next then some [] else S.lists j, next := S.next + 1,
                          alive := true, bytes := S.bytes + 32 }, S.next)
  | .destroy i => S.on i r fun _ => r = .ok (S.set i none, 0)
  | .append i d =>
    if i = 0 then r = .ok (S, 0)
    else ∃ l a, S.lists i = some l ∧ a ≠ 0 ∧ ¬ S.InUse a ∧
      r = .ok ({ S.set i (some (l ++ [(a, d)])) with bytes := S.bytes + 16 }, 0)
  | .push i d => S.on i r fun l => ∃ a, a ≠ 0 ∧ ¬ S.InUse a ∧
      r = .ok ({ S.set i (some ((a, d) :: l)) with bytes := S.bytes + 16 }, 0)
  | .pop i => S.on i r fun l => r = .ok (S.set i (some l.tail), (l.head?.map Prod.snd).getD 0)
  | .top i => S.on i r fun l => r = .ok (S, (l.head?.map Prod.snd).getD 0)
  | .nthGet i n => S.on i r fun l => r = .ok (S, ((nth l n).map Prod.snd).getD 0)
  | .nthSet i n d => S.on i r fun l =>
      match nth l n with
      | none => r = .fatal
      | some e => r = .ok (S.set i (some (l.set (n - 1) (e.1, d))), 0)
  | .member i d => S.on i r fun l => r = .ok (S, if d ∈ l.map Prod.snd then 1 else 0)
  | .length i => S.on i r fun l => r = .ok (S, l.length)
  | .truncate i n => S.on i r fun l => r = .ok (S.set i (some (l.take n)), 0)
  | .truncatePosition i p => S.on i r fun l =>
      if p = 0 then r = .ok (S.set i (some []), 0)
      else ∃ before d after, l = before ++ (p, d) :: after ∧ r = .ok (S.set i (some (before ++ [(p, d)])), 0)
  | .initPosition i => S.on i r fun l => r = .ok (S, firstPos l)
  | .lastPosition i => S.on i r fun l => r = .ok (S, lastPos l)
  | .nthPosition i n => S.on i r fun l => r = .ok (S, ((nth l n).map Prod.fst).getD 0)
  | .nextPosition p =>
    if p = 0 then r = .ok (S, 0)
    else ∃ i before d after, S.lists i = some (before ++ (p, d) :: after) ∧ r = .ok (S, firstPos after)
  | .getPosition p =>
    if p = 0 then r = .ok (S, 0)
    else ∃ i before d after, S.lists i = some (before ++ (p, d) :: after) ∧ r = .ok (S, d)
  | .setPosition p e =>
    if p = 0 then r = .ok (S, 0)
    else ∃ i before d after, S.lists i = some (before ++ (p, d) :: after) ∧
      r = .ok (S.set i (some (before ++ (p, e) :: after)), 0)
  | .totalAllocated => r = .ok (S, S.bytes)
  | .shutdown => -- lists that still had elements must not be used any more
    r = .ok ({ S with alive := false, lists := fun j => if S.lists j = some [] then some [] else none }, 0)

/-- `Runs S hist r S'`: the outcome `r` of performing the calls `hist` from `S` is as documented. After a
call without documented meaning nothing is promised. `T` relates to the final lists. -/
inductive Lists.Runs : Lists → List LstOp → Res (List Nat) → Option Lists → Prop where
  | done (S : Lists) : Runs S [] (.ok []) (some S)
  | undefined (S : Lists) (o : LstOp) (os : List LstOp) (r : Res (List Nat)) :
      S.Undefined o → Runs S (o :: os) r none
  | returns (S S' : Lists) (o : LstOp) (os : List LstOp) (x : Nat) (r : Res (List Nat)) (T : Option Lists) :
      S.Allowed (.ok (S', x)) o → Runs S' os r T → Runs S (o :: os) (r.bind fun xs => .ok (x :: xs)) T
  | aborts (S : Lists) (o : LstOp) (os : List LstOp) : S.Allowed .abort o → Runs S (o :: os) .abort none
  | exits (S : Lists) (o : LstOp) (os : List LstOp) : S.Allowed .fatal o → Runs S (o :: os) .fatal none

end Maa.Spec
