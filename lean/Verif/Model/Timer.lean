import Verif.Model.NameTab
import Verif.Spec.Timer
import Verif.Spec.Source

/-! # Model of maa/timer.c

What `gettimeofday` and `getrusage` return during a call is an argument of the call.  The `double` fields hold integers
(the sums and differences of `DIFFTIME` are integer arithmetic), modelled as `Int`: exact as long as they stay below 2^53,
and differences of seconds do not overflow `long` (simplification).  Allocation gives a fresh address. -/

namespace Maa.Timer

open Spec (Timeval Reading)

/-- `struct tim_Entry`, maa/timer.c:36-45; of the two `struct rusage` marks only the four times that are used. -/
structure Entry where
  real : Int
  self_user : Int
  self_system : Int
  children_user : Int
  children_system : Int
  mark : Reading

/-- `_tim_Hash`, maa/timer.c:34, and the entries allocated, by address. -/
structure State where
  hash : Option NameTab.Table
  mem : Nat → Option Entry
  fresh : Nat

/-- Program start. -/
def State.init : State := { hash := none, mem := fun _ => none, fresh := 1 }

/-- `DIFFTIME`, maa/timer.c:83-85; `/` on `long` truncates towards zero. -/
def difftime (now before : Timeval) : Int := (now.sec - before.sec) + (now.usec - before.usec).tdiv 1000000

/-- `_tim_check`, maa/timer.c:47-50; gives the table. -/
def check (σ : State) : Res NameTab.Table :=
  match σ.hash with
  | some t => .ok t
  | none => NameTab.create

/-- `entry->…` through a pointer. -/
def deref (σ : State) (p : Nat) : Res Entry :=
  match σ.mem p with
  | none => .ub
  | some e => .ok e

/-- `entry->… = …` through a pointer. -/
def store (σ : State) (p : Nat) (e : Entry) : State := { σ with mem := fun q => if q = p then some e else σ.mem q }

/-- `tim_start`, maa/timer.c:54-73. -/
def timStart (σ : State) (name : Option (List Byte)) (r : Reading) : Res State :=
  (check σ).bind fun t =>
  (NameTab.retrieve t name).bind fun q =>
    if q.2 = 0 then
      let p := σ.fresh
      let e : Entry := { real := 0, self_user := 0, self_system := 0, children_user := 0, children_system := 0, mark := r }
      (NameTab.insert q.1 name p).bind fun i =>
        .ok (store { σ with hash := some i.1, fresh := p + 1 } p e)
    else
      (deref σ q.2).bind fun e => .ok (store { σ with hash := some q.1 } q.2 { e with mark := r })

/-- The look-up at the start of the other functions, e.g. maa/timer.c:87-92: the state after it and the entry, or the abort. -/
def lookup (σ : State) (name : Option (List Byte)) : Res (State × Nat) :=
  (check σ).bind fun t =>
  (NameTab.retrieve t name).bind fun q =>
    if q.2 = 0 then .abort else .ok ({ σ with hash := some q.1 }, q.2)

/-- `tim_stop`, maa/timer.c:77-104. -/
def timStop (σ : State) (name : Option (List Byte)) (r : Reading) : Res State :=
  (lookup σ name).bind fun q =>
  (deref q.1 q.2).bind fun e =>
    .ok (store q.1 q.2
      { e with
        real := difftime r.real e.mark.real
        self_user := difftime r.selfUser e.mark.selfUser
        self_system := difftime r.selfSystem e.mark.selfSystem
        children_user := difftime r.childUser e.mark.childUser
        children_system := difftime r.childSystem e.mark.childSystem })

/-- `tim_reset`, maa/timer.c:109-123. -/
def timReset (σ : State) (name : Option (List Byte)) : Res State :=
  (lookup σ name).bind fun q =>
  (deref q.1 q.2).bind fun e =>
    .ok (store q.1 q.2 { e with real := 0, self_user := 0, self_system := 0, children_user := 0, children_system := 0 })

/-- `tim_get_real`, maa/timer.c:129-139. -/
def timGetReal (σ : State) (name : Option (List Byte)) : Res (State × Int) :=
  (lookup σ name).bind fun q => (deref q.1 q.2).bind fun e => .ok (q.1, e.real)

/-- `tim_get_user`, maa/timer.c:143-190. -/
def timGetUser (σ : State) (name : Option (List Byte)) : Res (State × Int) :=
  (lookup σ name).bind fun q => (deref q.1 q.2).bind fun e => .ok (q.1, e.self_user + e.children_user)

/-- `tim_get_system`, maa/timer.c:194-204. -/
def timGetSystem (σ : State) (name : Option (List Byte)) : Res (State × Int) :=
  (lookup σ name).bind fun q => (deref q.1 q.2).bind fun e => .ok (q.1, e.self_system + e.children_system)

/-- `%0.3f` of a `double` that holds an integer (see above). -/
def fixed3 (n : Int) : List Byte := Spec.decimalInt n ++ [46, 48, 48, 48]

/-- `%-20s`: padded on the right with blanks to 20 characters, never cut. -/
def pad20 (s : List Byte) : List Byte := s ++ List.replicate (20 - s.length) 32

/-- The `fprintf` of `tim_print_timer`, maa/timer.c:211-215: `"%-20s %0.3fr %0.3fu %0.3fs\n"`. -/
def format (name : List Byte) (real user system : Int) : List Byte :=
  pad20 name ++ [32] ++ fixed3 real ++ [114, 32] ++ fixed3 user ++ [117, 32] ++ fixed3 system ++ [115, 10]

/-- `tim_print_timer`, maa/timer.c:209-216: the text written.  The order in which the three values are fetched is unspecified in C;
it makes no difference. -/
def timPrintTimer (σ : State) (name : Option (List Byte)) : Res (State × List Byte) :=
  (timGetReal σ name).bind fun r =>
  (timGetUser r.1 name).bind fun u =>
  (timGetSystem u.1 name).bind fun s =>
  (NameTab.argKey name).bind fun n => .ok (s.1, format n r.2 u.2 s.2)

/-- What the getters (maa/timer.c:129-204) do with the result of `hsh_retrieve`, inside the callback: an abort ends the program, here:
ends the iteration with the outcome in the callback's state. -/
def withEntry {O : Type} (mem : Nat → Option Entry) (r : Spec.Ret) (k : Entry → Spec.Calls O Spec.Ret (Res (List Byte))) :
    Spec.Calls O Spec.Ret (Res (List Byte)) :=
  match r with
  | .int _ => .ret .ub 1
  | .ptr p =>
    if p = 0 then .ret .abort 1
    else
      match mem p with
      | none => .ret .ub 1
      | some e => k e

/-- `_tim_iterator`, maa/timer.c:218-224: `tim_print_timer` on the key, which looks the timer up three times in the table being
iterated over. -/
def timIterator (mem : Nat → Option Entry) (out : Res (List Byte)) (p : List Byte × Ptr) :
    Spec.Calls (Spec.HashOp (List Byte)) Spec.Ret (Res (List Byte)) :=
  .call (.retrieve p.1) fun r => withEntry mem r fun e1 =>
  .call (.retrieve p.1) fun r => withEntry mem r fun e2 =>
  .call (.retrieve p.1) fun r => withEntry mem r fun e3 =>
    .ret (out.bind fun out =>
      .ok (out ++ format p.1 e1.real (e2.self_user + e2.children_user) (e3.self_system + e3.children_system))) 0

/-- `tim_print_timers`, maa/timer.c:228-231: the text written. -/
def timPrintTimers (σ : State) : Res (State × List Byte) :=
  match σ.hash with
  | none => .ok (σ, [])
  | some t =>
    (NameTab.iterate t (timIterator σ.mem) (.ok [])).bind fun q =>
    q.2.1.bind fun out => .ok ({ σ with hash := some q.1 }, out)

/-- `_tim_freer`, maa/timer.c:233-237: freeing memory that is not allocated is undefined. -/
def timFreer (mem : Res (Nat → Option Entry)) (p : List Byte × Ptr) : Res (Nat → Option Entry) :=
  mem.bind fun mem =>
    match mem p.2 with
    | none => .ub
    | some _ => .ok fun q => if q = p.2 then none else mem q

/-- `_tim_shutdown`, maa/timer.c:243-250. -/
def timShutdown (σ : State) : Res State :=
  match σ.hash with
  | none => .ok { σ with hash := none }
  | some t =>
    (NameTab.iterate t (NameTab.quiet timFreer) (.ok σ.mem)).bind fun q =>
    q.2.1.bind fun mem =>
    (NameTab.destroy q.1).bind fun _ => .ok { σ with hash := none, mem := mem }

/-- One call (dispatch only; maa/timer.c:54-250). -/
def step (σ : State) : Spec.TimOp → Res (State × Int)
  | .start name r => (timStart σ (name.map CStr.ofStr) r).bind fun σ => .ok (σ, 0)
  | .stop name r => (timStop σ (name.map CStr.ofStr) r).bind fun σ => .ok (σ, 0)
  | .reset name => (timReset σ (name.map CStr.ofStr)).bind fun σ => .ok (σ, 0)
  | .getReal name => timGetReal σ (name.map CStr.ofStr)
  | .getUser name => timGetUser σ (name.map CStr.ofStr)
  | .getSystem name => timGetSystem σ (name.map CStr.ofStr)
  | .shutdown => (timShutdown σ).bind fun σ => .ok (σ, 0)

end Maa.Timer
