import Verif.Model.Flags
import Verif.Spec.Borrowed
import Verif.Model.Timer

/-! # Tables of names whose keys stay in the caller's memory

`hsh_insert` stores the pointer it is given (maa/hash.c:200), and the string callbacks read the string again every time they
are called.  flags.c, debug.c and timer.c hand the caller's pointer through (maa/flags.c:103, maa/debug.c:103,
maa/timer.c:67).  Model/NameTab.lean keeps the characters instead; here the keys are pointers, and every call comes with the
caller's memory as it is during that call. -/

namespace Maa.Borrowed

open HashHeap (HState HTab hpush hgrow setSlot)
open Tab (Entry)

/-- The caller's memory: the bytes that can be read from an address on; `none` where nothing is allocated. -/
abbrev Mem := Ptr → Option (List Byte)

/-- The string at an address, as the callbacks see it, maa/hash.c:486-490,532-536: NULL aborts; otherwise the bytes before the first NUL.
(Simplification: `strcmp` is taken to look for the end of both strings even when they differ earlier.) -/
def text (m : Mem) (p : Ptr) : Res (List Byte) :=
  if p = 0 then .abort else
    match m p with
    | none => .ub
    | some buf => CStr.cstr buf

/-- A table whose keys are pointers to strings. -/
abbrev Table := HState Ptr Ptr

/-- The search loops, maa/hash.c:256-257,280-281,313-314, with `hsh_string_compare` reading the stored key in the caller's memory. -/
def findLoop (m : Mem) (key : List Byte) : Nat → Heap (Entry Ptr Ptr) → Nat → Nat → Res (Option (Nat × Nat × Entry Ptr Ptr × Nat))
  | 0, _, _, _ => .ub
  | n + 1, h, prev, pt =>
    if pt = 0 then .ok none
    else (h.read pt).bind fun c =>
      (text m c.1.key).bind fun s =>
        if CStr.strcmp s key == 0 then .ok (some (prev, pt, c))
        else findLoop m key n h pt c.2

/-- `hsh_insert`, maa/hash.c:216-262. -/
def insert (m : Mem) (t : Table) (key : Ptr) (datum : Ptr) : Res (Table × Int) :=
  (text m key).bind fun s =>
  let hashValue := CStr.strHashLoop 0 s
  if t.2.readonly ≠ 0 then .abort else
    (hgrow t.1 t.2).bind fun r =>
      if r.2.prime = 0 then .ub else
        (findLoop m s r.1.clock r.1 0 (r.2.buckets (hashValue % r.2.prime))).bind fun f =>
          match f with
          | some _ => .ok (r, 1)
          | none => .ok (hpush r.1 r.2 { key := key, hash := hashValue, datum := datum }, 0)

/-- `hsh_delete`, maa/hash.c:268-294. -/
def delete (m : Mem) (t : Table) (key : Ptr) : Res (Table × Int) :=
  (text m key).bind fun k =>
  if t.2.prime = 0 then .ub else
    let s := CStr.strHashLoop 0 k % t.2.prime
    if t.2.readonly ≠ 0 then .abort else
      (findLoop m k t.1.clock t.1 0 (t.2.buckets s)).bind fun f =>
        match f with
        | none => .ok (t, 1)
        | some (prev, pt, c) =>
          if prev = 0 then
            (t.1.free pt).bind fun h' =>
              .ok ((h', { t.2 with entries := t.2.entries - 1, buckets := setSlot t.2.buckets s c.2 }), 0)
          else
            (t.1.read prev).bind fun pc =>
              (t.1.write prev (pc.1, c.2)).bind fun h1 =>
                (h1.free pt).bind fun h2 => .ok ((h2, { t.2 with entries := t.2.entries - 1 }), 0)

/-- `hsh_retrieve`, maa/hash.c:300-329, the argument (which is not kept) read. -/
def retrieveKey (m : Mem) (t : Table) (k : List Byte) : Res (Table × Ptr) :=
  if t.2.prime = 0 then .ub else
    let s := CStr.strHashLoop 0 k % t.2.prime
    let ht := { t.2 with retrievals := t.2.retrievals + 1 }
    (findLoop m k t.1.clock t.1 0 (ht.buckets s)).bind fun f =>
      match f with
      | none => .ok ((t.1, { ht with misses := ht.misses + 1 }), 0)
      | some (prev, pt, c) =>
        if prev = 0 then .ok ((t.1, { ht with hits := ht.hits + 1 }), c.1.datum)
        else if ht.readonly = 0 then
          (t.1.read prev).bind fun pc =>
            (t.1.write prev (pc.1, c.2)).bind fun h1 =>
              (h1.write pt (c.1, ht.buckets s)).bind fun h2 =>
                .ok ((h2, { ht with buckets := setSlot ht.buckets s pt }), c.1.datum)
        else .ok ((t.1, ht), c.1.datum)

/-- `hsh_retrieve`, maa/hash.c:300-329. -/
def retrieve (m : Mem) (t : Table) (key : Ptr) : Res (Table × Ptr) := (text m key).bind fun k => retrieveKey m t k

/-- `hsh_create(NULL, NULL)`, maa/hash.c:127-133. -/
def create : Res Table := (HashHeap.hcreate 0).bind fun t => .ok (Heap.init, t)

/-- `hsh_destroy(t)`, maa/hash.c:174-181: no key is read. -/
def destroy (t : Table) : Res Unit := (HashHeap.hdestroy t.1 t.2).bind fun _ => .ok ()

/-- One call on a table of strings, with the caller's memory during that call (dispatch only; maa/hash.c:216-329,617-627). -/
def tabStep (t : Table) (o : Mem × Spec.HashOp Ptr) : Res (Table × Spec.Ret) :=
  match o.2 with
  | .insert k d => (insert o.1 t k d).bind fun r => .ok (r.1, .int r.2)
  | .delete k => (delete o.1 t k).bind fun r => .ok (r.1, .int r.2)
  | .retrieve k => (retrieve o.1 t k).bind fun r => .ok (r.1, .ptr r.2)
  | .readonly f => .ok ((t.1, { t.2 with readonly := f }), .int t.2.readonly)

/-- The static variables of flags.c and debug.c, maa/flags.c:47-49, maa/debug.c:48-50. -/
structure State where
  hash : Option Table
  setFlags : Nat → BitVec 64
  usedFlags : Nat → BitVec 64

/-- Their values at program start. -/
def State.init : State := { hash := none, setFlags := fun _ => 0, usedFlags := fun _ => 0 }

/-- `setFlags[ flag >> 30 ] |= flag`, maa/flags.c:138,143, maa/debug.c:154,158. -/
def orFlag (σ : State) (flag : BitVec 64) : Res State :=
  (Flags.index flag).bind fun i => .ok { σ with setFlags := fun j => if j = i then σ.setFlags j ||| flag else σ.setFlags j }

/-- `setFlags[ flag >> 30 ] &= ~flag`, maa/flags.c:139, maa/debug.c:155. -/
def clearFlag (σ : State) (flag : BitVec 64) : Res State :=
  (Flags.index flag).bind fun i => .ok { σ with setFlags := fun j => if j = i then σ.setFlags j &&& ~~~flag else σ.setFlags j }

/-- `if (!hash) hash = hsh_create(NULL, NULL)`, maa/flags.c:93, maa/debug.c:93. -/
def needHash (σ : State) : Res Table :=
  match σ.hash with
  | some t => .ok t
  | none => create

/-- `flg_register`, maa/flags.c:82-104, and `_dbg_register`, maa/debug.c:82-104: the pointer `name` goes into the table. -/
def register (m : Mem) (σ : State) (flag : BitVec 64) (name : Ptr) : Res State :=
  let tmp := Flags.strip 64 (flag &&& 0x3fffffff)
  if tmp = 0 ∨ tmp >>> 1 ≠ 0 then .fatal else
    (needHash σ).bind fun t =>
      if Flags.test flag σ.usedFlags ≠ 0 then .fatal else
        (insert m t name flag.toNat).bind fun r => .ok { σ with hash := some r.1 }

/-- `flg_set`, maa/flags.c:109-145; `name + 1` holds the rest of the string.  (Simplification: the list of valid flags printed before the fatal
end is left out, here and in `dbgSet`.) -/
def flgSet (m : Mem) (σ : State) (name : Ptr) : Res State :=
  if name = 0 then .abort else
    match σ.hash with
    | none => .fatal
    | some t =>
      (text m name).bind fun s =>
      if s = Spec.noneName then .ok { σ with setFlags := fun _ => 0 } else
      if s = Spec.allName then .ok { σ with setFlags := fun _ => BitVec.allOnes 64 } else
      (retrieveKey m t s).bind fun r =>
        let σ := { σ with hash := some r.1 }
        if r.2 = 0 then
          match s with
          | [] => .fatal
          | c :: rest =>
            if c ≠ 45 ∧ c ≠ 43 then .fatal else
            (retrieveKey m r.1 rest).bind fun q =>
              let σ := { σ with hash := some q.1 }
              if q.2 = 0 then .fatal
              else if c = 43 then orFlag σ (BitVec.ofNat 64 q.2) else clearFlag σ (BitVec.ofNat 64 q.2)
        else orFlag σ (BitVec.ofNat 64 r.2)

/-- `dbg_set`, maa/debug.c:128-160; on an empty string that is not a key `name + 1` lies behind its end. -/
def dbgSet (m : Mem) (σ : State) (name : Ptr) : Res State :=
  if name = 0 then .abort else
    match σ.hash with
    | none => .fatal
    | some t =>
      (text m name).bind fun s =>
      if s = Spec.noneName then .ok { σ with setFlags := fun _ => 0 } else
      if s = Spec.allName then .ok { σ with setFlags := fun _ => BitVec.allOnes 64 } else
      (retrieveKey m t s).bind fun r =>
        let σ := { σ with hash := some r.1 }
        if r.2 = 0 then
          match s with
          | [] => .ub
          | c :: rest =>
            (retrieveKey m r.1 rest).bind fun q =>
              let σ := { σ with hash := some q.1 }
              if q.2 = 0 ∧ c ≠ 45 ∧ c ≠ 43 then .fatal
              else if c = 43 then orFlag σ (BitVec.ofNat 64 q.2) else clearFlag σ (BitVec.ofNat 64 q.2)
        else orFlag σ (BitVec.ofNat 64 r.2)

/-- `flg_destroy`, maa/flags.c:160-166, `dbg_destroy`, maa/debug.c:191-197. -/
def destroyAll (σ : State) : Res State :=
  (match σ.hash with
    | none => Res.ok ()
    | some t => destroy t).bind fun _ => .ok State.init

/-- One call on flags.c, with the caller's memory during that call (dispatch only; maa/flags.c:82-166). -/
def flgStep (σ : State) (o : Mem × Spec.FlgCall) : Res (State × Bool) :=
  match o.2 with
  | .register f name => (register o.1 σ f name).bind fun σ => .ok (σ, false)
  | .set name => (flgSet o.1 σ name).bind fun σ => .ok (σ, false)
  | .test f => .ok (σ, Flags.test f σ.setFlags != 0)
  | .destroy => (destroyAll σ).bind fun σ => .ok (σ, false)

/-- One call on debug.c (dispatch only; maa/debug.c:82-197). -/
def dbgStep (σ : State) (o : Mem × Spec.DbgCall) : Res (State × Bool) :=
  match o.2 with
  | .register f name =>
    (if f &&& 0xc0000000 = 0xc0000000 then .fatal else register o.1 σ f name).bind fun σ => .ok (σ, false)
  | .registerInternal f name => (register o.1 σ f name).bind fun σ => .ok (σ, false)
  | .set name => (dbgSet o.1 σ name).bind fun σ => .ok (σ, false)
  | .setFlag f => (orFlag σ f).bind fun σ => .ok (σ, false)
  | .unsetFlag f => (clearFlag σ f).bind fun σ => .ok (σ, false)
  | .test f => .ok (σ, Flags.test f σ.setFlags != 0)
  | .destroy => (destroyAll σ).bind fun σ => .ok (σ, false)

/-- The static variable of timer.c, maa/timer.c:34, and the entries allocated, by address; the keys are the caller's pointers. -/
structure TimState where
  hash : Option Table
  mem : Nat → Option Timer.Entry
  fresh : Nat

/-- Program start. -/
def TimState.init : TimState := { hash := none, mem := fun _ => none, fresh := 1 }

/-- `_tim_check`, maa/timer.c:47-50; gives the table. -/
def timCheck (σ : TimState) : Res Table :=
  match σ.hash with
  | some t => .ok t
  | none => create

/-- `entry->…` through a pointer. -/
def timDeref (σ : TimState) (p : Nat) : Res Timer.Entry :=
  match σ.mem p with
  | none => .ub
  | some e => .ok e

/-- `entry->… = …` through a pointer. -/
def timStore (σ : TimState) (p : Nat) (e : Timer.Entry) : TimState := { σ with mem := fun q => if q = p then some e else σ.mem q }

/-- `tim_start`, maa/timer.c:54-73: the pointer `name` goes into the table. -/
def timStart (m : Mem) (σ : TimState) (name : Ptr) (r : Spec.Reading) : Res TimState :=
  (timCheck σ).bind fun t =>
  (retrieve m t name).bind fun q =>
    if q.2 = 0 then
      let p := σ.fresh
      let e : Timer.Entry := { real := 0, self_user := 0, self_system := 0, children_user := 0, children_system := 0, mark := r }
      (insert m q.1 name p).bind fun i => .ok (timStore { σ with hash := some i.1, fresh := p + 1 } p e)
    else
      (timDeref σ q.2).bind fun e => .ok (timStore { σ with hash := some q.1 } q.2 { e with mark := r })

/-- The look-up at the start of the other functions, e.g. maa/timer.c:87-92. -/
def timLookup (m : Mem) (σ : TimState) (name : Ptr) : Res (TimState × Nat) :=
  (timCheck σ).bind fun t =>
  (retrieve m t name).bind fun q =>
    if q.2 = 0 then .abort else .ok ({ σ with hash := some q.1 }, q.2)

/-- `tim_stop`, maa/timer.c:77-104. -/
def timStop (m : Mem) (σ : TimState) (name : Ptr) (r : Spec.Reading) : Res TimState :=
  (timLookup m σ name).bind fun q =>
  (timDeref q.1 q.2).bind fun e =>
    .ok (timStore q.1 q.2
      { e with
        real := Timer.difftime r.real e.mark.real
        self_user := Timer.difftime r.selfUser e.mark.selfUser
        self_system := Timer.difftime r.selfSystem e.mark.selfSystem
        children_user := Timer.difftime r.childUser e.mark.childUser
        children_system := Timer.difftime r.childSystem e.mark.childSystem })

/-- `tim_reset`, maa/timer.c:109-123. -/
def timReset (m : Mem) (σ : TimState) (name : Ptr) : Res TimState :=
  (timLookup m σ name).bind fun q =>
  (timDeref q.1 q.2).bind fun e =>
    .ok (timStore q.1 q.2 { e with real := 0, self_user := 0, self_system := 0, children_user := 0, children_system := 0 })

/-- `tim_get_real`, `tim_get_user`, `tim_get_system`, maa/timer.c:129-204: the value is that of `field`. -/
def timGet (m : Mem) (σ : TimState) (name : Ptr) (field : Timer.Entry → Int) : Res (TimState × Int) :=
  (timLookup m σ name).bind fun q => (timDeref q.1 q.2).bind fun e => .ok (q.1, field e)

/-- `_tim_freer`, maa/timer.c:233-237: the key is not read. -/
def timFreer (mem : Res (Nat → Option Timer.Entry)) (p : Ptr × Ptr) : Res (Nat → Option Timer.Entry) :=
  mem.bind fun mem =>
    match mem p.2 with
    | none => .ub
    | some _ => .ok fun q => if q = p.2 then none else mem q

/-- The inner loop of `hsh_iterate` with a callback that makes no calls, maa/hash.c:352-356. -/
def iterChain {σ : Type} (g : σ → Ptr × Ptr → σ) : Nat → Heap (Entry Ptr Ptr) → Nat → σ → Res σ
  | 0, _, _, _ => .ub
  | n + 1, h, pt, st =>
    if pt = 0 then .ok st
    else (h.read pt).bind fun c => iterChain g n h c.2 (g st (c.1.key, c.1.datum))

/-- `hsh_iterate` with a callback that makes no calls and always returns 0, maa/hash.c:338-359. -/
def iterate {σ : Type} (g : σ → Ptr × Ptr → σ) (t : Table) : List Nat → σ → Res σ
  | [], st => .ok st
  | i :: is, st => (iterChain g t.1.clock t.1 (t.2.buckets i) st).bind fun st => iterate g t is st

/-- `_tim_shutdown`, maa/timer.c:243-250. -/
def timShutdown (σ : TimState) : Res TimState :=
  match σ.hash with
  | none => .ok { σ with hash := none }
  | some t =>
    (iterate timFreer t (List.range t.2.prime) (.ok σ.mem)).bind fun out =>
    out.bind fun mem =>
    (destroy t).bind fun _ => .ok { σ with hash := none, mem := mem }

/-- One call on timer.c, with the caller's memory during that call (dispatch only; maa/timer.c:54-250). -/
def timStep (σ : TimState) (o : Mem × Spec.TimCall) : Res (TimState × Int) :=
  match o.2 with
  | .start name r => (timStart o.1 σ name r).bind fun σ => .ok (σ, 0)
  | .stop name r => (timStop o.1 σ name r).bind fun σ => .ok (σ, 0)
  | .reset name => (timReset o.1 σ name).bind fun σ => .ok (σ, 0)
  | .getReal name => timGet o.1 σ name fun e => e.real
  | .getUser name => timGet o.1 σ name fun e => e.self_user + e.children_user
  | .getSystem name => timGet o.1 σ name fun e => e.self_system + e.children_system
  | .shutdown => (timShutdown σ).bind fun σ => .ok (σ, 0)

end Maa.Borrowed
