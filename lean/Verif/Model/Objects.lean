import Verif.Model.Heap
import Verif.Spec.Objects

/-! # Model of the object pools of maa/memory.c

`α × Nat` is the contents of one object; `Heap` is the memory `xmalloc` and `xfree` manage.  The two
stacks of a pool are lists, top first: that maa/stack.c behaves so is C17.  The `int` counters are
integers without overflow (simplification). -/

namespace Maa.Objects

variable {α : Type}

/-- `struct objectInfo`, maa/memory.c:46-55. -/
structure Pool where
  total : Int
  used : Int
  reused : Int
  size : Int
  free : List Nat
  allocated : List Nat

/-- `mem_create_objects`, maa/memory.c:257-272. -/
def create (size : Int) : Pool :=
  { total := 0, used := 0, reused := 0, size := size, free := [], allocated := [] }

/-- `mem_get_object`, maa/memory.c:303-321.  `junk` is what newly allocated memory happens to contain. -/
def getObject (junk : α × Nat) (h : Heap α) (i : Pool) : Heap α × Pool × Nat :=
  -- obj = stk_pop(i->stack)
  let obj := i.free.headD 0
  let i := { i with free := i.free.tail }
  if obj = 0 then
    let r := h.alloc junk
    (r.1, { i with allocated := r.2 :: i.allocated, total := i.total + 1, used := i.used + 1 }, r.2)
  else (h, { i with reused := i.reused + 1, used := i.used + 1 }, obj)

/-- `mem_get_empty_object`, maa/memory.c:326-334; `zero` is an object of all zero bytes. -/
def getEmptyObject (zero junk : α × Nat) (h : Heap α) (i : Pool) : Res (Heap α × Pool × Nat) :=
  let r := getObject junk h i
  (r.1.write r.2.2 zero).bind fun h' => .ok (h', r.2.1, r.2.2)

/-- `mem_free_object`, maa/memory.c:341-349. -/
def freeObject (i : Pool) (obj : Nat) : Pool := { i with free := obj :: i.free, used := i.used - 1 }

/-- The loop of `mem_destroy_objects`, maa/memory.c:288-290: `xfree` of every allocated object. -/
def destroyLoop : List Nat → Heap α → Res (Heap α)
  | [], h => .ok h
  | p :: ps, h => (h.free p).bind fun h' => destroyLoop ps h'

/-- `mem_destroy_objects`, maa/memory.c:279-295. -/
def destroy (h : Heap α) (i : Pool) : Res (Heap α) := destroyLoop i.allocated h

/-- `mem_get_object_stats`, maa/memory.c:355-375: total, used, reused, size. -/
def stats (i : Pool) : Int × Int × Int × Int := (i.total, i.used, i.reused, i.size)

/-- One call (dispatch only; maa/memory.c:303-349). -/
def step (zero junk : α × Nat) (s : Heap α × Pool) : Spec.ObjOp → Res ((Heap α × Pool) × Nat)
  | .get => let r := getObject junk s.1 s.2; .ok ((r.1, r.2.1), r.2.2)
  | .getEmpty => (getEmptyObject zero junk s.1 s.2).bind fun r => .ok ((r.1, r.2.1), r.2.2)
  | .free p => .ok ((s.1, freeObject s.2 p), 0)

end Maa.Objects
