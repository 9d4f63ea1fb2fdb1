import Verif.Model.HashHeap

/-! # Which cells belong to a table -/

namespace Maa.Spec

variable {α K D : Type}

/-- Following `next` pointers from `p` leads through the live cell `a`. -/
inductive Follows (h : Heap α) : Nat → Nat → Prop
  | here {p c} : p ≠ 0 → h.mem p = some c → Follows h p p
  | next {p c n a} : p ≠ 0 → h.mem p = some (c, n) → Follows h n a → Follows h p a

/-- Cell `a` is found in some chain of the table. -/
def InChains (h : Heap (Tab.Entry K D)) (t : HashHeap.HTab) (a : Nat) : Prop := ∃ k, k < t.prime ∧ Follows h (t.buckets k) a

end Maa.Spec
