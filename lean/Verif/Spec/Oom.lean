import Verif.Spec.Run

/-! # What should happen when memory runs out

The C library numbers the requests for memory of a program 0, 1, 2, ...; `fails n` says that it answers NULL to request number `n`. -/

namespace Maa.Spec

variable {S X : Type}

/-- `got` is what a program did (the number of requests it made is part of its final state), `want` what it should do with enough memory.
The program ended with a message at the first request that was refused, or none of its requests was refused and it did what it should. -/
def OrderlyEnd (fails : Nat → Bool) (got : Res ((S × Nat) × List X)) (want : Res (List X)) : Prop :=
  ∃ m, (∀ k, k < m → fails k = false) ∧
    ((fails m = true ∧ got = .fatal) ∨ (observe got = want ∧ ∀ s n xs, got = .ok ((s, n), xs) → n = m))

/-- The same, but at the first request that was refused the program may also have run into undefined behaviour. -/
def EndsAtFailure (fails : Nat → Bool) (got : Res ((S × Nat) × List X)) (want : Res (List X)) : Prop :=
  ∃ m, (∀ k, k < m → fails k = false) ∧
    ((fails m = true ∧ (got = .fatal ∨ got = .ub)) ∨ (observe got = want ∧ ∀ s n xs, got = .ok ((s, n), xs) → n = m))

/-- The same for a single call of a program that has made no request yet: `got` with the number of its requests, `want` with enough memory. -/
def CallEnds (fails : Nat → Bool) (got : Res (S × Nat)) (want : Res S) : Prop :=
  ∃ m, (∀ k, k < m → fails k = false) ∧
    ((fails m = true ∧ (got = .fatal ∨ got = .ub)) ∨ got = want.bind fun s => .ok (s, m))

/-- Likewise with a message only. -/
def CallEndsOrderly (fails : Nat → Bool) (got : Res (S × Nat)) (want : Res S) : Prop :=
  ∃ m, (∀ k, k < m → fails k = false) ∧ ((fails m = true ∧ got = .fatal) ∨ got = want.bind fun s => .ok (s, m))

/-- Enough memory for `N` requests, and no more. -/
def onlyFirst (N : Nat) : Nat → Bool := fun k => decide (N ≤ k)

end Maa.Spec
