/-!
# Common vocabulary of the model

`Res α` is the outcome of a C function call.  It makes every way a libmaa call can end visible:

* `ok a`    — normal return with (new state and) result `a`;
* `abort`   — `err_internal` (maa/error.c:171-204), `assert` failure or `abort()`: SIGABRT;
* `fatal`   — `err_fatal` / `err_fatal_errno` (maa/error.c:71-135): message and `exit(1)`;
* `ub`      — undefined behaviour in the C program (NULL dereference, out-of-bounds access,
              signed overflow, use after free).  Nothing is assumed about what happens next.
-/

namespace Maa

/-- Outcome of a C call.  Models the three non-returning paths of maa/error.c:71-204 and undefined
behaviour. -/
inductive Res (α : Type u) where
  | ok (a : α)
  | abort
  | fatal
  | ub
  deriving DecidableEq, Repr

namespace Res

/-- Sequencing: a call that does not return normally ends the computation. -/
@[inline] def bind {α : Type u} {β : Type v} (x : Res α) (f : α → Res β) : Res β :=
  match x with
  | ok a => f a
  | abort => abort
  | fatal => fatal
  | ub => ub

instance : Monad Res where
  pure := ok
  bind := bind

/-- The call ran into undefined behaviour. -/
def isUb {α : Type u} : Res α → Bool
  | ub => true
  | _ => false

theorem eq_ub_of {α : Type u} {x : Res α} (h : x.isUb = true) : x = ub := by
  cases x <;> simp [isUb] at h ⊢

@[simp] theorem pure_eq {α : Type u} (a : α) : (pure a : Res α) = ok a := rfl
@[simp] theorem bind_ok {α β : Type u} (a : α) (f : α → Res β) : (ok a >>= f) = f a := rfl
@[simp] theorem bind_abort {α β : Type u} (f : α → Res β) : ((abort : Res α) >>= f) = abort := rfl
@[simp] theorem bind_fatal {α β : Type u} (f : α → Res β) : ((fatal : Res α) >>= f) = fatal := rfl
@[simp] theorem bind_ub {α β : Type u} (f : α → Res β) : ((ub : Res α) >>= f) = ub := rfl

theorem bind_eq_ok {α β : Type u} {x : Res α} {f : α → Res β} {b : β} :
    (x >>= f) = ok b ↔ ∃ a, x = ok a ∧ f a = ok b := by
  cases x <;> simp

end Res

end Maa
