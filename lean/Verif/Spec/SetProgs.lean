import Verif.Spec.Sets

/-! # Programs with sets

A program makes calls on its sets, walks over sets (`set_iterate` with a function of its own, or the macro
`SET_ITERATE`), also inside the body of another walk, and decides what to do next by what it has seen.  Its own variables
are a value of type `σ`. -/

namespace Maa.Spec

variable {K σ : Type}

/-- A program.  `ret`: end with the variables and a result; `call`: make a call and go on with its result; `iterate` and `loop`: walk over
set `i`, `f` being the body (it gets the variables and an element, and leaves the walk with a non-zero result), and go on with the
variables and 1 if the walk was left, 0 if it was complete. -/
inductive SetProg (K σ : Type) where
  | ret (st : σ) (r : Int)
  | call (o : SetOp K) (k : Int → SetProg K σ)
  | iterate (i : Nat) (st : σ) (f : σ → K → SetProg K σ) (k : σ → Int → SetProg K σ)
  | loop (i : Nat) (st : σ) (f : σ → K → SetProg K σ) (k : σ → Int → SetProg K σ)

/-- How a program can end: the sets, its variables and its result, or one of the ways of not returning. -/
abbrev SetOut (K σ : Type) := Res (AStore K × σ × Int)

/-- Go on with `P` after a normal return, else the way of not returning is the outcome. -/
def Then {α β : Type} (x : Res α) (Q : Res β → Prop) (P : α → Prop) : Prop :=
  match x with
  | .ok a => P a
  | .abort => Q .abort
  | .fatal => Q .fatal
  | .ub => Q .ub

/-- Set the read-only flag of set `i`. -/
def AStore.lock (α : AStore K) (i : Nat) (flag : Int) : AStore K :=
  match α.objs i with
  | some a => α.put i (some { a with readonly := flag })
  | none => α

/-- Visit the listed elements in order, up to a non-zero result of the body; the outcome satisfies `Q`. -/
def visitAll (body : σ → K → AStore K → (SetOut K σ → Prop) → Prop) : List K → AStore K → σ → (SetOut K σ → Prop) → Prop
  | [], α, st, Q => Q (.ok (α, st, 0))
  | e :: es, α, st, Q => body st e α fun out => Then out Q fun q =>
      if q.2.2 ≠ 0 then Q (.ok (q.1, q.2.1, 1)) else visitAll body es q.1 q.2.1 Q

/-- Whatever the order of the elements in the walks is, the program obeys the rules and ends with an outcome satisfying `Q`.
`eq c` is the equality compare function `c` stands for, `rule` are the calls allowed, `L` the sets being walked over.  The rules: the
read-only flag of a set being walked over is not switched by `set_readonly`, and no `SET_ITERATE` walks over a set that is being walked
over already.  During a walk its set is read-only; afterwards `set_iterate` restores the flag found at its start, while `SET_ITERATE`
makes the set writable after a complete walk, leaves it read-only when left early, and does nothing to an empty set. -/
def Ensures (eq : Nat → K → K → Bool) (rule : SetOp K → Prop) : List Nat → SetProg K σ → AStore K → (SetOut K σ → Prop) → Prop
  | _, .ret st r, α, Q => Q (.ok (α, st, r))
  | L, .call o k, α, Q => rule o ∧ (∀ i ∈ L, ∀ f, o ≠ .readonly i f) ∧
      Then (setStep eq α o) Q fun q => Ensures eq rule L (k q.2) q.1 Q
  | L, .iterate i st f k, α, Q => Then (α.get i) Q fun a => ∀ order : List K, order.Perm a.elems →
      visitAll (fun st e => Ensures eq rule (i :: L) (f st e)) order (α.lock i 1) st fun out =>
        Then out Q fun q => Ensures eq rule L (k q.2.1 q.2.2) (q.1.lock i a.readonly) Q
  | L, .loop i st f k, α, Q => i ∉ L ∧ Then (α.get i) Q fun a => ∀ order : List K, order.Perm a.elems →
      if order = [] then Ensures eq rule L (k st 0) α Q else
      visitAll (fun st e => Ensures eq rule (i :: L) (f st e)) order (α.lock i 1) st fun out =>
        Then out Q fun q => Ensures eq rule L (k q.2.1 q.2.2) (if q.2.2 = 0 then q.1.lock i 0 else q.1) Q

end Maa.Spec
