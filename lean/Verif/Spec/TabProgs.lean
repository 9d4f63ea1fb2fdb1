import Verif.Spec.Tables
import Verif.Spec.SetProgs

/-! # Programs with hash tables

A program makes calls on its hash tables, walks over them (`hsh_iterate` with a function of its own, or the macro `HSH_ITERATE`), also
inside the body of another walk, and decides what to do next by what it has seen.  Its own variables are a value of type `σ`. -/

namespace Maa.Spec

variable {K σ : Type}

/-- A program.  `ret`: end with the variables and a result; `call`: make a call and go on with its result; `walk` (`hsh_iterate`) and `loop`
(`HSH_ITERATE`): walk over table `i`, `f` being the body (it gets the variables, a key and its datum, and leaves the walk with a non-zero
result), and go on with the variables and 1 if the walk was left, 0 if it was complete. -/
inductive TabProg (K σ : Type) where
  | ret (st : σ) (r : Int)
  | call (o : TabOp K) (k : Ret → TabProg K σ)
  | walk (i : Nat) (st : σ) (f : σ → K × Nat → TabProg K σ) (k : σ → Int → TabProg K σ)
  | loop (i : Nat) (st : σ) (f : σ → K × Nat → TabProg K σ) (k : σ → Int → TabProg K σ)

/-- How a program can end: the tables, its variables and its result, or one of the ways of not returning. -/
abbrev TabOut (K σ : Type) := Res (Tables K × σ × Int)

/-- A walk in progress: the table, and for `hsh_iterate` the pairs still to come (`none` for `HSH_ITERATE`). -/
abbrev Walk (K : Type) := Nat × Option (List (K × Nat))

/-- The call neither inserts into table `i` nor destroys it, and neither deletes nor looks up one of the keys in `rest`. -/
def Spares (eq : K → K → Bool) (rest : List (K × Nat)) (i : Nat) : TabOp K → Prop
  | .create _ _ => True
  | .call j (.insert _ _) => j ≠ i
  | .call j (.delete k) => j = i → rest.any (fun p => eq p.1 k) = false
  | .call j (.retrieve k) => j = i → rest.any (fun p => eq p.1 k) = false
  | .call _ (.readonly _) => True
  | .destroy j => j ≠ i

/-- The rules for a call while a walk is in progress.  During `HSH_ITERATE` the table is read-only, and `hsh_readonly` must not be called on it.
During `hsh_iterate` the call must spare the pairs still to come, unless the table has been made read-only (then insertions, deletions and
destruction end the program, and lookups change nothing). -/
def Allowed (eq : Nat → K → K → Bool) (α : Tables K) (o : TabOp K) (w : Walk K) : Prop :=
  match w.2 with
  | none => ∀ f, o ≠ .call w.1 (.readonly f)
  | some rest => ∀ a, α.objs w.1 = some a → a.st.readonly ≠ 0 ∨ Spares (eq a.cmpFn) rest w.1 o

/-- Visit the listed pairs in order, up to a non-zero result of the body; the outcome satisfies `Q`.  The body is also told which pairs are
still to come. -/
def visitPairs (body : List (K × Nat) → σ → K × Nat → Tables K → (TabOut K σ → Prop) → Prop) :
    List (K × Nat) → Tables K → σ → (TabOut K σ → Prop) → Prop
  | [], α, st, Q => Q (.ok (α, st, 0))
  | p :: rest, α, st, Q => body rest st p α fun out => Then out Q fun q =>
      if q.2.2 ≠ 0 then Q (.ok (q.1, q.2.1, 1)) else visitPairs body rest q.1 q.2.1 Q

/-- Whatever the order of the pairs in the walks is, the program obeys the rules and ends with an outcome satisfying `Q`.  `eq c` is the
equality compare function `c` stands for, `rule` are the calls allowed at all, `L` the walks in progress.  Both kinds of walk visit the pairs
the table has at the start, each once.  `hsh_iterate` leaves the flag alone.  `HSH_ITERATE` makes the table read-only, and writable after a
complete walk; left early it leaves the table read-only, and on an empty table it does nothing.  It must not be used on a table over which
another `HSH_ITERATE` is in progress. -/
def Ensured (eq : Nat → K → K → Bool) (rule : TabOp K → Prop) : List (Walk K) → TabProg K σ → Tables K → (TabOut K σ → Prop) → Prop
  | _, .ret st r, α, Q => Q (.ok (α, st, r))
  | L, .call o k, α, Q => rule o ∧ (∀ w ∈ L, Allowed eq α o w) ∧
      Then (tabStep eq α o) Q fun q => Ensured eq rule L (k q.2) q.1 Q
  | L, .walk i st f k, α, Q => Then (α.get i) Q fun a => ∀ order : List (K × Nat), order.Perm a.st.map →
      visitPairs (fun rest st p => Ensured eq rule ((i, some rest) :: L) (f st p)) order α st fun out =>
        Then out Q fun q => Ensured eq rule L (k q.2.1 q.2.2) q.1 Q
  | L, .loop i st f k, α, Q => (i, none) ∉ L ∧ Then (α.get i) Q fun a => ∀ order : List (K × Nat), order.Perm a.st.map →
      if order = [] then Ensured eq rule L (k st 0) α Q else
      visitPairs (fun _ st p => Ensured eq rule ((i, none) :: L) (f st p)) order (α.lock i 1) st fun out =>
        Then out Q fun q => Ensured eq rule L (k q.2.1 q.2.2) (if q.2.2 = 0 then q.1.lock i 0 else q.1) Q

end Maa.Spec
