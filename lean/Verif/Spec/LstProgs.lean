import Verif.Spec.Lists
import Verif.Spec.SetProgs

/-! # Programs with lists

A program makes calls on its lists, walks over them (`lst_iterate` with a function of its own, or the macros `LST_ITERATE` and
`LST_ITERATE2`), also inside the body of another walk, and decides what to do next by what it has seen.  Its own variables are a value of
type `σ`. -/

namespace Maa.Spec

variable {σ : Type}

/-- A program.  `ret`: end with the variables and a result; `call`: make a call and go on with its result; `walk` (`lst_iterate`): walk over
list `i`, `f` being the body (it gets the variables and a datum, and leaves the walk with a non-zero result), and go on with the variables
and 1 if the walk was left, 0 if it was complete; `loop` (`LST_ITERATE`): the same, the body also gets the position; `loop2`
(`LST_ITERATE2`): walk over lists `i` and `j` side by side. -/
inductive LstProg (σ : Type) where
  | ret (st : σ) (r : Int)
  | call (o : LstOp) (k : Nat → LstProg σ)
  | walk (i : Nat) (st : σ) (f : σ → Nat → LstProg σ) (k : σ → Int → LstProg σ)
  | loop (i : Nat) (st : σ) (f : σ → Nat × Nat → LstProg σ) (k : σ → Int → LstProg σ)
  | loop2 (i j : Nat) (st : σ) (f : σ → Nat × Nat → Nat × Nat → LstProg σ) (k : σ → Int → LstProg σ)

/-- How a program can end: the lists, its variables and its result, or one of the ways of not returning. -/
abbrev LstOut (σ : Type) := Res (Lists × σ × Int)

/-- The element at position `p` has datum `d`, and `next` is the position of the element after it in the same list (NULL: the last). -/
def Lists.At (S : Lists) (p d next : Nat) : Prop := ∃ i before after, S.lists i = some (before ++ (p, d) :: after) ∧ next = firstPos after

/-- A walk that has come to position `p` visits the element there, then the element after it (after it in the list as the body left it),
and so on up to the end of the list or a non-zero result of the body, after at most `n` elements.  The outcome satisfies `Q`.  The body must
not remove the element it is visiting, unless it leaves the walk. -/
def walkFrom (body : σ → Nat × Nat → Lists → (LstOut σ → Prop) → Prop) : Nat → Nat → Lists → σ → (LstOut σ → Prop) → Prop
  | n, p, S, st, Q =>
    if p = 0 then Q (.ok (S, st, 0))
    else match n with
      | 0 => False
      | n + 1 => ∃ d next, S.At p d next ∧ body st (p, d) S fun out => Then out Q fun q =>
          if q.2.2 ≠ 0 then Q (.ok (q.1, q.2.1, 1))
          else ∃ d next, q.1.At p d next ∧ walkFrom body n next q.1 q.2.1 Q

/-- A walk over two lists side by side: as `walkFrom`, up to the end of the shorter list. -/
def walkFrom2 (body : σ → Nat × Nat → Nat × Nat → Lists → (LstOut σ → Prop) → Prop) :
    Nat → Nat → Nat → Lists → σ → (LstOut σ → Prop) → Prop
  | n, p, p', S, st, Q =>
    if p = 0 ∨ p' = 0 then Q (.ok (S, st, 0))
    else match n with
      | 0 => False
      | n + 1 => ∃ d next d' next', S.At p d next ∧ S.At p' d' next' ∧ body st (p, d) (p', d') S fun out => Then out Q fun q =>
          if q.2.2 ≠ 0 then Q (.ok (q.1, q.2.1, 1))
          else ∃ d next d' next', q.1.At p d next ∧ q.1.At p' d' next' ∧ walkFrom2 body n next next' q.1 q.2.1 Q

/-- List `i`, on which a walk is about to start: NULL aborts, any other list must exist. -/
def Lists.enter (S : Lists) (i : Nat) (Q : LstOut σ → Prop) (P : List (Nat × Nat) → Prop) : Prop :=
  if i = 0 then Q .abort else ∃ l, S.lists i = some l ∧ P l

/-- `lst_truncate(i, n)` is only used where it works (C19): with length 0 or 1, or when there is nothing to remove. -/
def Lists.TruncateWorks (S : Lists) : LstOp → Prop
  | .truncate i n => n ≤ 1 ∨ ∀ l, S.lists i = some l → l.length ≤ n
  | _ => True

/-- The program obeys the rules and ends with an outcome satisfying `Q`, whatever positions new elements get.  Every call has a documented
meaning, and no walk visits an element that its body has removed from the lists. -/
def LstEnsured : LstProg σ → Lists → (LstOut σ → Prop) → Prop
  | .ret st r, S, Q => Q (.ok (S, st, r))
  | .call o k, S, Q => ¬ S.Undefined o ∧ S.TruncateWorks o ∧
      ∀ r, S.Allowed r o → Then r Q fun q => LstEnsured (k q.2) q.1 Q
  | .walk i st f k, S, Q => S.enter i Q fun l => ∃ n, walkFrom (fun st c => LstEnsured (f st c.2)) n (firstPos l) S st fun out =>
      Then out Q fun q => LstEnsured (k q.2.1 q.2.2) q.1 Q
  | .loop i st f k, S, Q => S.enter i Q fun l => ∃ n, walkFrom (fun st c => LstEnsured (f st c)) n (firstPos l) S st fun out =>
      Then out Q fun q => LstEnsured (k q.2.1 q.2.2) q.1 Q
  | .loop2 i j st f k, S, Q => S.enter i Q fun l => S.enter j Q fun l' => ∃ n,
      walkFrom2 (fun st c c' => LstEnsured (f st c c')) n (firstPos l) (firstPos l') S st fun out =>
        Then out Q fun q => LstEnsured (k q.2.1 q.2.2) q.1 Q

end Maa.Spec
