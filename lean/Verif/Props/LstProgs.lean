import Verif.Lemmas.LstProgs
import Verif.Props.Lists

/-! # Property C76: programs that walk over lists while working on them -/

namespace Maa.Lst

open Spec (Lists LstOp LstProg LstOut LstEnsured firstPos)

variable {σ : Type}

/-- C76: whatever the specification (Spec/LstProgs.lean) guarantees about a program, the program run on lists in memory does, from every
reachable state and whatever addresses the allocator chooses: it ends (from some number of rounds on, the bound on the rounds of the loops does
not matter) with an outcome as promised: the same variables and result or the same way of not returning, and every list is what it ought to
be.  The bodies of `lst_iterate`, `LST_ITERATE` and `LST_ITERATE2` may make any calls on any lists, also on those being walked over, and walk
over lists themselves; they only must not remove the element they are visiting. -/
theorem C76_programs (s : State) (S : Lists) (hr : Reachable s S) (p : LstProg σ) (Q : LstOut σ → Prop) (h : LstEnsured p S Q) :
    ∃ out res N, Q out ∧ (∀ n, N ≤ n → exec n p s = res) ∧
      Spec.ResRel (fun c b => c.2 = b.2 ∧ ∀ i l, b.1.lists i = some l → listing c.1 i = .ok l) res out := by
  obtain ⟨out, res, N, h1, h2, h3⟩ := exec_sim p s S Q hr.rep h
  refine ⟨out, res, N, h1, h3, ?_⟩
  cases res <;> cases out <;> simp only [Spec.ResRel] at h2 ⊢
  exact ⟨h2.1, h2.2.match⟩

/-- the program starts with no lists -/
theorem reachable_init {place : Policy} (hp : Heap.Allocator place) : Reachable (State.init place) Lists.empty :=
  ⟨place, [], hp, .nil _ _⟩

theorem then_mono {α β : Type} {x : Res α} {Q Q' : Res β → Prop} {P P' : α → Prop} (hQ : ∀ o, Q o → Q' o) (hP : ∀ a, P a → P' a)
    (h : Spec.Then x Q P) : Spec.Then x Q' P' := by
  cases x <;> simp only [Spec.Then] at h ⊢
  · exact hP _ h
  all_goals exact hQ _ h

theorem walkFrom_mono {body : σ → Nat × Nat → Lists → (LstOut σ → Prop) → Prop}
    (hb : ∀ st c S Q Q', (∀ o, Q o → Q' o) → body st c S Q → body st c S Q') (n : Nat) :
    ∀ p S st Q Q', (∀ o, Q o → Q' o) → Spec.walkFrom body n p S st Q → Spec.walkFrom body n p S st Q' := by
  induction n with
  | zero =>
    intro p S st Q Q' hQ h
    rw [Spec.walkFrom] at h ⊢
    by_cases hp : p = 0
    · rw [if_pos hp] at h ⊢; exact hQ _ h
    · rw [if_neg hp] at h; exact h.elim
  | succ n ih =>
    intro p S st Q Q' hQ h
    rw [Spec.walkFrom] at h ⊢
    by_cases hp : p = 0
    · rw [if_pos hp] at h ⊢; exact hQ _ h
    · rw [if_neg hp] at h ⊢
      obtain ⟨d, next, h1, h2⟩ := h
      refine ⟨d, next, h1, hb _ _ _ _ _ (fun o ho => then_mono hQ (fun q hq => ?_) ho) h2⟩
      by_cases hz : q.2.2 ≠ 0
      · rw [if_pos hz] at hq ⊢; exact hQ _ hq
      · rw [if_neg hz] at hq ⊢
        obtain ⟨d, next, h1, h2⟩ := hq
        exact ⟨d, next, h1, ih _ _ _ _ _ hQ h2⟩

theorem walkFrom2_mono {body : σ → Nat × Nat → Nat × Nat → Lists → (LstOut σ → Prop) → Prop}
    (hb : ∀ st c c' S Q Q', (∀ o, Q o → Q' o) → body st c c' S Q → body st c c' S Q') (n : Nat) :
    ∀ p p' S st Q Q', (∀ o, Q o → Q' o) → Spec.walkFrom2 body n p p' S st Q → Spec.walkFrom2 body n p p' S st Q' := by
  induction n with
  | zero =>
    intro p p' S st Q Q' hQ h
    rw [Spec.walkFrom2] at h ⊢
    by_cases hp : p = 0 ∨ p' = 0
    · rw [if_pos hp] at h ⊢; exact hQ _ h
    · rw [if_neg hp] at h; exact h.elim
  | succ n ih =>
    intro p p' S st Q Q' hQ h
    rw [Spec.walkFrom2] at h ⊢
    by_cases hp : p = 0 ∨ p' = 0
    · rw [if_pos hp] at h ⊢; exact hQ _ h
    · rw [if_neg hp] at h ⊢
      obtain ⟨d, next, d', next', h1, h1', h2⟩ := h
      refine ⟨d, next, d', next', h1, h1', hb _ _ _ _ _ _ (fun o ho => then_mono hQ (fun q hq => ?_) ho) h2⟩
      by_cases hz : q.2.2 ≠ 0
      · rw [if_pos hz] at hq ⊢; exact hQ _ hq
      · rw [if_neg hz] at hq ⊢
        obtain ⟨d, next, d', next', h1, h1', h2⟩ := hq
        exact ⟨d, next, d', next', h1, h1', ih _ _ _ _ _ _ hQ h2⟩

theorem enter_mono {S : Lists} {i : Nat} {Q Q' : LstOut σ → Prop} {P P' : List (Nat × Nat) → Prop} (hQ : ∀ o, Q o → Q' o)
    (hP : ∀ l, P l → P' l) (h : S.enter i Q P) : S.enter i Q' P' := by
  unfold Lists.enter at h ⊢
  by_cases h0 : i = 0
  · rw [if_pos h0] at h ⊢; exact hQ _ h
  · rw [if_neg h0] at h ⊢
    obtain ⟨l, h1, h2⟩ := h
    exact ⟨l, h1, hP _ h2⟩

/-- a stronger guarantee implies a weaker one -/
theorem lstEnsured_mono (p : LstProg σ) : ∀ S Q Q', (∀ o, Q o → Q' o) → LstEnsured p S Q → LstEnsured p S Q' := by
  induction p with
  | ret st r => intro S Q Q' hQ h; exact hQ _ h
  | call o k ih =>
    intro S Q Q' hQ h
    exact ⟨h.1, h.2.1, fun r hr => then_mono hQ (fun q hq => ih _ _ _ _ hQ hq) (h.2.2 r hr)⟩
  | walk i st f k ihf ihk =>
    intro S Q Q' hQ h
    refine enter_mono hQ (fun l hl => ?_) h
    obtain ⟨n, hn⟩ := hl
    exact ⟨n, walkFrom_mono (fun st c S Q Q' hQ h => ihf st c.2 S Q Q' hQ h) n _ _ _ _ _
      (fun o ho => then_mono hQ (fun q hq => ihk _ _ _ _ _ hQ hq) ho) hn⟩
  | loop i st f k ihf ihk =>
    intro S Q Q' hQ h
    refine enter_mono hQ (fun l hl => ?_) h
    obtain ⟨n, hn⟩ := hl
    exact ⟨n, walkFrom_mono (fun st c S Q Q' hQ h => ihf st c S Q Q' hQ h) n _ _ _ _ _
      (fun o ho => then_mono hQ (fun q hq => ihk _ _ _ _ _ hQ hq) ho) hn⟩
  | loop2 i j st f k ihf ihk =>
    intro S Q Q' hQ h
    refine enter_mono hQ (fun l hl => enter_mono hQ (fun l' hl' => ?_) hl) h
    obtain ⟨n, hn⟩ := hl'
    exact ⟨n, walkFrom2_mono (fun st c c' S Q Q' hQ h => ihf st c c' S Q Q' hQ h) n _ _ _ _ _ _
      (fun o ho => then_mono hQ (fun q hq => ihk _ _ _ _ _ hQ hq) ho) hn⟩

/-- a walk over list `i` that is never left: `I n visited rest` holds before each visit, `n` bounds the elements still to come, and the body
may change the datum of the element at hand and everything after it -/
theorem walkFrom_inv {body : σ → Nat × Nat → Lists → (LstOut σ → Prop) → Prop}
    (hb : ∀ st c S Q Q', (∀ o, Q o → Q' o) → body st c S Q → body st c S Q') (i : Nat)
    (I : Nat → List (Nat × Nat) → List (Nat × Nat) → Lists → σ → Prop) (hl : ∀ n a b S st, I n a b S st → S.lists i = some (a ++ b))
    (hz : ∀ n a c b S st, I n a (c :: b) S st → c.1 ≠ 0) (h0 : ∀ a c b S st, ¬ I 0 a (c :: b) S st)
    (hstep : ∀ n a c b S st, I (n + 1) a (c :: b) S st →
      body st c S fun o => ∃ S' st' d b', o = .ok (S', st', 0) ∧ I n (a ++ [(c.1, d)]) b' S' st')
    {Q : LstOut σ → Prop} (hQ : ∀ n a S st, I n a [] S st → Q (.ok (S, st, 0))) (n : Nat) :
    ∀ a b S st, I n a b S st → Spec.walkFrom body n (firstPos b) S st Q := by
  induction n with
  | zero =>
    intro a b S st h
    cases b with
    | nil => rw [Spec.walkFrom, if_pos (by rfl)]; exact hQ _ _ _ _ h
    | cons c b => exact absurd h (h0 _ _ _ _ _)
  | succ n ih =>
    intro a b S st h
    cases b with
    | nil => rw [Spec.walkFrom, if_pos (by rfl)]; exact hQ _ _ _ _ h
    | cons c b =>
      rw [Spec.walkFrom, if_neg (by simpa [firstPos] using hz _ _ _ _ _ _ h)]
      refine ⟨c.2, firstPos b, ⟨i, a, b, by rw [hl _ _ _ _ _ h]; rfl, rfl⟩, hb _ _ _ _ _ ?_ (hstep n a c b S st h)⟩
      rintro o ⟨S', st', d, b', rfl, h'⟩
      refine ⟨d, firstPos b', ⟨i, a, b', ?_, rfl⟩, ih _ _ _ _ h'⟩
      rw [hl _ _ _ _ _ h']
      simp [firstPos]

/-! ### examples -/

/-- `lst_iterate` over list `i` with a function that pushes each datum onto list `j`. -/
def reverseTo (i j : Nat) : LstProg Unit := .walk i () (fun _ d => .call (.push j d) fun _ => .ret () 0) fun _ r => .ret () r

/-- For all lists: afterwards list `j` begins with the data of list `i` in reverse order, and list `i` is as before. -/
theorem reverseTo_ok (S : Lists) (i j : Nat) (hij : i ≠ j) (h0 : i ≠ 0) (h0' : j ≠ 0) (l m : List (Nat × Nat)) (hl : S.lists i = some l)
    (hm : S.lists j = some m) (hz : ∀ c ∈ l, c.1 ≠ 0) (ha : S.alive = true) :
    LstEnsured (reverseTo i j) S fun o => ∃ S' m', o = .ok (S', (), 0) ∧ S'.lists i = some l ∧ S'.lists j = some m' ∧
      m'.map Prod.snd = (l.map Prod.snd).reverse ++ m.map Prod.snd := by
  rw [reverseTo, LstEnsured, Lists.enter, if_neg h0]
  refine ⟨l, hl, l.length, walkFrom_inv ?_ i
    (fun n a b S _ => a ++ b = l ∧ n = b.length ∧ S.lists i = some l ∧ S.alive = true ∧
      ∃ m', S.lists j = some m' ∧ m'.map Prod.snd = (a.map Prod.snd).reverse ++ m.map Prod.snd) ?_ ?_ ?_ ?_ ?_ _ [] l S ()
    ⟨rfl, rfl, hl, ha, m, hm, by simp⟩⟩
  · exact fun st c S Q Q' hQ h => lstEnsured_mono _ _ _ _ hQ h
  · rintro n a b S st ⟨h1, -, h2, -⟩; rw [h1]; exact h2
  · rintro n a c b S st ⟨h1, -⟩; exact hz c (by rw [← h1]; simp)
  · rintro a c b S st ⟨-, h1, -⟩; simp at h1
  · rintro n a c b S st ⟨h1, h2, h3, h4, m', h5, h6⟩
    refine ⟨?_, trivial, ?_⟩
    · rintro (⟨k, e1, e2, e3⟩ | e)
      · simp only [LstOp.handle, Option.some.injEq] at e1; rw [← e1, h5] at e3; cases e3
      · rw [h4] at e; cases e
    · intro r hr
      simp only [Lists.Allowed, Lists.on, if_neg h0'] at hr
      obtain ⟨m'', e1, a', -, -, rfl⟩ := hr
      rw [h5] at e1; cases e1
      refine ⟨_, (), c.2, b, rfl, by simp [← h1], by simpa using h2, ?_, h4, (a', c.2) :: m', ?_, ?_⟩
      · simp only [Lists.set, if_neg hij]; exact h3
      · simp [Lists.set]
      · simp [h6]
  · rintro n a S st ⟨h1, -, h3, -, m', h5, h6⟩
    refine ⟨S, m', rfl, h3, h5, ?_⟩
    have : a = l := by simpa using h1
    rw [h6, this]

/-- A work list: `LST_ITERATE` over list `i`, whose body appends `d - 1` to the same list when it comes to a datum `d > 0`; the result is the
number of elements visited. -/
def workList (i : Nat) : LstProg Nat :=
  .loop i 0 (fun st c => if c.2 = 0 then .ret (st + 1) 0 else .call (.append i (c.2 - 1)) fun _ => .ret (st + 1) 0) fun st _ => .ret st st

/-- the numbers below `n + 1`, descending -/
def descending : Nat → List Nat
  | 0 => [0]
  | n + 1 => (n + 1) :: descending n

/-- For every `d`: started with the only datum `d`, the walk visits `d`, `d - 1`, ..., 0, elements appended during the walk included. -/
theorem workList_ok (S : Lists) (i : Nat) (h0 : i ≠ 0) (p d : Nat) (hp : p ≠ 0) (hl : S.lists i = some [(p, d)]) (ha : S.alive = true) :
    LstEnsured (workList i) S fun o => ∃ S' l, o = .ok (S', d + 1, ((d + 1 : Nat) : Int)) ∧ S'.lists i = some l ∧ l.map Prod.snd = descending d := by
  rw [workList, LstEnsured, Lists.enter, if_neg h0]
  refine ⟨_, hl, d + 1, walkFrom_inv ?_ i
    (fun n a b S st => S.lists i = some (a ++ b) ∧ S.alive = true ∧ st + n = d + 1 ∧
      ((n = 0 ∧ b = [] ∧ a.map Prod.snd = descending d) ∨ ∃ q k, q ≠ 0 ∧ n = k + 1 ∧ b = [(q, k)] ∧
        a.map Prod.snd ++ descending k = descending d)) ?_ ?_ ?_ ?_ ?_ _ [] [(p, d)] S 0 ⟨hl, ha, by omega, Or.inr ⟨p, d, hp, rfl, rfl, rfl⟩⟩⟩
  · exact fun st c S Q Q' hQ h => lstEnsured_mono _ _ _ _ hQ h
  · rintro n a b S st ⟨h1, -⟩; exact h1
  · rintro n a c b S st ⟨-, -, -, ⟨-, h, -⟩ | ⟨q, k, h1, -, h2, -⟩⟩
    · simp at h
    · simp only [List.cons.injEq] at h2; rw [h2.1]; exact h1
  · rintro a c b S st ⟨-, -, -, ⟨-, h, -⟩ | ⟨q, k, -, h1, -⟩⟩
    · simp at h
    · omega
  · rintro n a c b S st ⟨h1, h2, h3, ⟨h, -⟩ | ⟨q, k, h4, h5, h6, h7⟩⟩
    · omega
    · simp only [List.cons.injEq] at h6
      obtain ⟨rfl, rfl⟩ := h6
      obtain rfl : k = n := by omega
      cases k with
      | zero =>
        show LstEnsured (.ret (st + 1) 0) S _
        exact ⟨S, st + 1, 0, [], rfl, by simpa using h1, h2, by omega, Or.inl ⟨rfl, rfl, by simpa [descending] using h7⟩⟩
      | succ k =>
        show LstEnsured (.call (.append i k) fun _ => .ret (st + 1) 0) S _
        refine ⟨?_, trivial, ?_⟩
        · rintro (⟨k, e1, e2, e3⟩ | ⟨-, e⟩)
          · simp only [LstOp.handle, Option.some.injEq] at e1; rw [← e1, h1] at e3; cases e3
          · rw [h2] at e; cases e
        · intro r hr
          simp only [Lists.Allowed, if_neg h0] at hr
          obtain ⟨l, a', e1, e2, -, rfl⟩ := hr
          rw [h1] at e1; cases e1
          refine ⟨_, st + 1, k + 1, [(a', k)], rfl, by simp [Lists.set], h2, by omega, Or.inr ⟨a', k, e2, rfl, rfl, ?_⟩⟩
          rw [← h7]; simp [descending]
  · rintro n a S st ⟨h1, -, h3, ⟨h4, h5, h6⟩ | ⟨q, k, -, -, h, -⟩⟩
    · obtain rfl : st = d + 1 := by omega
      exact ⟨S, a, rfl, by simpa using h1, h6⟩
    · simp at h

/-- a walk over two lists side by side that only looks: `f` folded over the pairs -/
theorem side_by_side (S : Lists) (i j : Nat) (f : σ → Nat → Nat → σ) (l m : List (Nat × Nat)) : ∀ (a b : List (Nat × Nat)) (st : σ)
    (Q : LstOut σ → Prop), S.lists i = some (a ++ l) → S.lists j = some (b ++ m) → (∀ c ∈ l, c.1 ≠ 0) → (∀ c ∈ m, c.1 ≠ 0) →
    Q (.ok (S, ((l.zip m).foldl (fun st p => f st p.1.2 p.2.2) st), 0)) →
    Spec.walkFrom2 (fun st c c' => LstEnsured (.ret (f st c.2 c'.2) 0)) l.length (firstPos l) (firstPos m) S st Q := by
  induction l generalizing m with
  | nil => intro a b st Q _ _ _ _ hq; rw [Spec.walkFrom2.eq_def]; simp only; rw [if_pos (Or.inl (by rfl))]; exact hq
  | cons c l ih =>
    intro a b st Q hl hm hzl hzm hq
    cases m with
    | nil => rw [Spec.walkFrom2.eq_def]; simp only; rw [if_pos (Or.inr (by rfl))]; exact hq
    | cons c' m =>
      rw [List.length_cons, Spec.walkFrom2, if_neg (by simp [firstPos]; exact ⟨hzl c (by simp), hzm c' (by simp)⟩)]
      refine ⟨c.2, firstPos l, c'.2, firstPos m, ⟨i, a, l, hl, rfl⟩, ⟨j, b, m, hm, rfl⟩, c.2, firstPos l, c'.2, firstPos m,
        ⟨i, a, l, hl, rfl⟩, ⟨j, b, m, hm, rfl⟩, ?_⟩
      exact ih m (a ++ [c]) (b ++ [c']) _ Q (by simpa using hl) (by simpa using hm) (fun x hx => hzl x (by simp [hx])) (fun x hx => hzm x (by simp [hx])) hq

/-- C76, `LST_ITERATE2`: in every reachable state a walk over two lists (or twice the same list) side by side, with a body that only looks,
sees the pairs of data at the same place in both lists in order, up to the end of the shorter list, and changes no list. -/
theorem C76_iterate2 (s : State) (S : Lists) (hr : Reachable s S) (i j : Nat) (l m : List (Nat × Nat)) (hl : S.lists i = some l)
    (hm : S.lists j = some m) (f : σ → Nat → Nat → σ) (st : σ) :
    ∃ s' N, (∀ n, N ≤ n → exec n (.loop2 i j st (fun st c c' => .ret (f st c.2 c'.2) 0) fun st _ => .ret st 0) s =
        .ok (s', ((l.map Prod.snd).zip (m.map Prod.snd)).foldl (fun st p => f st p.1 p.2) st, 0)) ∧
      ∀ k lk, S.lists k = some lk → listing s' k = .ok lk := by
  have r := hr.rep
  have h0 : i ≠ 0 := by rintro rfl; rw [r.null] at hl; cases hl
  have h0' : j ≠ 0 := by rintro rfl; rw [r.null] at hm; cases hm
  have nz : ∀ k lk, S.lists k = some lk → ∀ c ∈ lk, c.1 ≠ 0 := fun k lk hk c hc =>
    (C21_positions s S hr k lk hk).2.2.1 c.1 (List.mem_map_of_mem hc)
  obtain ⟨out, res, N, h1, h2, h3⟩ := C76_programs s S hr (.loop2 i j st (fun st c c' => .ret (f st c.2 c'.2) 0) fun st _ => .ret st 0)
    (fun o => o = .ok (S, ((l.zip m).foldl (fun st p => f st p.1.2 p.2.2) st), 0)) (by
      rw [LstEnsured, Lists.enter, if_neg h0]
      refine ⟨l, hl, ?_⟩
      rw [Lists.enter, if_neg h0']
      exact ⟨m, hm, l.length, side_by_side S i j f l m [] [] st _ hl hm (nz i l hl) (nz j m hm) rfl⟩)
  subst h1
  cases res <;> simp only [Spec.ResRel] at h3
  rename_i c
  refine ⟨c.1, N, fun n hn => ?_, h3.2⟩
  rw [h2 n hn]
  obtain ⟨c, x⟩ := c
  obtain rfl := h3.1
  simp only [List.zip_map, List.foldl_map, Prod.map]

/-- the hypotheses are met, and the conclusion says something: the work list started with 3 sees 3, 2, 1, 0 -/
example (place : Policy) (hp : Heap.Allocator place) :
    ∃ N, ∀ n, N ≤ n → Spec.Then (exec n (.call .create fun i => .call (.append i 3) fun _ => workList i) (State.init place)) (fun _ : Res Unit => False)
      fun q => q.2 = (4, 4) ∧ ∃ l, listing q.1 1 = .ok l ∧ l.map Prod.snd = [3, 2, 1, 0] := by
  obtain ⟨out, res, N, ⟨S, l, h1, hl, hd⟩, h2, h3⟩ := C76_programs _ _ (reachable_init hp) (.call .create fun i => .call (.append i 3) fun _ => workList i)
    (fun o => ∃ S' l, o = .ok (S', 4, 4) ∧ S'.lists 1 = some l ∧ l.map Prod.snd = [3, 2, 1, 0]) (by
      refine ⟨by rintro (⟨_, h, -⟩ | h) <;> simp [LstOp.handle] at h, trivial, ?_⟩
      rintro r rfl
      refine ⟨?_, trivial, ?_⟩
      · rintro (⟨k, e1, e2, e3⟩ | ⟨-, e⟩)
        · simp only [LstOp.handle, Option.some.injEq, Lists.empty] at e1; subst e1; simp [Lists.empty] at e3
        · cases e
      · intro r hr
        simp only [Lists.Allowed, Lists.empty, Nat.one_ne_zero, if_false, if_true, Option.some.injEq] at hr
        obtain ⟨l, a, rfl, h2, -, rfl⟩ := hr
        exact workList_ok _ 1 (by decide) a 3 h2 (by simp [Lists.set]) rfl)
  refine ⟨N, fun n hn => ?_⟩
  rw [h2 n hn]
  subst h1
  cases res <;> simp only [Spec.ResRel] at h3
  exact ⟨h3.1, l, h3.2 1 l hl, hd⟩

/-- C76, the rule is needed: the body pops the element it is visiting (10) and pushes 99 onto another list; the walk goes on in that other
list (7, 8) instead of coming to 20. -/
theorem C76_removed_refuted :
    Spec.Then (exec 20 (.call .create fun i => .call .create fun j => .call (.append i 10) fun _ => .call (.append i 20) fun _ =>
      .call (.append j 7) fun _ => .call (.append j 8) fun _ =>
      .walk i [] (fun st d => if d = 10 then .call (.pop i) fun _ => .call (.push j 99) fun _ => .ret (st ++ [d]) 0 else .ret (st ++ [d]) 0)
        fun st r => .ret st r) State.init) (fun _ : Res Unit => False) fun q => q.2 = ([10, 7, 8], 0) := rfl

end Maa.Lst
