import Verif.Model.LstProgs
import Verif.Lemmas.Lists

/-! Programs with lists: the pointer level does what the specification promises. -/

namespace Maa.Lst

open Spec (Lists LstOp firstPos)

variable {σ : Type}

/-- the outcome of a part of a program, pointer level against specification -/
def Post (c : State × σ × Int) (b : Lists × σ × Int) : Prop := c.2 = b.2 ∧ Rep c.1 b.1

/-- given enough rounds, the result does not depend on how many, and satisfies `Q` -/
def ProgEnds (run : Nat → Res (State × σ × Int)) (Q : Spec.LstOut σ → Prop) : Prop :=
  ∃ out res N, Q out ∧ Spec.ResRel Post res out ∧ ∀ n, N ≤ n → run n = res

/-- a piece of code does what the predicate transformer promises -/
def Does (body : Nat → State → Res (State × σ × Int)) (spec : Lists → (Spec.LstOut σ → Prop) → Prop) : Prop :=
  ∀ s S Q, Rep s S → spec S Q → ProgEnds (fun n => body n s) Q

theorem Rep.cell {s : State} {S : Lists} (r : Rep s S) {p d next : Nat} (h : S.At p d next) : p ≠ 0 ∧ s.heap.mem p = some (d, next) := by
  obtain ⟨i, b, a, h1, rfl⟩ := h
  obtain ⟨ob, hob, l1, -, -⟩ := r.list i _ h1
  obtain ⟨n, c1, c2, c3, c4⟩ := Heap.Seg.cell l1
  rw [← firstPos_chain c2]
  exact ⟨c3, c1⟩

/-- one part of a program after another -/
theorem ProgEnds.bind {Q : Spec.LstOut σ → Prop} {P : Lists × σ × Int → Prop} {first : Nat → Res (State × σ × Int)}
    {cont : Nat → State × σ × Int → Res (State × σ × Int)}
    (h : ProgEnds first fun out => Spec.Then out Q P) (hk : ∀ c b, Post c b → P b → ProgEnds (fun n => cont n c) Q) :
    ProgEnds (fun n => (first n).bind (cont n)) Q := by
  obtain ⟨out, res, N, h1, h2, h3⟩ := h
  cases res <;> cases out <;> simp only [Spec.ResRel, Spec.Then] at h1 h2
  · rename_i c b
    obtain ⟨out, res, M, k1, k2, k3⟩ := hk c b h2 h1
    exact ⟨out, res, max N M, k1, k2, fun n hn => by simp only [h3 n (by omega), Res.bind]; exact k3 n (by omega)⟩
  · exact ⟨.abort, .abort, N, h1, trivial, fun n hn => by simp only [h3 n hn, Res.bind]⟩
  · exact ⟨.fatal, .fatal, N, h1, trivial, fun n hn => by simp only [h3 n hn, Res.bind]⟩
  · exact ⟨.ub, .ub, N, h1, trivial, fun n hn => by simp only [h3 n hn, Res.bind]⟩

theorem ProgEnds.ok {Q : Spec.LstOut σ → Prop} {s : State} {S : Lists} {st : σ} {x : Int} (r : Rep s S) (h : Q (.ok (S, st, x))) :
    ProgEnds (fun _ => .ok (s, st, x)) Q :=
  ⟨.ok (S, st, x), .ok (s, st, x), 0, h, ⟨rfl, r⟩, fun _ _ => rfl⟩

theorem ProgEnds.abort {Q : Spec.LstOut σ → Prop} (h : Q .abort) : ProgEnds (σ := σ) (fun _ => .abort) Q :=
  ⟨.abort, .abort, 0, h, trivial, fun _ _ => rfl⟩

theorem ProgEnds.congr {Q : Spec.LstOut σ → Prop} {run run' : Nat → Res (State × σ × Int)} (M : Nat) (h : ProgEnds run Q)
    (e : ∀ n, M ≤ n → run' n = run n) : ProgEnds run' Q := by
  obtain ⟨out, res, N, h1, h2, h3⟩ := h
  exact ⟨out, res, max N M, h1, h2, fun n hn => by rw [e n (by omega), h3 n (by omega)]⟩

/-- a loop with its own number of rounds `m` and bodies with `n` rounds ends -/
def ProgEnds2 (run : Nat → Nat → Res (State × σ × Int)) (Q : Spec.LstOut σ → Prop) : Prop :=
  ∃ out res N, Q out ∧ Spec.ResRel Post res out ∧ ∀ n m, N ≤ n → N ≤ m → run n m = res

theorem ProgEnds2.diag {run : Nat → Nat → Res (State × σ × Int)} {Q : Spec.LstOut σ → Prop} (h : ProgEnds2 run Q) : ProgEnds (fun n => run n n) Q := by
  obtain ⟨out, res, N, h1, h2, h3⟩ := h
  exact ⟨out, res, N, h1, h2, fun n hn => h3 n n hn hn⟩

theorem ProgEnds2.ok {Q : Spec.LstOut σ → Prop} {s : State} {S : Lists} {st : σ} {x : Int} {run : Nat → Nat → Res (State × σ × Int)}
    (r : Rep s S) (h : Q (.ok (S, st, x))) (e : ∀ n m, run n (m + 1) = .ok (s, st, x)) : ProgEnds2 run Q :=
  ⟨.ok (S, st, x), .ok (s, st, x), 1, h, ⟨rfl, r⟩, fun n m _ hm => by
    obtain ⟨k, rfl⟩ : ∃ k, m = k + 1 := ⟨m - 1, by omega⟩
    exact e n k⟩

theorem ProgEnds2.bind {Q : Spec.LstOut σ → Prop} {P : Lists × σ × Int → Prop} {first : Nat → Res (State × σ × Int)}
    {cont : Nat → Nat → State × σ × Int → Res (State × σ × Int)} {run : Nat → Nat → Res (State × σ × Int)}
    (h : ProgEnds first fun out => Spec.Then out Q P) (hk : ∀ c b, Post c b → P b → ProgEnds2 (fun n m => cont n m c) Q)
    (e : ∀ n m, run n (m + 1) = (first n).bind (cont n m)) : ProgEnds2 run Q := by
  obtain ⟨out, res, N, h1, h2, h3⟩ := h
  have hm : ∀ m, 1 ≤ m → ∃ k, m = k + 1 := fun m h => ⟨m - 1, by omega⟩
  cases res <;> cases out <;> simp only [Spec.ResRel, Spec.Then] at h1 h2
  · rename_i c b
    obtain ⟨out, res, M, k1, k2, k3⟩ := hk c b h2 h1
    refine ⟨out, res, max N M + 1, k1, k2, fun n m hn hm' => ?_⟩
    obtain ⟨k, rfl⟩ := hm m (by omega)
    rw [e, h3 n (by omega)]
    exact k3 n k (by omega) (by omega)
  · refine ⟨.abort, .abort, N + 1, h1, trivial, fun n m hn hm' => ?_⟩
    obtain ⟨k, rfl⟩ := hm m (by omega)
    rw [e, h3 n (by omega)]
    rfl
  · refine ⟨.fatal, .fatal, N + 1, h1, trivial, fun n m hn hm' => ?_⟩
    obtain ⟨k, rfl⟩ := hm m (by omega)
    rw [e, h3 n (by omega)]
    rfl
  · refine ⟨.ub, .ub, N + 1, h1, trivial, fun n m hn hm' => ?_⟩
    obtain ⟨k, rfl⟩ := hm m (by omega)
    rw [e, h3 n (by omega)]
    rfl

section walks
variable {body : Nat → State → σ → Nat × Nat → Res (State × σ × Int)} {spec : σ → Nat × Nat → Lists → (Spec.LstOut σ → Prop) → Prop}

theorem visitLoop_sim {f : Nat → State → σ → Nat → Res (State × σ × Int)} (hb : ∀ st c, Does (fun n s => f n s st c.2) (spec st c)) (k : Nat) :
    ∀ (s : State) (S : Lists) (p : Nat) (st : σ) (Q : Spec.LstOut σ → Prop), Rep s S → Spec.walkFrom spec k p S st Q →
    ProgEnds2 (fun n m => visitLoop (f n) m s p st) Q := by
  induction k with
  | zero =>
    intro s S p st Q r h
    rw [Spec.walkFrom] at h
    by_cases hp : p = 0
    · rw [if_pos hp] at h
      exact ProgEnds2.ok r h (fun n m => by simp [visitLoop, hp])
    · rw [if_neg hp] at h; exact h.elim
  | succ k ih =>
    intro s S p st Q r h
    rw [Spec.walkFrom] at h
    by_cases hp : p = 0
    · rw [if_pos hp] at h
      exact ProgEnds2.ok r h (fun n m => by simp [visitLoop, hp])
    · rw [if_neg hp] at h
      obtain ⟨d, next, hat, hv⟩ := h
      refine ProgEnds2.bind (hb st (p, d) s S _ r hv) (cont := fun n m q => if q.2.2 ≠ 0 then .ok (q.1, q.2.1, 1)
          else (q.1.heap.read p).bind fun c' => visitLoop (f n) m q.1 c'.2 q.2.1) ?_ ?_
      · rintro c b ⟨e, r'⟩ h'
        by_cases hz : b.2.2 ≠ 0
        · rw [if_pos hz] at h'
          refine ProgEnds2.ok r' h' (fun n m => ?_)
          simp only [e, if_pos hz]
        · rw [if_neg hz] at h'
          obtain ⟨d', next', hat', hv'⟩ := h'
          have hc := r'.cell hat'
          simp only [e, if_neg hz, Heap.read_ok hc.2, Res.bind]
          exact ih c.1 b.1 next' b.2.1 Q r' hv'
      · intro n m
        simp only [visitLoop, hp, if_false, Heap.read_ok (r.cell hat).2, Res.bind]

theorem macroLoop_sim (hb : ∀ st c, Does (fun n s => body n s st c) (spec st c)) (k : Nat) :
    ∀ (s : State) (S : Lists) (p : Nat) (st : σ) (Q : Spec.LstOut σ → Prop), Rep s S → Spec.walkFrom spec k p S st Q →
    ProgEnds2 (fun n m => macroLoop (body n) m s p st) Q := by
  induction k with
  | zero =>
    intro s S p st Q r h
    rw [Spec.walkFrom] at h
    by_cases hp : p = 0
    · rw [if_pos hp] at h
      exact ProgEnds2.ok r h (fun n m => by simp [macroLoop, hp])
    · rw [if_neg hp] at h; exact h.elim
  | succ k ih =>
    intro s S p st Q r h
    rw [Spec.walkFrom] at h
    by_cases hp : p = 0
    · rw [if_pos hp] at h
      exact ProgEnds2.ok r h (fun n m => by simp [macroLoop, hp])
    · rw [if_neg hp] at h
      obtain ⟨d, next, hat, hv⟩ := h
      refine ProgEnds2.bind (hb st (p, d) s S _ r hv) (cont := fun n m q => if q.2.2 ≠ 0 then .ok (q.1, q.2.1, 1)
          else (lstNextPosition q.1 p).bind fun p => macroLoop (body n) m q.1 p q.2.1) ?_ ?_
      · rintro c b ⟨e, r'⟩ h'
        by_cases hz : b.2.2 ≠ 0
        · rw [if_pos hz] at h'
          refine ProgEnds2.ok r' h' (fun n m => ?_)
          simp only [e, if_pos hz]
        · rw [if_neg hz] at h'
          obtain ⟨d', next', hat', hv'⟩ := h'
          have hc := r'.cell hat'
          simp only [e, if_neg hz, lstNextPosition, hp, if_false, Heap.read_ok hc.2, Res.bind]
          exact ih c.1 b.1 next' b.2.1 Q r' hv'
      · intro n m
        simp only [macroLoop, hp, if_false, lstGetPosition, Heap.read_ok (r.cell hat).2, Res.bind]

theorem macroLoop2_sim {body : Nat → State → σ → Nat × Nat → Nat × Nat → Res (State × σ × Int)}
    {spec : σ → Nat × Nat → Nat × Nat → Lists → (Spec.LstOut σ → Prop) → Prop}
    (hb : ∀ st c c', Does (fun n s => body n s st c c') (spec st c c')) (k : Nat) :
    ∀ (s : State) (S : Lists) (p p' : Nat) (st : σ) (Q : Spec.LstOut σ → Prop), Rep s S → Spec.walkFrom2 spec k p p' S st Q →
    ProgEnds2 (fun n m => macroLoop2 (body n) m s p p' st) Q := by
  induction k with
  | zero =>
    intro s S p p' st Q r h
    rw [Spec.walkFrom2] at h
    by_cases hp : p = 0 ∨ p' = 0
    · rw [if_pos hp] at h
      exact ProgEnds2.ok r h (fun n m => by simp only [macroLoop2, if_pos hp])
    · rw [if_neg hp] at h; exact h.elim
  | succ k ih =>
    intro s S p p' st Q r h
    rw [Spec.walkFrom2] at h
    by_cases hp : p = 0 ∨ p' = 0
    · rw [if_pos hp] at h
      exact ProgEnds2.ok r h (fun n m => by simp only [macroLoop2, if_pos hp])
    · rw [if_neg hp] at h
      have hp1 : p ≠ 0 := fun h => hp (Or.inl h)
      have hp2 : p' ≠ 0 := fun h => hp (Or.inr h)
      obtain ⟨d, next, d', next', hat, hat', hv⟩ := h
      refine ProgEnds2.bind (hb st (p, d) (p', d') s S _ r hv) (cont := fun n m q => if q.2.2 ≠ 0 then .ok (q.1, q.2.1, 1)
          else (lstNextPosition q.1 p).bind fun p => (lstNextPosition q.1 p').bind fun p' => macroLoop2 (body n) m q.1 p p' q.2.1) ?_ ?_
      · rintro c b ⟨e, r'⟩ h'
        by_cases hz : b.2.2 ≠ 0
        · rw [if_pos hz] at h'
          refine ProgEnds2.ok r' h' (fun n m => ?_)
          simp only [e, if_pos hz]
        · rw [if_neg hz] at h'
          obtain ⟨e1, nx1, e2, nx2, g1, g2, hv'⟩ := h'
          simp only [e, if_neg hz, lstNextPosition, hp1, hp2, if_false, Heap.read_ok (r'.cell g1).2, Heap.read_ok (r'.cell g2).2, Res.bind]
          exact ih c.1 b.1 nx1 nx2 b.2.1 Q r' hv'
      · intro n m
        simp only [macroLoop2, hp1, hp2, or_self, if_false, lstGetPosition, Heap.read_ok (r.cell hat).2, Heap.read_ok (r.cell hat').2, Res.bind]

end walks

theorem good_works {s : State} {S : Lists} (r : Rep s S) (o : LstOp) (h : S.TruncateWorks o) : Good s S o := by
  cases o with
  | truncate i n => exact truncate_good r i n h
  | _ => exact step_good r _ trivial

theorem head_of {s : State} {S : Lists} (r : Rep s S) {i : Nat} (h0 : i ≠ 0) {l} (hl : S.lists i = some l) :
    ∃ ob, s.check i = .ok ob ∧ ob.head = firstPos l := by
  obtain ⟨ob, hob, l1, -, -⟩ := r.list i _ hl
  exact ⟨ob, check_some h0 hob, firstPos_chain l1⟩

/-- a walk starts with a check of its list -/
theorem enter_sim {s : State} {S : Lists} (r : Rep s S) {i : Nat} {Q : Spec.LstOut σ → Prop} {P : List (Nat × Nat) → Prop}
    (h : S.enter i Q P) {run : Nat → LObj → Res (State × σ × Int)} (hr : ∀ l ob, P l → ob.head = firstPos l → ProgEnds (fun n => run n ob) Q) :
    ProgEnds (fun n => (s.check i).bind (run n)) Q := by
  unfold Lists.enter at h
  by_cases h0 : i = 0
  · rw [if_pos h0] at h
    simp only [h0, check_zero, Res.bind]
    exact ProgEnds.abort h
  · rw [if_neg h0] at h
    obtain ⟨l, hl, hp⟩ := h
    obtain ⟨ob, c1, c2⟩ := head_of r h0 hl
    simp only [c1, Res.bind]
    exact hr l ob hp c2

theorem exec_sim (p : Spec.LstProg σ) : Does (fun n s => exec n p s) (Spec.LstEnsured p) := by
  induction p with
  | ret st x => intro s S Q r h; exact ProgEnds.ok r h
  | call o k ih =>
    rintro s S Q r ⟨hu, ht, h⟩
    simp only [exec]
    rcases good_works r o ht with hg | ⟨s', S', x, e1, e2, e3⟩ | ⟨e1, e2⟩ | ⟨e1, e2⟩
    · exact absurd hg hu
    · simp only [e1, Res.bind]
      exact ih x s' S' Q e3 (h _ e2)
    · simp only [e1, Res.bind]
      exact ProgEnds.abort (h _ e2)
    · simp only [e1, Res.bind]
      exact ⟨.fatal, .fatal, 0, h _ e2, trivial, fun _ _ => rfl⟩
  | walk i st f k ihf ihk =>
    intro s S Q r h
    rw [Spec.LstEnsured] at h
    simp only [exec, walkCalls]
    have : ProgEnds (fun n => (s.check i).bind fun ob => (visitLoop (fun s st d => exec n (f st d) s) n s ob.head st).bind
        fun q => exec n (k q.2.1 q.2.2) q.1) Q := by
      refine enter_sim r h (run := fun n ob => (visitLoop (fun s st d => exec n (f st d) s) n s ob.head st).bind
        fun q => exec n (k q.2.1 q.2.2) q.1) ?_
      rintro l ob ⟨m, hv⟩ ho
      rw [ho]
      refine ProgEnds.bind (ProgEnds2.diag (visitLoop_sim (f := fun n s st d => exec n (f st d) s) (fun st c => ihf st c.2) m s S _ st _ r hv)) ?_
      rintro c b ⟨e, r'⟩ h'
      rw [e]
      exact ihk _ _ _ _ _ r' h'
    refine ProgEnds.congr 0 this (fun n _ => ?_)
    cases s.check i <;> rfl
  | loop i st f k ihf ihk =>
    intro s S Q r h
    rw [Spec.LstEnsured] at h
    simp only [exec, lstInitPosition]
    have : ProgEnds (fun n => (s.check i).bind fun ob => (macroLoop (fun s st c => exec n (f st c) s) n s ob.head st).bind
        fun q => exec n (k q.2.1 q.2.2) q.1) Q := by
      refine enter_sim r h (run := fun n ob => (macroLoop (fun s st c => exec n (f st c) s) n s ob.head st).bind
        fun q => exec n (k q.2.1 q.2.2) q.1) ?_
      rintro l ob ⟨m, hv⟩ ho
      rw [ho]
      refine ProgEnds.bind (ProgEnds2.diag (macroLoop_sim (body := fun n s st c => exec n (f st c) s) (fun st c => ihf st c) m s S _ st _ r hv)) ?_
      rintro c b ⟨e, r'⟩ h'
      rw [e]
      exact ihk _ _ _ _ _ r' h'
    refine ProgEnds.congr 0 this (fun n _ => ?_)
    cases s.check i <;> rfl
  | loop2 i j st f k ihf ihk =>
    intro s S Q r h
    rw [Spec.LstEnsured] at h
    simp only [exec, lstInitPosition]
    have : ProgEnds (fun n => (s.check i).bind fun ob => (s.check j).bind fun ob' =>
        (macroLoop2 (fun s st c c' => exec n (f st c c') s) n s ob.head ob'.head st).bind fun q => exec n (k q.2.1 q.2.2) q.1) Q := by
      refine enter_sim r h (run := fun n ob => (s.check j).bind fun ob' =>
        (macroLoop2 (fun s st c c' => exec n (f st c c') s) n s ob.head ob'.head st).bind fun q => exec n (k q.2.1 q.2.2) q.1) ?_
      intro l ob h ho
      refine enter_sim r h (run := fun n ob' =>
        (macroLoop2 (fun s st c c' => exec n (f st c c') s) n s ob.head ob'.head st).bind fun q => exec n (k q.2.1 q.2.2) q.1) ?_
      rintro l' ob' ⟨m, hv⟩ ho'
      rw [ho, ho']
      refine ProgEnds.bind (ProgEnds2.diag (macroLoop2_sim (body := fun n s st c c' => exec n (f st c c') s) (fun st c c' => ihf st c c') m s S _ _ st _ r hv)) ?_
      rintro c b ⟨e, r'⟩ h'
      rw [e]
      exact ihk _ _ _ _ _ r' h'
    refine ProgEnds.congr 0 this (fun n _ => ?_)
    cases s.check i <;> cases s.check j <;> rfl

end Maa.Lst
