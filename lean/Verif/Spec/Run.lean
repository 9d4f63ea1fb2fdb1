import Verif.Model.Base

/-! # Histories

`run step s ops` performs the calls `ops` one after the other from state `s` and collects what each
returned; the history ends with the first call that does not return normally.  `observe` forgets
the final state, keeping only what a caller can see. -/

namespace Maa.Spec

variable {S A O X : Type}

/-- Perform a list of calls. -/
def run (step : S → O → Res (S × X)) : S → List O → Res (S × List X)
  | s, [] => .ok (s, [])
  | s, o :: os =>
    (step s o).bind fun r => (run step r.1 os).bind fun q => .ok (q.1, r.2 :: q.2)

/-- What the caller sees of a history. -/
def observe (r : Res (S × List X)) : Res (List X) := r.bind fun p => .ok p.2

/-- Outcome-wise relation: same way of ending, related results. -/
def ResRel {α β : Type} (R : α → β → Prop) : Res α → Res β → Prop
  | .ok a, .ok b => R a b
  | .abort, .abort => True
  | .fatal, .fatal => True
  | .ub, .ub => True
  | _, _ => False

/-- Forward simulation for histories whose calls all satisfy `P`. -/
theorem run_sim_of (P : O → Prop) (R : S → A → Prop) (cs : S → O → Res (S × X))
    (as : A → O → Res (A × X))
    (h : ∀ s a o, P o → R s a → ResRel (fun c b => c.2 = b.2 ∧ R c.1 b.1) (cs s o) (as a o))
    (s : S) (a : A) (os : List O) (hP : ∀ o ∈ os, P o) (h0 : R s a) :
    ResRel (fun c b => c.2 = b.2 ∧ R c.1 b.1) (run cs s os) (run as a os) := by
  induction os generalizing s a with
  | nil => exact ⟨rfl, h0⟩
  | cons o os ih =>
    have h1 := h s a o (hP o (by simp)) h0
    have ih := ih (hP := fun o ho => hP o (by simp [ho]))
    simp only [run]
    cases hc : cs s o <;> cases ha : as a o <;> rw [hc, ha] at h1 <;> simp only [ResRel] at h1
    · rename_i c b
      have h2 := ih c.1 b.1 h1.2
      simp only [Res.bind]
      cases hc' : run cs c.1 os <;> cases ha' : run as b.1 os <;> rw [hc', ha'] at h2 <;>
        simp only [ResRel] at h2
      · simp only [ResRel]
        exact ⟨by rw [h1.1, h2.1], h2.2⟩
      all_goals simp [ResRel]
    all_goals simp [ResRel, Res.bind]

/-- Forward simulation for histories. -/
theorem run_sim (R : S → A → Prop) (cs : S → O → Res (S × X)) (as : A → O → Res (A × X))
    (h : ∀ s a o, R s a → ResRel (fun c b => c.2 = b.2 ∧ R c.1 b.1) (cs s o) (as a o))
    (s : S) (a : A) (os : List O) (h0 : R s a) :
    ResRel (fun c b => c.2 = b.2 ∧ R c.1 b.1) (run cs s os) (run as a os) :=
  run_sim_of (fun _ => True) R cs as (fun s a o _ => h s a o) s a os (fun _ _ => trivial) h0

theorem ResRel.bind {α β γ δ : Type} {R : α → β → Prop} {Q : γ → δ → Prop} {x : Res α} {y : Res β}
    {f : α → Res γ} {g : β → Res δ} (h : ResRel R x y)
    (hfg : ∀ a b, R a b → ResRel Q (f a) (g b)) : ResRel Q (x.bind f) (y.bind g) := by
  cases x <;> cases y <;> simp only [ResRel] at h <;> simp only [Res.bind]
  · exact hfg _ _ h
  all_goals simp [ResRel]

theorem ResRel.observe {cs : Res (S × List X)} {as : Res (A × List X)} {R : S → A → Prop}
    (h : ResRel (fun c b => c.2 = b.2 ∧ R c.1 b.1) cs as) : observe cs = observe as := by
  cases cs <;> cases as <;> simp only [ResRel] at h
  · simp [Spec.observe, Res.bind, h.1]
  all_goals rfl

/-- A history in two parts. -/
theorem run_append (step : S → O → Res (S × X)) (s : S) (os os' : List O) :
    run step s (os ++ os') = (run step s os).bind fun p => (run step p.1 os').bind fun q => .ok (q.1, p.2 ++ q.2) := by
  induction os generalizing s with
  | nil =>
    simp only [List.nil_append, run, Res.bind]
    cases run step s os' <;> rfl
  | cons o os ih =>
    simp only [List.cons_append, run]
    cases step s o <;> simp only [Res.bind]
    rename_i r
    rw [ih]
    cases run step r.1 os <;> simp only [Res.bind]
    rename_i q
    cases run step q.1 os' <;> rfl

/-- An invariant kept by every step holds after every history. -/
theorem run_inv (I : S → Prop) (step : S → O → Res (S × X))
    (h : ∀ s o s' x, I s → step s o = .ok (s', x) → I s') (s : S) (os : List O) (h0 : I s)
    (s' : S) (xs : List X) (hr : run step s os = .ok (s', xs)) : I s' := by
  induction os generalizing s s' xs with
  | nil => simp only [run, Res.ok.injEq, Prod.mk.injEq] at hr; rw [← hr.1]; exact h0
  | cons o os ih =>
    simp only [run] at hr
    cases hs : step s o with
    | ok r =>
      rw [hs] at hr
      simp only [Res.bind] at hr
      cases hr2 : run step r.1 os with
      | ok q =>
        rw [hr2] at hr
        simp only [Res.ok.injEq, Prod.mk.injEq] at hr
        have := ih r.1 (h s o r.1 r.2 h0 hs) q.1 q.2 hr2
        rw [← hr.1]; exact this
      | abort => rw [hr2] at hr; simp at hr
      | fatal => rw [hr2] at hr; simp at hr
      | ub => rw [hr2] at hr; simp at hr
    | abort => rw [hs] at hr; simp [Res.bind] at hr
    | fatal => rw [hs] at hr; simp [Res.bind] at hr
    | ub => rw [hs] at hr; simp [Res.bind] at hr

/-- An invariant that a call keeps when the state after it satisfies `Q`, over a history that leads through states satisfying
`Q` only. -/
theorem run_prefix_inv (step : S → O → Res (S × X)) (P Q : S → Prop)
    (hstep : ∀ s o s' x, P s → Q s' → step s o = .ok (s', x) → P s') (hist : List O) :
    ∀ s s' xs, P s → run step s hist = .ok (s', xs) →
      (∀ pre, pre <+: hist → ∀ s1 xs1, run step s pre = .ok (s1, xs1) → Q s1) → P s' := by
  induction hist with
  | nil =>
    intro s s' xs hP hr _
    simp only [run, Res.ok.injEq, Prod.mk.injEq] at hr
    rw [← hr.1]; exact hP
  | cons o os ih =>
    intro s s' xs hP hr hQ
    cases hs : step s o with
    | ok r =>
      have h1 : P r.1 := by
        refine hstep s o r.1 r.2 hP (hQ [o] ⟨os, rfl⟩ r.1 [r.2] ?_) hs
        simp only [run, hs, Res.bind]
      cases hr2 : run step r.1 os with
      | ok q =>
        simp only [run, hs, hr2, Res.bind, Res.ok.injEq, Prod.mk.injEq] at hr
        rw [← hr.1]
        refine ih r.1 q.1 q.2 h1 hr2 fun pre hp s1 xs1 h => hQ (o :: pre) ?_ s1 (r.2 :: xs1) ?_
        · obtain ⟨l, rfl⟩ := hp
          exact ⟨l, rfl⟩
        · simp only [run, hs, h, Res.bind]
      | abort => simp [run, hs, hr2, Res.bind] at hr
      | fatal => simp [run, hs, hr2, Res.bind] at hr
      | ub => simp [run, hs, hr2, Res.bind] at hr
    | abort => simp [run, hs, Res.bind] at hr
    | fatal => simp [run, hs, Res.bind] at hr
    | ub => simp [run, hs, Res.bind] at hr

end Maa.Spec
