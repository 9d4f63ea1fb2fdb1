import Verif.Model.SlProgs
import Verif.Lemmas.SlLoose
import Verif.Props.SlProgs

/-! # Property C86: skip lists with any comparison function -/

namespace Maa.Sl

open Spec (SlOp SlProg Coll Colls ResRel run observe)

variable {σ : Type}

/-- how a part of a program ends, pointer level against one of the outcomes it may have -/
def PostLoose (a : State × σ × Int) (b : Colls × σ × Int) : Prop := a.2 = b.2 ∧ ∃ N, InvOf Loose a.1 b.1 N

theorem then_bind {α α' β β' : Type} {R : α → α' → Prop} {Q : β → β' → Prop} {x : Res α} {q : Res α'} (h : ResRel R x q)
    {f : α → Res β} {K : α' → Res β' → Prop} (hf : ∀ a b, R a b → ∃ r, K b r ∧ ResRel Q (f a) r) :
    ∃ r, Spec.Res.Then q K r ∧ ResRel Q (x.bind f) r := by
  cases x <;> cases q <;> simp only [ResRel] at h
  · exact hf _ _ h
  · exact ⟨_, rfl, trivial⟩
  · exact ⟨_, rfl, trivial⟩
  · exact ⟨_, rfl, trivial⟩

theorem callBody_loose {body : State → σ → Nat → Res (State × σ × Int)} {spec : Colls → σ → Nat → Res (Colls × σ × Int) → Prop}
    (hb : ∀ st d s S N, InvOf Loose s S N → ∃ r, spec S st d r ∧ ResRel PostLoose (body s st d) r) (copy : List Nat) :
    ∀ (n i : Nat) (s : State) (S : Colls) (st : σ) N, i + n = copy.length → InvOf Loose s S N →
    ∃ r, Spec.mayVisit spec (copy.drop i) S st r ∧ ResRel PostLoose (callBody body copy n i s st) r := by
  intro n
  induction n with
  | zero =>
    intro i s S st N hi I
    rw [List.drop_of_length_le (by omega)]
    exact ⟨_, rfl, rfl, N, I⟩
  | succ n ih =>
    intro i s S st N hi I
    have hd : copy.drop i = copy[i]'(by omega) :: copy.drop (i + 1) := List.drop_eq_getElem_cons (by omega)
    rw [hd]
    simp only [callBody, Spec.mayVisit]
    rw [List.getElem?_eq_getElem (by omega : i < copy.length)]
    simp only
    obtain ⟨q, hq1, hq2⟩ := hb st copy[i] s S N I
    obtain ⟨r, h1, h2⟩ := then_bind hq2 (Q := PostLoose) (f := fun q => if q.2.2 ≠ 0 then Res.ok q else callBody body copy n (i + 1) q.1 q.2.1)
      (K := fun a r => if a.2.2 ≠ 0 then r = Res.ok a else Spec.mayVisit spec (copy.drop (i + 1)) a.1 a.2.1 r) (by
        rintro a b ⟨h1, N', I'⟩
        rw [h1]
        by_cases hz : b.2.2 ≠ 0
        · exact ⟨.ok b, by rw [if_pos hz], by rw [if_pos hz]; exact ⟨h1, N', I'⟩⟩
        · simp only [if_neg hz]
          exact ih (i + 1) a.1 b.1 b.2.1 N' (by omega) I')
    exact ⟨r, ⟨q, hq1, h1⟩, h2⟩

theorem exec_loose (p : SlProg σ) : ∀ s S N, InvOf Loose s S N → ∃ r, Colls.mayExec p S r ∧ ResRel PostLoose (exec p s) r := by
  induction p with
  | ret st x => intro s S N I; exact ⟨_, rfl, rfl, N, I⟩
  | call o k ih =>
    intro s S N I
    obtain ⟨q, h1, h2⟩ := step_loose I o
    obtain ⟨r, h3, h4⟩ := then_bind h2 (Q := PostLoose) (f := fun q => exec (k q.2) q.1) (K := fun a r => Colls.mayExec (k a.2) a.1 r) (by
      rintro a b ⟨e, N', I'⟩
      rw [e]
      exact ih _ _ _ N' I')
    exact ⟨r, ⟨q, h1, h3⟩, h4⟩
  | walk l st f k ihf ihk =>
    intro s S N I
    simp only [exec, Colls.mayExec, walkCalls]
    by_cases h0 : l = 0
    · simp only [if_pos h0, Res.bind]
      exact ihk _ _ _ _ N I
    · simp only [if_neg h0]
      cases hl : s.lists l with
      | none => exact ⟨.ub, by rw [I.none' l hl], by simp only [State.check, if_neg h0, hl, Res.bind, ResRel]⟩
      | some o =>
        obtain ⟨c, hc, m⟩ := I.mat l o hl
        have r := I.rep l o hl
        have hh : s.heap.fwd o.head 0 = .ok (nxt 0 (N l)) := NodeOk.fwd (n := hd o) (r.linked [] _ _ rfl) (Nat.zero_le _)
        have hch : s.check l = .ok o := by unfold State.check; rw [if_neg h0, hl]
        rw [hch, okBind, hh, okBind]
        rw [copyLoop_ok (N l) _ [] _ (by have := r.few; omega) (Linked.suffix (a := [hd o]) r.linked) (fun n hn => Nat.ne_of_gt (r.pos n (by simp [hn])))
          (by simpa using r.size), okBind, hc]
        obtain ⟨q, h1, h2⟩ := callBody_loose (fun st d s S N I => ihf st d s S N I) ([] ++ (N l).map Node.datum) o.count.toNat 0 s S st N
          (by rw [r.size]; simp) I
        obtain ⟨r', h3, h4⟩ := then_bind h2 (Q := PostLoose) (f := fun q => exec (k q.2.1 q.2.2) q.1) (K := fun a r => Colls.mayExec (k a.2.1 a.2.2) a.1 r) (by
          rintro a b ⟨e, N', I'⟩
          rw [e]
          exact ihk _ _ _ _ N' I')
        exact ⟨r', ⟨(N l).map Node.datum, m.2.2.symm, q, h1, h3⟩, h4⟩

/-- C86: whatever functions the lists are created with (the comparison need not be an order, nor be consistent with itself), every program,
with walks inside walks, has one of the outcomes that Spec/SlLoose.lean allows: data are neither lost nor doubled nor invented, a search gives
nothing that does not compare equal, a walk visits exactly the data the list has, and the behaviour is undefined only when a list that does
not exist is used. -/
theorem C86_programs (place : Policy) (hp : Maa.Heap.Allocator place) (p : SlProg σ) :
    ∃ r, Colls.mayExec p Colls.empty r ∧ ((exec p (State.init place)).bind fun x => Res.ok x.2) = r.bind fun x => Res.ok x.2 := by
  obtain ⟨r, h1, h2⟩ := exec_loose p _ _ _ (inv_init hp)
  refine ⟨r, h1, ?_⟩
  cases ha : exec p (State.init place) <;> cases r <;> rw [ha] at h2 <;> simp only [ResRel] at h2
  · simp only [Res.bind, h2.1]
  all_goals rfl

/-- C86: no comparison function makes the library touch memory it should not: a program that uses no list that does not exist, whichever of
the allowed outcomes its calls have, has no undefined behaviour. -/
theorem C86_safe (place : Policy) (hp : Maa.Heap.Allocator place) (p : SlProg σ) (h : ¬ Colls.mayExec p Colls.empty .ub) :
    exec p (State.init place) ≠ .ub := by
  intro e
  obtain ⟨r, h1, h2⟩ := C86_programs place hp p
  rw [e] at h2
  cases r with
  | ub => exact h h1
  | ok x => simp [Res.bind] at h2
  | abort => simp [Res.bind] at h2
  | fatal => simp [Res.bind] at h2

/-- C86, memory: when the program has returned, for one of the allowed outcomes: the lists that ought to exist do, each has the count and the level
it should, and when there is none left, neither is any memory. -/
theorem C86_memory (place : Policy) (hp : Maa.Heap.Allocator place) (p : SlProg σ) (s : State) (x : σ × Int)
    (h : exec p (State.init place) = .ok (s, x)) :
    ∃ S, Colls.mayExec p Colls.empty (.ok (S, x)) ∧ (∀ l, (s.lists l).isSome = (S.colls l).isSome) ∧
      (∀ l c, S.colls l = some c → ∃ o, s.lists l = some o ∧ o.count = c.data.length ∧ o.level ≤ 16) ∧
      ((∀ l, S.colls l = none) → ∀ a, s.heap.mem a = none) := by
  obtain ⟨r, h1, h2⟩ := exec_loose p _ _ _ (inv_init hp)
  rw [h] at h2
  cases r with
  | abort => simp [ResRel] at h2
  | fatal => simp [ResRel] at h2
  | ub => simp [ResRel] at h2
  | ok b =>
    obtain ⟨e, N, I⟩ := h2
    obtain ⟨S, y⟩ := b
    have e' : x = y := e
    subst e'
    have e : ∀ l, (s.lists l).isSome = (S.colls l).isSome := by
      intro l
      cases hl : s.lists l with
      | none => simp [show S.colls l = none from I.none' l hl]
      | some o => obtain ⟨c, hc, -⟩ := I.mat l o hl; simp [show S.colls l = some c from hc]
    refine ⟨S, h1, e, ?_, ?_⟩
    · intro l c hc
      have := e l
      rw [hc] at this
      obtain ⟨o, ho⟩ := Option.isSome_iff_exists.1 this
      obtain ⟨c', hc', -, -, m4⟩ := I.mat l o ho
      have hc'' : S.colls l = some c' := hc'
      rw [hc, Option.some.injEq] at hc''
      subst hc''
      refine ⟨o, ho, ?_, (I.rep l o ho).top⟩
      rw [(I.rep l o ho).size, m4.length_eq]; simp
    · intro hn a
      by_contra ha
      obtain ⟨l, o, hl, -⟩ := I.own a ha
      have := e l
      rw [show s.lists l = some o from hl, hn l] at this
      simp at this

/-- The calls on one list, other than destroying it. -/
def OnList (l : Nat) : SlOp → Prop
  | .insert j _ _ => j = l
  | .delete j _ => j = l
  | .find j _ => j = l
  | _ => False

/-- C86: one list, created with any functions, and any sequence of insertions, deletions and searches: there is no undefined behaviour. -/
theorem C86_one_list (place : Policy) (hp : Maa.Heap.Allocator place) (cmp : Nat → Nat → Int) (key : Nat → Nat) (ops : List SlOp)
    (h : ∀ o ∈ ops, OnList 1 o) : observe (run step (State.init place) (.create (some cmp) (some key) :: ops)) ≠ .ub := by
  have main : ∀ (ops : List SlOp) (s : State) (S : Colls) N, (∀ o ∈ ops, OnList 1 o) → InvOf Loose s S N → (S.colls 1).isSome →
      run step s ops ≠ .ub := by
    intro ops
    induction ops with
    | nil => intro s S N _ _ _; simp [run]
    | cons o ops ih =>
      intro s S N ho I h1
      obtain ⟨b, hb, hr⟩ := step_loose I o
      have hoo := ho o (by simp)
      obtain ⟨c, hc⟩ := Option.isSome_iff_exists.1 h1
      have hb' : (∃ S' x, b = .ok (S', x) ∧ (S'.colls 1).isSome) ∨ b = .abort := by
        cases o with
        | create _ _ => exact absurd hoo id
        | destroy _ => exact absurd hoo id
        | insert l d rnd =>
          have : l = 1 := hoo
          subst this
          simp only [Colls.may, Colls.mayOn, hc] at hb
          rcases hb with hb | ⟨hb, -⟩
          · left; exact ⟨_, _, hb, by simp [Colls.set]⟩
          · right; exact hb
        | delete l d =>
          have : l = 1 := hoo
          subst this
          simp only [Colls.may, Colls.mayOn, hc] at hb
          rcases hb with ⟨e, -, -, hb⟩ | hb
          · left; exact ⟨_, _, hb, by simp [Colls.set]⟩
          · right; exact hb
        | find l k =>
          have : l = 1 := hoo
          subst this
          simp only [Colls.may, Colls.mayOn, hc] at hb
          rcases hb with ⟨e, -, -, hb⟩ | hb
          · left; exact ⟨_, _, hb, h1⟩
          · left; exact ⟨_, _, hb, h1⟩
      simp only [run]
      rcases hb' with ⟨S', x, rfl, hS⟩ | rfl
      · cases hs : step s o <;> rw [hs] at hr <;> simp only [ResRel] at hr
        rename_i a
        obtain ⟨-, N', I'⟩ := hr
        have := ih a.1 S' N' (fun o ho' => ho o (by simp [ho'])) I' hS
        cases hq : run step a.1 ops <;> simp_all [Res.bind]
      · cases hs : step s o <;> rw [hs] at hr <;> simp only [ResRel] at hr
        simp [Res.bind]
  obtain ⟨σ', e, I'⟩ := create_sim (M := Loose) (inv_init hp) cmp key fun s h1 h2 => ⟨h1, h2, by simp⟩
  have := main ops σ' _ _ h I' (by simp [Colls.empty])
  intro hu
  have hst : step (State.init place) (.create (some cmp) (some key)) = .ok (σ', 1) := e
  simp only [run, hst, Res.bind, observe] at hu
  cases hq : run step σ' ops <;> simp_all

/-- "Paper covers stone, scissors cut paper, stone breaks scissors": a comparison that goes round in a circle. -/
def roundabout : SlOp := .create (some fun a b => if a % 3 = b % 3 then 0 else if (a + 1) % 3 = b % 3 then -1 else 1) (some id)

/-- 3, 1 and 2 form a circle; 1 is in the list and yet not found, until the other two are gone -/
example : observe (run step State.init [roundabout, .insert 1 3 fun _ => 0x80, .insert 1 1 fun _ => 0, .insert 1 2 fun k => if k < 2 then 0x80 else 0,
    .find 1 1, .find 1 2, .find 1 3, .delete 1 2, .delete 1 3, .find 1 1]) = .ok [1, 0, 0, 0, 0, 2, 3, 0, 0, 1] := by decide +kernel

example (place : Policy) (hp : Maa.Heap.Allocator place) (rnd : Nat → Nat) :
    observe (run step (State.init place) [roundabout, .insert 1 3 rnd, .insert 1 1 rnd, .insert 1 2 rnd, .delete 1 2, .find 1 3]) ≠ .ub :=
  C86_one_list place hp _ _ [.insert 1 3 rnd, .insert 1 1 rnd, .insert 1 2 rnd, .delete 1 2, .find 1 3] (by simp [OnList])

/-- with a comparison that calls everything smaller the same datum can be inserted twice, and is visited twice; what was inserted is not found -/
example : ((exec (.call (.create (some fun _ _ => -1) (some id)) fun l => .call (.insert l 5 fun _ => 0) fun _ => .call (.insert l 5 fun _ => 0x80) fun _ =>
    .call (.find l 5) fun x => .walk l [x] (fun st d => .ret (st ++ [d]) 0) fun st r => .ret st r) State.init).bind fun r => Res.ok r.2) =
    .ok ([0, 5, 5], 0) := by decide +kernel

end Maa.Sl
