import Verif.Model.SlFickle
import Verif.Spec.SlFickle
import Verif.Lemmas.TabLoose
import Verif.Props.SlLoose

/-! # Property C93: the keys in a skip list are changed -/

namespace Maa.Sl

open Spec (SlOp SlProg Coll Colls ResRel run observe mayRun)

theorem InvOf.answering {M M' : Coll → SList → List Node → Prop} {s : State} {S : Colls} {N : Nat → List Node} (I : InvOf M s S N) (f : Answers)
    (h : ∀ l c o, S.colls l = some c → s.lists l = some o → M c o (N l) →
      M' { c with cmp := (f l).1, key := (f l).2 } { o with compare := (f l).1, key := (f l).2 } (N l)) :
    InvOf M' (s.answering f) (S.answering f) N := by
  have get : ∀ l o, (s.answering f).lists l = some o → ∃ p, s.lists l = some p ∧ o = { p with compare := (f l).1, key := (f l).2 } := by
    intro l o ho
    simp only [State.answering, Option.map_eq_some_iff] at ho
    obtain ⟨p, hp, rfl⟩ := ho
    exact ⟨p, hp, rfl⟩
  refine ⟨?_, ?_, ?_, ?_, ?_, I.next, ?_, I.pos, I.ok⟩
  · intro l o ho
    obtain ⟨p, hp, rfl⟩ := get l o ho
    have r := I.rep l p hp
    exact ⟨r.linked, r.nodup, r.ok, r.levs, r.top, r.size⟩
  · intro l o ho
    obtain ⟨p, hp, rfl⟩ := get l o ho
    obtain ⟨c, hc, m⟩ := I.mat l p hp
    exact ⟨_, by simp only [Colls.answering, hc, Option.map_some], h l c p hc hp m⟩
  · intro l hl
    have : s.lists l = none := by simpa [State.answering] using hl
    simp [Colls.answering, I.none' l this]
  · intro l l' o o' hne ho ho'
    obtain ⟨p, hp, rfl⟩ := get l o ho
    obtain ⟨p', hp', rfl⟩ := get l' o' ho'
    exact I.disj l l' p p' hne hp hp'
  · intro a ha
    obtain ⟨l, o, ho, hm⟩ := I.own a ha
    exact ⟨l, { o with compare := (f l).1, key := (f l).2 }, by simp only [State.answering, ho, Option.map_some], hm⟩
  · intro l o ho
    obtain ⟨p, hp, rfl⟩ := get l o ho
    exact I.small l p hp

theorem InvOf.answers {s : State} {S : Colls} {N : Nat → List Node} (I : InvOf Loose s S N) (f : Answers) :
    InvOf Loose (s.answering f) (S.answering f) N :=
  I.answering f fun _ _ _ _ _ m => ⟨rfl, rfl, m.2.2⟩

theorem stepNow_loose (σ : State) (S : Colls) (o : Answers × SlOp) (h : ∃ N, InvOf Loose σ S N) :
    ∃ r, S.mayNow o r ∧ ResRel (fun c b => c.2 = b.2 ∧ ∃ N, InvOf Loose c.1 b.1 N) (stepNow σ o) r := by
  obtain ⟨N, I⟩ := h
  exact step_loose (I.answers o.1) o.2

/-- C93: the functions of the lists may answer anything, and something else during each call (as when keys that are in a list are changed): every
history has one of the outcomes that are allowed with the functions as they answer during each call. -/
theorem C93_history (place : Policy) (hp : Maa.Heap.Allocator place) (hist : List (Answers × SlOp)) :
    ∃ r, mayRun Colls.mayNow Colls.empty hist r ∧ observe (run stepNow (State.init place) hist) = observe r := by
  obtain ⟨r, h1, h2⟩ := Maa.HashHeap.run_loose (R := fun σ S => ∃ N, InvOf Loose σ S N) stepNow_loose hist _ _ ⟨_, inv_init hp⟩
  exact ⟨r, h1, ResRel.observe (R := fun σ S => ∃ N, InvOf Loose σ S N) h2⟩

/-- C93: nothing a program does to its keys between calls makes the library touch memory it should not. -/
theorem C93_safe (place : Policy) (hp : Maa.Heap.Allocator place) (hist : List (Answers × SlOp))
    (h : ¬ mayRun Colls.mayNow Colls.empty hist .ub) : run stepNow (State.init place) hist ≠ .ub := by
  intro e
  obtain ⟨r, h1, h2⟩ := Maa.HashHeap.run_loose (R := fun σ S => ∃ N, InvOf Loose σ S N) stepNow_loose hist _ _ ⟨_, inv_init hp⟩
  rw [e] at h2
  cases r <;> simp only [ResRel] at h2
  exact h h1

/-- C93, afterwards: there are the lists there should be, each with as many data as it should have; every program that goes on from there, whatever the
functions answer from then on, has one of the outcomes allowed; and if there are no lists there is no memory either. -/
theorem C93_then (place : Policy) (hp : Maa.Heap.Allocator place) (hist : List (Answers × SlOp)) (s : State) (out : List Nat)
    (h : run stepNow (State.init place) hist = .ok (s, out)) :
    ∃ S, mayRun Colls.mayNow Colls.empty hist (.ok (S, out)) ∧ (∀ l, (s.lists l).isSome = (S.colls l).isSome) ∧
      (∀ l c, S.colls l = some c → ∃ o, s.lists l = some o ∧ o.count = c.data.length ∧ o.level ≤ 16) ∧
      ((∀ l, S.colls l = none) → ∀ a, s.heap.mem a = none) ∧
      ∀ (σ : Type) (f : Answers) (p : SlProg σ), ∃ r, Colls.mayExec p (S.answering f) r ∧
        ((exec p (s.answering f)).bind fun x => Res.ok x.2) = r.bind fun x => Res.ok x.2 := by
  obtain ⟨r, h1, h2⟩ := Maa.HashHeap.run_loose (R := fun σ S => ∃ N, InvOf Loose σ S N) stepNow_loose hist _ _ ⟨_, inv_init hp⟩
  rw [h] at h2
  cases r with
  | abort => simp [ResRel] at h2
  | fatal => simp [ResRel] at h2
  | ub => simp [ResRel] at h2
  | ok b =>
    obtain ⟨S, y⟩ := b
    obtain ⟨e, N, I⟩ := h2
    have e' : out = y := e
    subst e'
    have e : ∀ l, (s.lists l).isSome = (S.colls l).isSome := by
      intro l
      cases hl : s.lists l with
      | none => simp [show S.colls l = none from I.none' l hl]
      | some o => obtain ⟨c, hc, -⟩ := I.mat l o hl; simp [show S.colls l = some c from hc]
    refine ⟨S, h1, e, ?_, ?_, ?_⟩
    · intro l c hc
      have := e l
      rw [hc] at this
      obtain ⟨o, ho⟩ := Option.isSome_iff_exists.1 this
      obtain ⟨c', hc', -, -, m4⟩ := I.mat l o ho
      have hc'' : S.colls l = some c' := hc'
      rw [hc, Option.some.injEq] at hc''
      subst hc''
      refine ⟨o, ho, ?_, (I.rep l o ho).top⟩
      rw [(I.rep l o ho).size, m4.length_eq]; simp
    · intro hn a
      by_contra ha
      obtain ⟨l, o, hl, -⟩ := I.own a ha
      have := e l
      rw [show s.lists l = some o from hl, hn l] at this
      simp at this
    · intro σ f p
      obtain ⟨r, h3, h4⟩ := exec_loose p _ _ _ (I.answers f)
      refine ⟨r, h3, ?_⟩
      cases ha : exec p (s.answering f) <;> cases r <;> rw [ha] at h4 <;> simp only [ResRel] at h4
      · simp only [Res.bind, h4.1]
      all_goals rfl

/-- C93, one list: created with any functions, it can be used with any answers afterwards. -/
theorem C93_one_list (place : Policy) (hp : Maa.Heap.Allocator place) (cmp : Nat → Nat → Int) (key : Nat → Nat) (f : Answers)
    (ops : List (Answers × SlOp)) (h : ∀ o ∈ ops, OnList 1 o.2) :
    run stepNow (State.init place) ((f, .create (some cmp) (some key)) :: ops) ≠ .ub := by
  refine C93_safe place hp _ ?_
  have main : ∀ (ops : List (Answers × SlOp)) (S : Colls), (∀ o ∈ ops, OnList 1 o.2) → (S.colls 1).isSome → ¬ mayRun Colls.mayNow S ops .ub := by
    intro ops
    induction ops with
    | nil => intro S _ _; simp [mayRun]
    | cons o ops ih =>
      intro S ho h1 hm
      obtain ⟨q, hq, hr⟩ := hm
      have hoo := ho o (by simp)
      obtain ⟨c, hc⟩ := Option.isSome_iff_exists.1 h1
      have hc' : (S.answering o.1).colls 1 = some { c with cmp := (o.1 1).1, key := (o.1 1).2 } := by simp [Colls.answering, hc]
      have hb : (∃ S' x, q = .ok (S', x) ∧ (S'.colls 1).isSome) ∨ q = .abort := by
        obtain ⟨f, o⟩ := o
        unfold Colls.mayNow at hq
        simp only at hq hc' hoo
        cases o with
        | create _ _ => exact absurd hoo id
        | destroy _ => exact absurd hoo id
        | insert l d rnd =>
          have : l = 1 := hoo
          subst this
          simp only [Colls.may, Colls.mayOn, hc'] at hq
          rcases hq with hq | ⟨hq, -⟩
          · left; exact ⟨_, _, hq, by simp [Colls.set]⟩
          · right; exact hq
        | delete l d =>
          have : l = 1 := hoo
          subst this
          simp only [Colls.may, Colls.mayOn, hc'] at hq
          rcases hq with ⟨e, -, -, hq⟩ | hq
          · left; exact ⟨_, _, hq, by simp [Colls.set]⟩
          · right; exact hq
        | find l k =>
          have : l = 1 := hoo
          subst this
          simp only [Colls.may, Colls.mayOn, hc'] at hq
          rcases hq with ⟨e, -, -, hq⟩ | hq
          · left; exact ⟨_, _, hq, by simp [hc']⟩
          · left; exact ⟨_, _, hq, by simp [hc']⟩
      rcases hb with ⟨S', x, rfl, hS⟩ | rfl
      · obtain ⟨p, hp, e⟩ := hr
        cases p <;> simp only [Res.bind, reduceCtorEq] at e
        exact ih S' (fun o h => ho o (by simp [h])) hS hp
      · simp [Spec.Res.Then] at hr
  rintro ⟨q, hq, hr⟩
  have hq' : q = (Colls.empty.answering f).step (.create (some cmp) (some key)) := hq
  subst hq'
  obtain ⟨p, hp, e⟩ := hr
  cases p <;> simp only [Res.bind, reduceCtorEq] at e
  exact main ops _ h (by simp [Colls.answering, Colls.empty]) hp

/-- C93: changes that keep the order of the data which are in the lists go unnoticed: every call does what it should, under the order there is
at the time of the call. -/
theorem C93_in_order (place : Policy) (hp : Maa.Heap.Allocator place) (hist : List (Answers × SlOp)) (h : Colls.empty.InOrder hist) :
    observe (run stepNow (State.init place) hist) = observe (run Colls.stepNow Colls.empty hist) := by
  have main : ∀ (hist : List (Answers × SlOp)) (σ : State) (S : Colls) N, Inv σ S N → S.InOrder hist →
      ResRel (fun a b => a.2 = b.2) (run stepNow σ hist) (run Colls.stepNow S hist) := by
    intro hist
    induction hist with
    | nil => intro σ S N _ _; exact rfl
    | cons o os ih =>
      intro σ S N I h
      obtain ⟨h1, h2, h3⟩ := h
      have I' : Inv (σ.answering o.1) (S.answering o.1) N := I.answering o.1 (by
        rintro l c p hc hl ⟨m1, m2, m3, m4, m5⟩
        obtain ⟨t, k⟩ := h1 l c hc
        refine ⟨rfl, rfl, t, m4, ?_⟩
        refine m5.imp_of_mem ?_
        intro a b ha hb hab
        refine k _ (m4.mem_iff.2 (List.mem_map_of_mem ha)) _ (m4.mem_iff.2 (List.mem_map_of_mem hb)) ?_
        rw [← m1, ← m2]
        exact hab)
      have := step_sim I' o.2 h2
      simp only [run]
      have e1 : stepNow σ o = step (σ.answering o.1) o.2 := rfl
      have e2 : S.stepNow o = (S.answering o.1).step o.2 := rfl
      rw [← e1, ← e2] at this
      cases hs : S.stepNow o with
      | ok b =>
        rw [hs] at this
        cases hc : stepNow σ o <;> rw [hc] at this <;> simp only [ResRel] at this
        rename_i a
        obtain ⟨e, N', I''⟩ := this
        simp only [Res.bind]
        refine (ih a.1 b.1 N' I'' (h3 b.1 b.2 hs)).bind fun x y hxy => ?_
        simp only [ResRel, e, hxy]
      | _ =>
        rw [hs] at this
        cases hc : stepNow σ o <;> rw [hc] at this <;> simp only [ResRel] at this
        simp [Res.bind, ResRel]
  exact ResRel.observe (R := fun _ _ => True) (by
    have := main hist _ _ _ (inv_init hp) h
    cases h1 : run stepNow (State.init place) hist <;> cases h2 : run Colls.stepNow Colls.empty hist <;> rw [h1, h2] at this <;>
      simp only [ResRel] at this <;> simp [ResRel, this])

/-- Data are compared as numbers, by the keys they have now. -/
def keyed (k : Nat → Nat) : Answers := fun _ => (fun a b => (a : Int) - b, k)

/-- 20 becomes the greatest after 10, 20 and 30 were inserted: it is found under
its new key, but 30 is not found any more; 30 is found again when the key of 20 is made the smallest, and everything is as it was when the keys are -/
example : observe (run stepNow State.init [(keyed id, byNumber), (keyed id, .insert 1 20 fun _ => 0), (keyed id, .insert 1 10 fun _ => 0),
    (keyed id, .insert 1 30 fun _ => 0), (keyed fun d => if d = 20 then 99 else d, .find 1 99), (keyed fun d => if d = 20 then 99 else d, .find 1 30),
    (keyed fun d => if d = 20 then 1 else d, .find 1 30), (keyed id, .delete 1 20), (keyed id, .find 1 30), (keyed id, .destroy 1)]) =
    .ok [1, 0, 0, 0, 20, 0, 30, 0, 30, 0] := by decide +kernel

example (place : Policy) (hp : Maa.Heap.Allocator place) (k1 k2 k3 : Nat → Nat) (rnd : Nat → Nat) :
    run stepNow (State.init place) [(keyed id, byNumber), (keyed k1, .insert 1 20 rnd), (keyed k2, .insert 1 10 rnd), (keyed k3, .delete 1 20)] ≠ .ub :=
  C93_one_list place hp _ _ _ [(keyed k1, .insert 1 20 rnd), (keyed k2, .insert 1 10 rnd), (keyed k3, .delete 1 20)] (by simp [OnList])

/-- The comparison of numbers. -/
def numbers (a b : Nat) : Int := (a : Int) - b

/-- `k` is a growing function. -/
def Growing (k : Nat → Nat) : Prop := ∀ a b, a < b → k a < k b

theorem Growing.inj {k : Nat → Nat} (h : Growing k) {a b : Nat} (e : k a < k b) : a < b := by
  rcases Nat.lt_trichotomy a b with h1 | rfl | h1
  · exact h1
  · omega
  · have := h b a h1; omega

theorem keyed_total (k : Nat → Nat) (l : Nat) : Spec.TotalOrder (keyed k l).1 := by
  constructor <;> intros <;> simp only [keyed] at * <;> omega

/-- A program whose data always grow with their addresses, however their keys change, satisfies the condition of `C93_in_order`. -/
theorem inOrder_growing (hist : List (Answers × SlOp))
    (h : ∀ o ∈ hist, (∃ k, o.1 = keyed k ∧ Growing k) ∧ ∀ c k, o.2 = .create (some c) (some k) → c = numbers ∧ Growing k) :
    Colls.empty.InOrder hist := by
  have main : ∀ (hist : List (Answers × SlOp)) (S : Colls), (∀ l c, S.colls l = some c → c.cmp = numbers ∧ Growing c.key) →
      (∀ o ∈ hist, (∃ k, o.1 = keyed k ∧ Growing k) ∧ ∀ c k, o.2 = .create (some c) (some k) → c = numbers ∧ Growing k) →
      S.InOrder hist := by
    intro hist
    induction hist with
    | nil => intro S _ _; trivial
    | cons o os ih =>
      intro S hS h
      obtain ⟨⟨k, h1, h2⟩, h3⟩ := h o (by simp)
      have hA : ∀ l c, (S.answering o.1).colls l = some c → c.cmp = numbers ∧ Growing c.key := by
        intro l c hc
        simp only [Colls.answering, Option.map_eq_some_iff] at hc
        obtain ⟨c', -, rfl⟩ := hc
        rw [h1]
        exact ⟨rfl, h2⟩
      have hset : ∀ (l : Nat) (c' : Option Coll), (∀ c, c' = some c → c.cmp = numbers ∧ Growing c.key) →
          ∀ j c, ((S.answering o.1).set l c').colls j = some c → c.cmp = numbers ∧ Growing c.key := by
        intro l c' hc' j c hc
        simp only [Colls.set] at hc
        split at hc
        · exact hc' c hc
        · exact hA j c hc
      refine ⟨?_, ?_, ?_⟩
      · intro l c hc
        rw [h1]
        refine ⟨keyed_total k l, ?_⟩
        intro a _ b _ hab
        obtain ⟨e1, e2⟩ := hS l c hc
        rw [e1] at hab
        have : c.key a < c.key b := by simp only [numbers] at hab; omega
        have := h2 a b (e2.inj this)
        simp only [keyed]; omega
      · cases h4 : o.2 with
        | create c k' =>
          cases c with
          | none => trivial
          | some c =>
            cases k' with
            | none => trivial
            | some k' =>
              rw [(h3 c k' h4).1]
              exact keyed_total id 0
        | _ => trivial
      · intro S' x e
        refine ih S' ?_ (fun o' ho' => h o' (by simp [ho']))
        unfold Colls.stepNow at e
        have on : ∀ l (kk : Coll → Res (Colls × Nat)), (S.answering o.1).on l kk = .ok (S', x) → ∃ c, (S.answering o.1).colls l = some c ∧ kk c = .ok (S', x) := by
          intro l kk hk
          unfold Colls.on at hk
          split at hk
          · cases hk
          · split at hk
            · cases hk
            · exact ⟨_, ‹_›, hk⟩
        cases h4 : o.2 with
        | create c k' =>
          rw [h4] at e
          cases c with
          | none => cases e
          | some c =>
            cases k' with
            | none => cases e
            | some k' =>
              simp only [Colls.step, Res.ok.injEq, Prod.mk.injEq] at e
              obtain ⟨rfl, -⟩ := e
              intro l c' hc
              simp only at hc
              split at hc
              · simp only [Option.some.injEq] at hc
                subst hc
                exact h3 c k' h4
              · exact hA l c' hc
        | destroy l =>
          rw [h4] at e
          obtain ⟨c, hc, e⟩ := on l _ e
          simp only [Res.ok.injEq, Prod.mk.injEq] at e
          obtain ⟨rfl, -⟩ := e
          exact hset l none (by simp)
        | insert l d rnd =>
          rw [h4] at e
          obtain ⟨c, hc, e⟩ := on l _ e
          split at e
          · cases e
          · simp only [Res.ok.injEq, Prod.mk.injEq] at e
            obtain ⟨rfl, -⟩ := e
            refine hset l _ ?_
            rintro c' ⟨⟩
            exact hA l c hc
        | delete l d =>
          rw [h4] at e
          obtain ⟨c, hc, e⟩ := on l _ e
          split at e
          · cases e
          · simp only [Res.ok.injEq, Prod.mk.injEq] at e
            obtain ⟨rfl, -⟩ := e
            refine hset l _ ?_
            rintro c' ⟨⟩
            exact hA l c hc
        | find l k' =>
          rw [h4] at e
          obtain ⟨c, hc, e⟩ := on l _ e
          simp only [Res.ok.injEq, Prod.mk.injEq] at e
          obtain ⟨rfl, -⟩ := e
          exact hA
  exact main hist _ (by simp [Colls.empty]) h

/-- keys that are doubled, or moved, while the data are in the list -/
example (place : Policy) (hp : Maa.Heap.Allocator place) (rnd : Nat → Nat) :
    observe (run stepNow (State.init place) [(keyed id, byNumber), (keyed id, .insert 1 10 rnd), (keyed fun d => 2 * d, .insert 1 20 rnd),
      (keyed fun d => d + 5, .find 1 15), (keyed id, .find 1 15)]) = .ok [1, 0, 0, 10, 0] := by
  rw [C93_in_order place hp _ (inOrder_growing _ (by
    simp only [List.mem_cons, List.not_mem_nil, or_false, forall_eq_or_imp, forall_eq, byNumber]
    refine ⟨⟨⟨_, rfl, fun a b h => h⟩, ?_⟩, ⟨⟨_, rfl, fun a b h => h⟩, by simp⟩, ⟨⟨_, rfl, fun a b h => ?_⟩, by simp⟩,
      ⟨⟨_, rfl, fun a b h => ?_⟩, by simp⟩, ⟨_, rfl, fun a b h => h⟩, by simp⟩
    · simp only [SlOp.create.injEq, Option.some.injEq]
      rintro c k ⟨rfl, rfl⟩
      exact ⟨rfl, fun a b h => h⟩
    · omega
    · omega))]
  rfl

/-! ### Functions that change their mind during a call -/

theorem advanceF_any {cmp : Nat → Nat → Nat → Int} {s : SList} {h : Heap} {key i : Nat} : ∀ (xs : List Node) (fuel t p : Nat), xs.length < fuel →
    Linked h xs → (∀ n ∈ xs, n.id ≠ 0) → h.fwd p i = .ok (nxt i xs) →
    ∃ t' c ge, xs = c ++ ge ∧ advanceF cmp s h key i fuel t p = .ok (t', pred i p c) ∧ Ends i c := by
  intro xs
  induction xs with
  | nil =>
    intro fuel t p hf _ _ hp
    cases fuel with
    | zero => simp at hf
    | succ fuel => exact ⟨t, [], [], rfl, by simp [advanceF, hp, Res.bind, nxt, pred], Or.inl rfl⟩
  | cons m xs ih =>
    intro fuel t p hf hl h0 hp
    have hs : Linked h xs := Linked.suffix (a := [m]) hl
    have h0' : ∀ n ∈ xs, n.id ≠ 0 := fun n hn => h0 n (by simp [hn])
    by_cases hm : i ≤ m.lev
    · cases fuel with
      | zero => simp at hf
      | succ fuel =>
        have e : nxt i (m :: xs) = m.id := by simp [nxt, hm]
        rw [e] at hp
        by_cases hc : cmp t (s.key m.datum) key < 0
        · obtain ⟨t', c, ge, e1, e2, e3⟩ := ih fuel (t + 1) m.id (by simpa using hf) hs h0' (NodeOk.fwd (Linked.node (a := []) hl) hm)
          refine ⟨t', m :: c, ge, by rw [e1]; rfl, ?_, e3.cons (Or.inr hm)⟩
          simp only [advanceF, hp, Res.bind, Sl.pred, hm, if_true]
          rw [if_neg (h0 m (by simp)), hl.datum (by simp)]
          simp only
          rw [if_pos hc, e2]
        · refine ⟨t + 1, [], m :: xs, rfl, ?_, Or.inl rfl⟩
          simp only [advanceF, hp, Res.bind, Sl.pred]
          rw [if_neg (h0 m (by simp)), hl.datum (by simp)]
          simp only
          rw [if_neg hc]
    · have e : nxt i (m :: xs) = nxt i xs := by simp [nxt, hm]
      rw [e] at hp
      obtain ⟨t', c, ge, e1, e2, e3⟩ := ih fuel t p (by simp at hf; omega) hs h0' hp
      by_cases hc : c = []
      · subst hc
        exact ⟨t', [], m :: xs, rfl, e2, Or.inl rfl⟩
      · exact ⟨t', m :: c, ge, by rw [e1]; rfl, by simp only [Sl.pred, hm, if_false]; exact e2, e3.cons (Or.inl hc)⟩

theorem locateLoopF_any {cmp : Nat → Nat → Nat → Int} {h : Heap} {s : SList} {key : Nat} {ns : List Node} (r : Rep h s ns) :
    ∀ (k t : Nat) (lt ge : List Node) (u : List (Option Nat)), k ≤ s.level + 1 → ns = lt ++ ge → Ends k lt → u.length = 17 →
    ∃ t' lt' ge' u', locateLoopF cmp s h key k t (pred 0 s.head lt) u = .ok (t', pred 0 s.head lt', u') ∧ ns = lt' ++ ge' := by
  intro k
  induction k with
  | zero =>
    intro t lt ge u _ e _ hu
    exact ⟨t, lt, ge, u, rfl, e⟩
  | succ i ih =>
    intro t lt ge u hk e he hu
    have htop := r.top
    obtain ⟨a, n, h1, h2⟩ := last_node (n0 := hd s) (lt := lt)
    have h5 : hd s :: ns = a ++ n :: ge := by rw [e, ← List.cons_append, h1]; simp
    have hni : i ≤ n.lev := by
      rcases he with rfl | ⟨b, m, rfl, hm⟩
      · cases a with
        | nil => simp at h1; rw [← h1]; simp [hd]; omega
        | cons y a => simp at h1
      · rw [← List.cons_append] at h1
        have := (List.append_inj_right' h1 rfl)
        simp only [List.cons.injEq, and_true] at this
        rw [← this]; omega
    have hfw : h.fwd (pred 0 s.head lt) i = .ok (nxt i ge) := by
      have : pred 0 s.head lt = n.id := h2
      rw [this]
      exact NodeOk.fwd (r.linked _ _ _ h5) hni
    have hlk : Linked h ge := by
      have := r.linked
      rw [h5] at this
      exact Linked.suffix (a := a ++ [n]) (by simpa using this)
    have hpos : ∀ x ∈ ge, x.id ≠ 0 := fun x hx => Nat.ne_of_gt (r.pos x (by rw [h5]; simp [hx]))
    have hlen : ge.length < h.clock := by
      have := r.few
      rw [e] at this
      simp at this; omega
    obtain ⟨t', c, ge', e1, e2, e3⟩ := advanceF_any (cmp := cmp) (s := s) (key := key) ge h.clock t _ hlen hlk hpos hfw
    have hlt : Ends i (lt ++ c) := he.append (by omega) e3
    have hadv : advanceF cmp s h key i h.clock t (pred 0 s.head lt) = .ok (t', pred 0 s.head (lt ++ c)) := by
      rw [e2, e3.pred, pred_append]
    simp only [locateLoopF, hadv, Res.bind, setUpdate]
    rw [if_pos (by omega)]
    simp only
    exact ih t' (lt ++ c) ge' _ (by omega) (by rw [e, e1]; simp) hlt (by simpa using hu)

/-- C93: a search in which the functions change their mind ends, and gives a datum of the list or NULL. -/
theorem C93_find_fickle (place : Policy) (hp : Maa.Heap.Allocator place) (hist : List (Answers × SlOp)) (s : State) (out : List Nat)
    (h : run stepNow (State.init place) hist = .ok (s, out)) (cmp : Nat → Nat → Nat → Int) (f : Answers) (l : Nat) (hl : (s.lists l).isSome) (key : Nat) :
    ∃ S c, mayRun Colls.mayNow Colls.empty hist (.ok (S, out)) ∧ S.colls l = some c ∧
      ∃ x, findF cmp (s.answering f) l key = .ok x ∧ (x = 0 ∨ x ∈ c.data) := by
  obtain ⟨r, h1, h2⟩ := Maa.HashHeap.run_loose (R := fun σ S => ∃ N, InvOf Loose σ S N) stepNow_loose hist _ _ ⟨_, inv_init hp⟩
  rw [h] at h2
  cases r with
  | abort => simp [ResRel] at h2
  | fatal => simp [ResRel] at h2
  | ub => simp [ResRel] at h2
  | ok b =>
    obtain ⟨S, y⟩ := b
    obtain ⟨e, N, I⟩ := h2
    have e' : out = y := e
    subst e'
    obtain ⟨o, ho⟩ := Option.isSome_iff_exists.1 hl
    obtain ⟨c, hc, m⟩ := I.mat l o ho
    refine ⟨S, c, h1, hc, ?_⟩
    have I' := I.answers f
    have ho' : (s.answering f).lists l = some { o with compare := (f l).1, key := (f l).2 } := by simp [State.answering, ho]
    have r := I'.rep l _ ho'
    have hl0 : l ≠ 0 := Nat.ne_of_gt (I.small l o ho).1
    have hch : (s.answering f).check l = .ok { o with compare := (f l).1, key := (f l).2 } := by
      unfold State.check; rw [if_neg hl0, ho']
    obtain ⟨t, lt, ge, u, g1, g2⟩ := locateLoopF_any (cmp := cmp) (key := key) r (o.level + 1) 0 [] (N l) noUpdate (Nat.le_refl _) rfl (Or.inl rfl) rfl
    have g3 : pred 0 o.head [] = o.head := rfl
    have hh : (s.answering f).heap = s.heap := rfl
    rw [hh] at g1 r
    have g4 : locateF cmp { o with compare := (f l).1, key := (f l).2 } s.heap key = .ok (t, nxt 0 ge, u) := by
      unfold locateF
      simp only [g3] at g1
      simp only [g1, okBind]
      rw [g2] at r
      have := r.fwd_pred (i := 0) (by decide)
      simp only at this
      rw [this]
      rfl
    unfold findF
    rw [hch, okBind, hh, g4]
    simp only [okBind]
    cases ge with
    | nil => exact ⟨0, by simp [nxt], Or.inl rfl⟩
    | cons g ge' =>
      have hg0 : g.id ≠ 0 := Nat.ne_of_gt (r.pos g (by rw [g2]; simp))
      rw [nxt_zero_cons, if_neg hg0, r.linked.datum (n := g) (by rw [g2]; simp), okBind]
      split
      · exact ⟨_, rfl, Or.inr (m.2.2.mem_iff.2 (by rw [g2]; simp))⟩
      · exact ⟨0, rfl, Or.inl rfl⟩

/-! With functions that do not change their mind these are the calls of before. -/

theorem advanceF_const {s : SList} {h : Heap} {key i : Nat} : ∀ (n t p : Nat),
    ((advanceF (fun _ => s.compare) s h key i n t p).bind fun r => Res.ok r.2) = advance s h key i n p := by
  intro n
  induction n with
  | zero => intro t p; rfl
  | succ n ih =>
    intro t p
    simp only [advanceF, advance]
    cases h.fwd p i with
    | ok q =>
      simp only [Res.bind]
      by_cases hq : q = 0
      · simp [hq]
      · simp only [if_neg hq]
        cases h.datum q with
        | ok d =>
          simp only
          by_cases hc : s.compare (s.key d) key < 0
          · simp only [if_pos hc]; exact ih (t + 1) q
          · simp only [if_neg hc]
        | _ => rfl
    | _ => rfl

theorem locateLoopF_const {s : SList} {h : Heap} {key : Nat} : ∀ (k t p : Nat) (u : List (Option Nat)),
    ((locateLoopF (fun _ => s.compare) s h key k t p u).bind fun r => Res.ok r.2) = locateLoop s h key k p u := by
  intro k
  induction k with
  | zero => intro t p u; rfl
  | succ k ih =>
    intro t p u
    have := advanceF_const (s := s) (h := h) (key := key) (i := k) h.clock t p
    simp only [locateLoopF, locateLoop, ← this]
    cases advanceF (fun _ => s.compare) s h key k h.clock t p with
    | ok r =>
      simp only [Res.bind]
      cases setUpdate u k r.2 with
      | ok u => exact ih r.1 r.2 u
      | _ => rfl
    | _ => rfl

theorem locateF_const {s : SList} {h : Heap} {key : Nat} : ((locateF (fun _ => s.compare) s h key).bind fun r => Res.ok r.2) = locate s h key := by
  have := locateLoopF_const (s := s) (h := h) (key := key) (s.level + 1) 0 s.head noUpdate
  simp only [locateF, locate, ← this]
  cases locateLoopF (fun _ => s.compare) s h key (s.level + 1) 0 s.head noUpdate with
  | ok r =>
    simp only [Res.bind]
    cases h.fwd r.2.1 0 <;> rfl
  | _ => rfl

/-- C93: the three calls, with functions that do not change their mind, are the calls of before. -/
theorem C93_constant (σ : State) (l : Nat) (s : SList) (h0 : l ≠ 0) (hl : σ.lists l = some s) (datum : Nat) (rnd : Nat → Nat) :
    findF (fun _ => s.compare) σ l datum = find σ l datum ∧ deleteF (fun _ => s.compare) σ l datum = delete σ l datum ∧
      insertF (fun _ => s.compare) σ l datum rnd = insert σ l datum rnd := by
  have hch : σ.check l = .ok s := by unfold State.check; rw [if_neg h0, hl]
  have key : ∀ key, ((locateF (fun _ => s.compare) s σ.heap key).bind fun r => Res.ok r.2) = locate s σ.heap key := fun _ => locateF_const
  refine ⟨?_, ?_, ?_⟩
  · unfold findF find
    simp only [hch, okBind, ← key]
    cases locateF (fun _ => s.compare) s σ.heap datum <;> rfl
  · unfold deleteF delete
    simp only [hch, okBind, ← key]
    cases locateF (fun _ => s.compare) s σ.heap (s.key datum) <;> rfl
  · unfold insertF insert
    simp only [hch, okBind, ← key]
    cases locateF (fun _ => s.compare) s σ.heap (s.key datum) <;> rfl

/-- 30 at level 1, 20 and 10 at level 2, in this order. -/
def threeLists : List SlOp :=
  [byNumber, .insert 1 30 fun _ => 0, .insert 1 20 fun k => if k < 1 then 0x80 else 0, .insert 1 10 fun k => if k < 1 then 0x80 else 0]

/-- At first everything is greater, from then on numbers are compared. -/
def fickle : Nat → Nat → Nat → Int := fun t a b => if t < 1 then 1 else (a : Int) - b

/-- C93, the limit: a function that changes its mind during a deletion leaves a list that leads to freed memory: after `sl_delete` of 20, looking 20 up
(with a proper function) reads the entry that was freed, while 10 is still found. -/
theorem C93_refuted_within_call : ∃ σ out σ', run step State.init threeLists = .ok (σ, out) ∧ deleteF fickle σ 1 20 = .ok σ' ∧
    find σ' 1 10 = .ok 10 ∧ find σ' 1 20 = .ub := by
  have h1 : ((run step State.init threeLists).bind fun r => (deleteF fickle r.1 1 20).bind fun σ => find σ 1 10) = .ok 10 := by decide +kernel
  have h2 : ((run step State.init threeLists).bind fun r => (deleteF fickle r.1 1 20).bind fun σ => find σ 1 20) = .ub := by decide +kernel
  cases hr : run step State.init threeLists with
  | ok r =>
    rw [hr, okBind] at h1 h2
    cases hd : deleteF fickle r.1 1 20 with
    | ok σ' =>
      rw [hd, okBind] at h1 h2
      exact ⟨r.1, r.2, σ', rfl, hd, h1, h2⟩
    | _ => rw [hd] at h1; cases h1
  | _ => rw [hr] at h1; cases h1

end Maa.Sl
