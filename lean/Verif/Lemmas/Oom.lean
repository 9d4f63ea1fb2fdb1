import Verif.Model.Oom
import Verif.Spec.Run

/-! # Running out of memory: helper lemmas -/

namespace Maa.Oom

open Spec (ResRel)

variable {α β γ δ : Type}

/-- Until a request fails, a computation that makes requests does what the computation without requests does; then it ends. -/
def Follows (fails : Fails) (bare : Bool) (R : α → β → Prop) (n : Nat) (x : Res (α × Nat)) (y : Res β) : Prop :=
  ∃ m, n ≤ m ∧ (∀ k, n ≤ k → k < m → fails k = false) ∧
    ((fails m = true ∧ (x = .fatal ∨ (bare = true ∧ x = .ub))) ∨ ResRel (fun a b => a.2 = m ∧ R a.1 b) x y)

variable {fails : Fails} {bare : Bool}

theorem Follows.bind {R : α → β → Prop} {Q : γ → δ → Prop} {n : Nat} {x : Res (α × Nat)} {y : Res β}
    {f : α × Nat → Res (γ × Nat)} {g : β → Res δ} (h : Follows fails bare R n x y)
    (hfg : ∀ a b m, R a b → y = .ok b → Follows fails bare Q m (f (a, m)) (g b)) :
    Follows fails bare Q n (x.bind f) (y.bind g) := by
  obtain ⟨m, hm, hk, h | h⟩ := h
  · refine ⟨m, hm, hk, .inl ⟨h.1, ?_⟩⟩
    rcases h.2 with h | h
    · left; rw [h]; rfl
    · right; exact ⟨h.1, by rw [h.2]; rfl⟩
  · match x, y, h with
    | .ok (a, _), .ok b, ⟨rfl, hR⟩ =>
      obtain ⟨m', hm', hk', h'⟩ := hfg a b _ hR rfl
      refine ⟨m', Nat.le_trans hm hm', fun k h1 h2 => ?_, h'⟩
      by_cases hlt : k < m
      · exact hk k h1 hlt
      · exact hk' k (Nat.le_of_not_lt hlt) h2
    | .abort, .abort, _ => exact ⟨m, hm, hk, .inr trivial⟩
    | .fatal, .fatal, _ => exact ⟨m, hm, hk, .inr trivial⟩
    | .ub, .ub, _ => exact ⟨m, hm, hk, .inr trivial⟩

theorem Follows.of_rel {R : α → β → Prop} {n : Nat} {x : Res (α × Nat)} {y : Res β}
    (h : ResRel (fun a b => a.2 = n ∧ R a.1 b) x y) : Follows fails bare R n x y :=
  ⟨n, Nat.le_refl n, fun _ h1 h2 => absurd h2 (Nat.not_lt.2 h1), .inr h⟩

theorem Follows.ok {R : α → β → Prop} {n : Nat} {a : α} {b : β} (h : R a b) : Follows fails bare R n (.ok (a, n)) (.ok b) :=
  .of_rel ⟨rfl, h⟩

theorem Follows.ub {R : α → β → Prop} {n : Nat} : Follows fails bare R n (.ub) (.ub) := .of_rel trivial

theorem Follows.abort {R : α → β → Prop} {n : Nat} : Follows fails bare R n (.abort) (.abort) := .of_rel trivial

theorem Follows.fatal {R : α → β → Prop} {n : Nat} : Follows fails bare R n (.fatal) (.fatal) := .of_rel trivial

/-- A step that is the same on both sides. -/
theorem Follows.same {Q : γ → δ → Prop} {n : Nat} {x : Res α} {f : α → Res (γ × Nat)} {g : α → Res δ}
    (hfg : ∀ a, x = .ok a → Follows fails bare Q n (f a) (g a)) : Follows fails bare Q n (x.bind f) (x.bind g) := by
  cases x with
  | ok a => exact hfg a rfl
  | abort => exact .abort
  | fatal => exact .fatal
  | ub => exact .ub

theorem Follows.quiet {n : Nat} (y : Res α) : Follows fails bare Eq n (Oom.quiet y n) y := by
  cases y with
  | ok a => exact .ok rfl
  | abort => exact .abort
  | fatal => exact .fatal
  | ub => exact .ub

/-- A checked request before something else. -/
theorem Follows.xreq {Q : γ → δ → Prop} {n : Nat} {f : Nat → Res (γ × Nat)} {y : Res δ}
    (h : Follows fails bare Q (n + 1) (f (n + 1)) y) : Follows fails bare Q n ((Oom.xreq fails n).bind f) y := by
  cases hf : fails n with
  | true => exact ⟨n, Nat.le_refl n, fun _ h1 h2 => absurd h2 (Nat.not_lt.2 h1), .inl ⟨hf, .inl (by simp [Oom.xreq, hf, Res.bind])⟩⟩
  | false =>
    have e : (Oom.xreq fails n).bind f = f (n + 1) := by simp [Oom.xreq, hf, Res.bind]
    rw [e]
    obtain ⟨m, hm, hk, h⟩ := h
    refine ⟨m, Nat.le_of_succ_le hm, fun k h1 h2 => ?_, h⟩
    by_cases he : k = n
    · rw [he]; exact hf
    · exact hk k (by omega) h2

/-- An unchecked request before something else. -/
theorem Follows.bareReq {Q : γ → δ → Prop} {n : Nat} {f : Nat → Res (γ × Nat)} {y : Res δ}
    (h : Follows fails true Q (n + 1) (f (n + 1)) y) : Follows fails true Q n ((Oom.bareReq fails n).bind f) y := by
  cases hf : fails n with
  | true => exact ⟨n, Nat.le_refl n, fun _ h1 h2 => absurd h2 (Nat.not_lt.2 h1), .inl ⟨hf, .inr ⟨rfl, by simp [Oom.bareReq, hf, Res.bind]⟩⟩⟩
  | false =>
    have e : (Oom.bareReq fails n).bind f = f (n + 1) := by simp [Oom.bareReq, hf, Res.bind]
    rw [e]
    obtain ⟨m, hm, hk, h⟩ := h
    refine ⟨m, Nat.le_of_succ_le hm, fun k h1 h2 => ?_, h⟩
    by_cases he : k = n
    · rw [he]; exact hf
    · exact hk k (by omega) h2

/-- A step that corresponds to nothing but a value on the other side. -/
theorem Follows.pure {Q : γ → δ → Prop} {n : Nat} {x : Res (α × Nat)} {a : α} {f : α × Nat → Res (γ × Nat)} {y : Res δ}
    (h : Follows fails bare Eq n x (.ok a)) (hf : ∀ m, Follows fails bare Q m (f (a, m)) y) : Follows fails bare Q n (x.bind f) y :=
  Follows.bind (g := fun _ => y) h fun a' b m e e' => by
    have := Res.ok.inj e'; subst this; subst e; exact hf m

/-- Rewriting the side without requests. -/
theorem Follows.congr {R : α → β → Prop} {n : Nat} {x : Res (α × Nat)} {y y' : Res β} (h : Follows fails bare R n x y) (e : y = y') :
    Follows fails bare R n x y' := e ▸ h

/-- One step of a program with requests follows one step of the program without. -/
def StepFollows {S T O X : Type} (fails : Fails) (bare : Bool) (R : S → T → Prop) (stepF : S × Nat → O → Res ((S × Nat) × X))
    (step : T → O → Res (T × X)) : Prop :=
  ∀ s t n o, R s t → ∃ x : Res ((S × X) × Nat), stepF (s, n) o = out x ∧
    Follows fails bare (fun a b => R a.1 b.1 ∧ a.2 = b.2) n x (step t o)

theorem StepFollows.run {S T O X : Type} {R : S → T → Prop} {stepF : S × Nat → O → Res ((S × Nat) × X)} {step : T → O → Res (T × X)}
    (h : StepFollows fails bare R stepF step) (hist : List O) : ∀ (s : S) (t : T) (n : Nat), R s t →
    ∃ x : Res ((S × List X) × Nat), Spec.run stepF (s, n) hist = out x ∧
      Follows fails bare (fun a b => R a.1 b.1 ∧ a.2 = b.2) n x (Spec.run step t hist) := by
  induction hist with
  | nil => intro s t n hR; exact ⟨.ok ((s, []), n), rfl, .ok ⟨hR, rfl⟩⟩
  | cons o os ih =>
    intro s t n hR
    obtain ⟨x, hx, hf⟩ := h s t n o hR
    have main : ∀ s' t' m, R s' t' → ∃ x : Res ((S × List X) × Nat), Spec.run stepF (s', m) os = out x ∧
        Follows fails bare (fun a b => R a.1 b.1 ∧ a.2 = b.2) m x (Spec.run step t' os) := fun s' t' m hR => ih s' t' m hR
    classical
    let g : (S × X) × Nat → Res ((S × List X) × Nat) := fun a =>
      (Spec.run stepF (a.1.1, a.2) os).bind fun q => .ok ((q.1.1, a.1.2 :: q.2), q.1.2)
    refine ⟨x.bind g, ?_, ?_⟩
    · show (stepF (s, n) o).bind _ = _
      rw [hx]
      cases x with
      | ok a =>
        show (Spec.run stepF (a.1.1, a.2) os).bind _ = out ((Spec.run stepF (a.1.1, a.2) os).bind _)
        cases Spec.run stepF (a.1.1, a.2) os <;> rfl
      | abort => rfl
      | fatal => rfl
      | ub => rfl
    · show Follows fails bare _ n (x.bind g) ((step t o).bind _)
      refine hf.bind fun a b m hab _ => ?_
      obtain ⟨x', hx', hf'⟩ := main a.1 b.1 m hab.1
      show Follows fails bare _ m ((Spec.run stepF (a.1, m) os).bind _) _
      rw [hx']
      have e : (out x').bind (fun q => Res.ok ((q.1.1, a.2 :: q.2), q.1.2)) = x'.bind fun r => Res.ok ((r.1.1, a.2 :: r.1.2), r.2) := by
        cases x' <;> rfl
      rw [e]
      refine hf'.bind fun c d m' hcd _ => .ok ⟨hcd.1, ?_⟩
      show a.2 :: c.2 = b.2 :: d.2
      rw [hab.2, hcd.2]

/-- What the theorems say about a history. -/
theorem StepFollows.observe {S T O X : Type} {R : S → T → Prop} {stepF : S × Nat → O → Res ((S × Nat) × X)} {step : T → O → Res (T × X)}
    (h : StepFollows fails bare R stepF step) (hist : List O) (s : S) (t : T) (n : Nat) (hR : R s t) :
    ∃ m, n ≤ m ∧ (∀ k, n ≤ k → k < m → fails k = false) ∧
      ((fails m = true ∧ (Spec.run stepF (s, n) hist = .fatal ∨ (bare = true ∧ Spec.run stepF (s, n) hist = .ub))) ∨
       (Spec.observe (Spec.run stepF (s, n) hist) = Spec.observe (Spec.run step t hist) ∧
         ∀ s' n' xs, Spec.run stepF (s, n) hist = .ok ((s', n'), xs) → n' = m)) := by
  obtain ⟨x, hx, m, hm, hk, hf⟩ := h.run hist s t n hR
  refine ⟨m, hm, hk, ?_⟩
  rw [hx]
  rcases hf with hf | hf
  · left
    refine ⟨hf.1, ?_⟩
    rcases hf.2 with e | e
    · left; rw [e]; rfl
    · right; exact ⟨e.1, by rw [e.2]; rfl⟩
  · right
    revert hf
    cases x <;> cases hy : Spec.run step t hist <;> intro hf <;> try exact hf.elim
    · rename_i a b
      obtain ⟨e1, e2, e3⟩ := hf
      refine ⟨congrArg Res.ok e3, fun s' n' xs e => ?_⟩
      have := Res.ok.inj e
      have h1 : a.2 = n' := congrArg (fun r : (S × Nat) × List X => r.1.2) this
      rw [← h1]; exact e1
    all_goals exact ⟨rfl, fun _ _ _ e => by cases e⟩

/-! ## stack.c -/

theorem out_quiet {S X : Type} (y : Res (S × X)) (n : Nat) : ∃ x : Res ((S × X) × Nat), out (quiet y n) = out x ∧
    Follows fails bare (fun a b => a.1 = b.1 ∧ a.2 = b.2) n x y := by
  refine ⟨quiet y n, rfl, ?_⟩
  cases y with
  | ok a => exact .ok ⟨rfl, rfl⟩
  | abort => exact .abort
  | fatal => exact .fatal
  | ub => exact .ub

/-- Returning nothing. -/
theorem out_unit {S X : Type} {n : Nat} {x : Res (S × Nat)} {y : Res S} (v : X) (h : Follows fails bare Eq n x y) :
    ∃ z : Res ((S × X) × Nat), x.bind (fun r => .ok ((r.1, r.2), v)) = out z ∧
      Follows fails bare (fun a b => a.1 = b.1 ∧ a.2 = b.2) n z (y.bind fun s => .ok (s, v)) := by
  refine ⟨x.bind fun r => .ok ((r.1, v), r.2), by cases x <;> rfl, h.bind fun a b m e _ => .ok ⟨e, rfl⟩⟩

/-- Returning a value. -/
theorem out_val {S X Y : Type} {n : Nat} {x : Res ((S × Y) × Nat)} {y : Res (S × Y)} (g : Y → X) (h : Follows fails bare Eq n x y) :
    ∃ z : Res ((S × X) × Nat), x.bind (fun r => .ok ((r.1.1, r.2), g r.1.2)) = out z ∧
      Follows fails bare (fun a b => a.1 = b.1 ∧ a.2 = b.2) n z (y.bind fun s => .ok (s.1, g s.2)) := by
  refine ⟨x.bind fun r => .ok ((r.1.1, g r.1.2), r.2), by cases x <;> rfl, h.bind fun a b m e _ => .ok ⟨by rw [e], by rw [e]⟩⟩

theorem out_same {S X : Type} {n : Nat} {x : Res ((S × X) × Nat)} {y : Res (S × X)} (h : Follows fails bare Eq n x y) :
    ∃ z : Res ((S × X) × Nat), out x = out z ∧ Follows fails bare (fun a b => a.1 = b.1 ∧ a.2 = b.2) n z y := by
  refine ⟨x, rfl, ?_⟩
  obtain ⟨m, hm, hk, h⟩ := h
  refine ⟨m, hm, hk, h.imp id fun h => ?_⟩
  revert h
  cases x <;> cases y <;> intro h <;> try exact h
  exact ⟨h.1, by rw [h.2], by rw [h.2]⟩

theorem stack_follows : StepFollows fails true Eq (stackStep fails) Stack.step := by
  rintro σ _ n o rfl
  cases o with
  | create =>
    refine ⟨(xreq fails n).bind fun n => quiet (.ok ((Stack.stkCreate σ).1, ((Stack.stkCreate σ).2 : Int))) n, ?_, ?_⟩
    · show (xreq fails n).bind _ = _
      cases xreq fails n <;> rfl
    · exact .xreq (.ok ⟨rfl, rfl⟩)
  | push i d => exact out_unit 0 (Follows.bareReq (Follows.quiet _))
  | pop i => exact out_quiet _ n
  | top i => exact out_quiet _ n
  | isempty i => exact out_quiet _ n
  | destroy i => exact out_quiet _ n

/-! ## memory.c -/

theorem createObjects_follows (size : Int) (n : Nat) : Follows fails bare Eq n (createObjects fails size n) (.ok (Objects.create size)) :=
  .xreq (.xreq (.xreq (.ok rfl)))

theorem getObject_follows (junk : α × Nat) (h : Heap α) (i : Objects.Pool) (n : Nat) :
    Follows fails true Eq n (getObject fails junk h i n) (.ok (Objects.getObject junk h i)) := by
  unfold getObject
  split
  · exact .xreq (.bareReq (.ok rfl))
  · exact .ok rfl

theorem freeObject_follows (i : Objects.Pool) (p n : Nat) :
    Follows fails true Eq n (freeObject fails i p n) (.ok (Objects.freeObject i p)) := .bareReq (.ok rfl)

theorem obj_follows (zero junk : α × Nat) : StepFollows fails true Eq (objStep fails zero junk) (Objects.step zero junk) := by
  rintro ⟨h, i⟩ _ n o rfl
  cases o with
  | get =>
    refine ⟨(getObject fails junk h i n).bind fun r => .ok (((r.1.1, r.1.2.1), r.1.2.2), r.2), ?_, ?_⟩
    · show (getObject fails junk h i n).bind _ = _
      cases getObject fails junk h i n <;> rfl
    · exact (getObject_follows junk h i n).pure fun m => .ok ⟨rfl, rfl⟩
  | getEmpty =>
    refine ⟨(getEmptyObject fails zero junk h i n).bind fun r => .ok (((r.1.1, r.1.2.1), r.1.2.2), r.2), ?_, ?_⟩
    · show (getEmptyObject fails zero junk h i n).bind _ = _
      cases getEmptyObject fails zero junk h i n <;> rfl
    · have h1 : Follows fails true Eq n (getEmptyObject fails zero junk h i n) (Objects.getEmptyObject zero junk h i) :=
        (getObject_follows junk h i n).pure fun m => .quiet _
      exact h1.bind fun a b m e _ => by subst e; exact .ok ⟨rfl, rfl⟩
  | free p =>
    refine ⟨(freeObject fails i p n).bind fun r => .ok (((h, r.1), 0), r.2), ?_, ?_⟩
    · show (freeObject fails i p n).bind _ = _
      cases freeObject fails i p n <;> rfl
    · exact (freeObject_follows i p n).pure fun m => .ok ⟨rfl, rfl⟩

theorem strcpy_follows (h : StrMem.Mem) (i : StrMem.SInfo) (b : List Byte) (n : Nat) :
    Follows fails true Eq n (strcpy fails h i b n) (StrMem.strcpy h i b) := by
  unfold strcpy
  cases hc : CStr.cstr b with
  | ok s => exact .xreq (.bareReq (.quiet _))
  | abort => simp only [StrMem.strcpy, hc]; exact .abort
  | fatal => simp only [StrMem.strcpy, hc]; exact .fatal
  | ub => simp only [StrMem.strcpy, hc]; exact .ub

theorem strncpy_follows (h : StrMem.Mem) (i : StrMem.SInfo) (b : List Byte) (len n : Nat) :
    Follows fails true Eq n (strncpy fails h i b len n) (StrMem.strncpy h i b len) := by
  unfold strncpy
  refine .xreq ?_
  split
  · rename_i hl
    rw [show StrMem.strncpy h i b len = .ub from if_pos hl]
    exact .ub
  · exact .bareReq (.quiet _)

theorem grow_follows (h : StrMem.Mem) (i : StrMem.SInfo) (b : List Byte) (len n : Nat) :
    Follows fails true Eq n (grow fails h i b len n) (StrMem.grow h i b len) := by
  unfold grow
  refine .xreq ?_
  split
  · rename_i hl
    rw [show StrMem.grow h i b len = .ub from if_pos hl]
    exact .ub
  · exact .bareReq (.quiet _)

theorem finish_follows (h : StrMem.Mem) (i : StrMem.SInfo) (n : Nat) :
    Follows fails true Eq n (finish fails h i n) (StrMem.finish h i) :=
  (grow_follows h i [0] 1 n).bind fun a b m e _ => by subst e; exact .ok rfl

theorem str_follows : StepFollows fails true Eq (strStep fails) StrMem.step := by
  rintro ⟨h, i⟩ _ n o rfl
  cases o with
  | strcpy b => exact out_same (strcpy_follows h i b n)
  | strncpy b k => exact out_same (strncpy_follows h i b k n)
  | grow b k => exact out_unit 0 (grow_follows h i b k n)
  | finish => exact out_same (finish_follows h i n)

/-! ## list.c -/

theorem lstCreate_follows (σ : Lst.State) (n : Nat) : Follows fails true Eq n (lstCreate fails σ n) (.ok (Lst.lstCreate σ)) := by
  unfold lstCreate
  refine .xreq ?_
  split
  · exact (createObjects_follows 16 (n + 1)).pure fun m => .ok rfl
  · exact .ok rfl

theorem memGet_follows (σ : Lst.State) (n : Nat) : Follows fails true Eq n (memGet fails σ n) (Lst.memGet σ) := by
  unfold memGet Lst.memGet
  cases σ.mem with
  | none => exact .ub
  | some p => exact (getObject_follows (0, 0) σ.heap p n).pure fun m => .ok rfl

theorem memFree_follows (σ : Lst.State) (d n : Nat) : Follows fails true Eq n (memFree fails σ d n) (Lst.memFree σ d) := by
  unfold memFree Lst.memFree
  cases σ.mem with
  | none => exact .abort
  | some p => exact (freeObject_follows p d n).pure fun m => .ok rfl

theorem freeRest_follows (k : Nat) : ∀ (σ : Lst.State) (d n : Nat),
    Follows fails true Eq n (freeRest fails k σ d n) (Lst.freeRest k σ d) := by
  induction k with
  | zero => intro σ d n; exact .ub
  | succ k ih =>
    intro σ d n
    rw [freeRest, Lst.freeRest]
    by_cases hd : d = 0
    · rw [if_pos hd, if_pos hd]; exact .ok rfl
    · rw [if_neg hd, if_neg hd]
      refine .same fun c _ => (memFree_follows σ d n).bind fun a b m e _ => ?_
      subst e
      exact (ih a c.2 m).bind fun a b m e _ => by subst e; exact .ok rfl

theorem lst_follows : StepFollows fails true Eq (lstStep fails) Lst.step := by
  rintro σ _ n o rfl
  cases o with
  | create => exact out_same (lstCreate_follows σ n)
  | destroy i =>
    exact out_unit 0 (Follows.same fun l _ => (freeRest_follows _ σ l.head n).bind fun a b m e _ => by subst e; exact .ok rfl)
  | append i d =>
    refine out_unit 0 ?_
    show Follows fails true Eq n (lstAppend fails σ i d n) (Lst.lstAppend σ i d)
    unfold lstAppend Lst.lstAppend
    by_cases hi : i = 0
    · rw [if_pos hi, if_pos hi]; exact .ok rfl
    · rw [if_neg hi, if_neg hi]
      exact (memGet_follows σ n).bind fun a b m e _ => by subst e; exact .quiet _
  | push i d => exact out_unit 0 ((memGet_follows σ n).bind fun a b m e _ => by subst e; exact .quiet _)
  | pop i =>
    refine out_same ?_
    show Follows fails true Eq n (lstPop fails σ i n) (Lst.lstPop σ i)
    refine .same fun l _ => ?_
    by_cases hd : l.head ≠ 0
    · rw [if_pos hd, if_pos hd]
      exact .same fun c _ => (memFree_follows _ _ n).bind fun a b m e _ => by subst e; exact .ok rfl
    · rw [if_neg hd, if_neg hd]; exact .ok rfl
  | truncate i k =>
    refine out_unit 0 ?_
    show Follows fails true Eq n (lstTruncate fails σ i k n) (Lst.lstTruncate σ i k)
    refine .same fun l _ => ?_
    by_cases h1 : l.count ≤ k
    · rw [if_pos h1, if_pos h1]; exact .ok rfl
    · rw [if_neg h1, if_neg h1]
      by_cases h2 : k = 0
      · rw [if_pos h2, if_pos h2]
        refine (freeRest_follows _ _ _ n).bind fun a b m e _ => ?_
        subst e
        show Follows fails true Eq m (if l.count - a.2 ≠ k then _ else _) (if l.count - a.2 ≠ k then _ else _)
        by_cases h3 : l.count - a.2 ≠ k
        · rw [if_pos h3, if_pos h3]; exact .abort
        · rw [if_neg h3, if_neg h3]; exact .ok rfl
      · rw [if_neg h2, if_neg h2]
        refine .same fun d _ => .same fun c _ => .same fun h _ => (freeRest_follows _ _ _ n).bind fun a b m e _ => ?_
        subst e
        show Follows fails true Eq m (if l.count - a.2 ≠ k then _ else _) (if l.count - a.2 ≠ k then _ else _)
        by_cases h3 : l.count - a.2 ≠ k
        · rw [if_pos h3, if_pos h3]; exact .abort
        · rw [if_neg h3, if_neg h3]; exact .ok rfl
  | truncatePosition i p =>
    refine out_unit 0 ?_
    show Follows fails true Eq n (lstTruncatePosition fails σ i p n) (Lst.lstTruncatePosition σ i p)
    refine .same fun l _ => ?_
    by_cases h1 : p = 0
    · rw [if_pos h1, if_pos h1]
      exact (freeRest_follows _ _ _ n).bind fun a b m e _ => by subst e; exact .ok rfl
    · rw [if_neg h1, if_neg h1]
      exact .same fun c _ => .same fun h _ => (freeRest_follows _ _ _ n).bind fun a b m e _ => by subst e; exact .ok rfl
  | top i => exact out_quiet _ n
  | nthGet i k => exact out_quiet _ n
  | nthSet i k d => exact out_quiet _ n
  | member i d => exact out_quiet _ n
  | length i => exact out_quiet _ n
  | initPosition i => exact out_quiet _ n
  | lastPosition i => exact out_quiet _ n
  | nextPosition p => exact out_quiet _ n
  | nthPosition i k => exact out_quiet _ n
  | getPosition p => exact out_quiet _ n
  | setPosition p d => exact out_quiet _ n
  | totalAllocated => exact out_quiet _ n
  | shutdown => exact out_quiet _ n

/-! ## hash.c and set.c -/

open HashHeap (HTab)
open Tab (Entry)
open SetHeap (HStore HSet)

variable {K D : Type}

theorem create_follows (seed n : Nat) : Follows fails bare Eq n (create fails seed n) (HashHeap.hcreate seed) :=
  .xreq (.xreq (.quiet _))

theorem push_follows (h : Heap (Entry K D)) (t : HTab) (e : Entry K D) (n : Nat) :
    Follows fails bare Eq n (push fails h t e n) (.ok (HashHeap.hpush h t e)) := .xreq (.ok rfl)

theorem copyChain_follows (k : Nat) : ∀ (h : Heap (Entry K D)) (new : HTab) (pt n : Nat),
    Follows fails bare Eq n (copyChain fails k h new pt n) (HashHeap.copyChain k h new pt) := by
  induction k with
  | zero => intro h new pt n; exact .ub
  | succ k ih =>
    intro h new pt n
    rw [copyChain, HashHeap.copyChain]
    by_cases hd : pt = 0
    · rw [if_pos hd, if_pos hd]; exact .ok rfl
    · rw [if_neg hd, if_neg hd]
      refine .same fun c _ => ?_
      exact (push_follows h new c.1 n).pure fun m => .same fun c' _ => ih _ _ _ m

theorem copyAll_follows (k : Nat) (b : Nat → Nat) (is : List Nat) : ∀ (h : Heap (Entry K D)) (new : HTab) (n : Nat),
    Follows fails bare Eq n (copyAll fails k b is h new n) (HashHeap.copyAll k b is h new) := by
  induction is with
  | nil => intro h new n; exact .ok rfl
  | cons i is ih =>
    intro h new n
    exact (copyChain_follows k h new (b i) n).bind fun a b' m e _ => by subst e; exact ih _ _ m

theorem growTab_follows (h : Heap (Entry K D)) (t : HTab) (n : Nat) :
    Follows fails bare Eq n (growTab fails h t n) (HashHeap.hgrow h t) := by
  unfold growTab HashHeap.hgrow
  by_cases hg : t.entries * 2 > t.prime
  · rw [if_pos hg, if_pos hg]
    refine (create_follows _ n).bind fun a b m e _ => ?_
    subst e
    refine (copyAll_follows _ _ _ h a m).bind fun a b m e _ => ?_
    subst e
    exact .same fun h' _ => .ok rfl
  · rw [if_neg hg, if_neg hg]; exact .ok rfl

theorem insert_follows (ops : KeyOps K) (h : Heap (Entry K D)) (t : HTab) (key : K) (datum : D) (n : Nat) :
    Follows fails bare Eq n (insert fails ops h t key datum n) (HashHeap.hinsert ops h t key datum) := by
  unfold insert HashHeap.hinsert
  by_cases hr : t.readonly ≠ 0
  · simp only [if_pos hr]; exact .abort
  · simp only [if_neg hr]
    refine (growTab_follows h t n).bind fun a b m e _ => ?_
    subst e
    by_cases hp : a.2.prime = 0
    · simp only [if_pos hp]; exact .ub
    · simp only [if_neg hp]
      refine .same fun f _ => ?_
      cases f with
      | some f => exact .ok rfl
      | none => exact (push_follows _ _ _ m).pure fun m => .ok rfl

theorem hash_follows (ops : KeyOps K) : StepFollows fails false Eq (hashStep fails ops) (HashHeap.heapStep ops) := by
  rintro ⟨h, t⟩ _ n o rfl
  cases o with
  | insert k d => exact out_val (fun v => Spec.Ret.int v) (insert_follows ops h t k d n)
  | delete k => exact out_quiet _ n
  | retrieve k => exact out_quiet _ n
  | readonly f => exact out_quiet _ n

theorem setCreate_follows (s : HStore K) (h c n : Nat) :
    Follows fails bare Eq n (setCreate fails s h c n) (SetHeap.setCreate s h c) := .xreq (.xreq (.quiet _))

theorem setInsert_follows (env : Set.FnEnv K) (s : HStore K) (i : Nat) (e : K) (n : Nat) :
    Follows fails bare Eq n (setInsert fails env s i e n) (SetHeap.setInsert env s i e) :=
  .same fun t _ => (insert_follows _ _ _ _ _ n).bind fun a b m e _ => by subst e; exact .ok rfl

/-- A loop body with requests follows one without. -/
def BodyFollows (fails : Fails) (bare : Bool) (body : HStore K → K → Nat → Res ((HStore K × Bool) × Nat))
    (body' : HStore K → K → Res (HStore K × Bool)) : Prop :=
  ∀ s e n, Follows fails bare Eq n (body s e n) (body' s e)

theorem walkChain_follows {body : HStore K → K → Nat → Res ((HStore K × Bool) × Nat)} {body' : HStore K → K → Res (HStore K × Bool)}
    (hb : BodyFollows fails bare body body') (k : Nat) : ∀ (s : HStore K) (pt n : Nat),
    Follows fails bare Eq n (walkChain body k s pt n) (SetHeap.walkChain body' k s pt) := by
  induction k with
  | zero => intro s pt n; exact .ub
  | succ k ih =>
    intro s pt n
    rw [walkChain, SetHeap.walkChain]
    by_cases hd : pt = 0
    · rw [if_pos hd, if_pos hd]; exact .ok rfl
    · rw [if_neg hd, if_neg hd]
      refine .same fun c _ => (hb s c.1.key n).bind fun a b m e _ => ?_
      subst e
      cases ha : a.2 with
      | true => simp only [if_true]; exact .ok rfl
      | false =>
        simp only [Bool.false_eq_true, if_false]
        exact .same fun c' _ => ih _ _ m

theorem walk_follows {body : HStore K → K → Nat → Res ((HStore K × Bool) × Nat)} {body' : HStore K → K → Res (HStore K × Bool)}
    (hb : BodyFollows fails bare body body') (i k : Nat) : ∀ (j : Nat) (s : HStore K) (n : Nat),
    Follows fails bare Eq n (walk body i k j s n) (SetHeap.walk body' i k j s) := by
  induction k with
  | zero => intro j s n; exact .ub
  | succ k ih =>
    intro j s n
    rw [walk, SetHeap.walk]
    refine .same fun t _ => ?_
    by_cases hj : j < t.tab.prime
    · rw [if_pos hj, if_pos hj]
      refine (walkChain_follows hb _ s _ n).bind fun a b m e _ => ?_
      subst e
      cases ha : a.2 with
      | true => simp only [if_true]; exact .ok rfl
      | false => simp only [Bool.false_eq_true, if_false]; exact ih _ _ m
    · rw [if_neg hj, if_neg hj]; exact .ok rfl

theorem insertBody_follows (env : Set.FnEnv K) (i : Nat) : BodyFollows fails bare (insertBody fails env i) (SetHeap.insertBody env i) :=
  fun s e n => (setInsert_follows env s i e n).bind fun a b m e _ => by subst e; exact .ok rfl

theorem selectBody_follows (env : Set.FnEnv K) (keep : Bool) (new j : Nat) :
    BodyFollows fails bare (selectBody fails env keep new j) (SetHeap.selectBody env keep new j) := by
  intro s e n
  refine .same fun r _ => ?_
  by_cases hk : (r.2 ≠ 0) = keep
  · rw [if_pos hk, if_pos hk]
    exact (setInsert_follows env _ _ e n).bind fun a b m e _ => by subst e; exact .ok rfl
  · rw [if_neg hk, if_neg hk]; exact .ok rfl

theorem setSelect_follows (env : Set.FnEnv K) (keep : Bool) (s : HStore K) (i j n : Nat) :
    Follows fails bare Eq n (setSelect fails env keep s i j n) (SetHeap.setSelect env keep s i j) := by
  refine .same fun t _ => (setCreate_follows s _ _ n).bind fun a b m e _ => ?_
  subst e
  refine .same fun s' _ => (walk_follows (selectBody_follows env keep a.2 j) i _ 0 s' m).bind fun a' b' m' e' _ => ?_
  subst e'
  exact .same fun s'' _ => .ok rfl

theorem set_follows (env : Set.FnEnv K) : StepFollows fails false Eq (setStep fails env) (SetHeap.hsetStep env) := by
  rintro s _ n o rfl
  cases o with
  | create h c => exact out_val (fun v : Nat => (v : Int)) (setCreate_follows s h c n)
  | insert i e => exact out_same (setInsert_follows env s i e n)
  | stats i =>
    refine ⟨(xreq fails n).bind fun n => quiet (SetHeap.hsetStep env s (.stats i)) n, ?_, ?_⟩
    · show (xreq fails n).bind _ = _
      cases xreq fails n <;> rfl
    · obtain ⟨x, hx, hf⟩ := out_same (Follows.xreq (fails := fails) (bare := false) (n := n)
        (Follows.quiet (SetHeap.hsetStep env s (.stats i))))
      have : ∀ a b : Res ((HStore K × Int) × Nat), out a = out b → a = b := by
        intro a b h
        cases a <;> cases b <;> simp [out, Res.bind] at h ⊢
        rename_i p q
        obtain ⟨⟨p1, p2⟩, p3⟩ := p; obtain ⟨⟨q1, q2⟩, q3⟩ := q
        simp at h ⊢; exact ⟨⟨h.1.1, h.2⟩, h.1.2⟩
      rw [this _ _ hx]; exact hf
  | add i j =>
    exact out_val (fun v : Nat => (v : Int)) (Follows.same fun t _ => (walk_follows (insertBody_follows env i) j _ 0 s n).bind
      fun a b m e _ => by subst e; exact .ok rfl)
  | union i j =>
    refine out_val (fun v : Nat => (v : Int)) (Follows.same fun t _ => (setCreate_follows s _ _ n).bind fun a b m e _ => ?_)
    subst e
    refine (walk_follows (insertBody_follows env a.2) i _ 0 a.1 m).bind fun a' b' m' e' _ => ?_
    subst e'
    exact (walk_follows (insertBody_follows env a.2) j _ 0 a'.1 m').bind fun a' b' m' e' _ => by subst e'; exact .ok rfl
  | inter i j => exact out_val (fun v : Nat => (v : Int)) (setSelect_follows env true s i j n)
  | diff i j => exact out_val (fun v : Nat => (v : Int)) (setSelect_follows env false s i j n)
  | delete i e => exact out_quiet _ n
  | member i e => exact out_quiet _ n
  | readonly i f => exact out_quiet _ n
  | destroy i => exact out_quiet _ n
  | count i => exact out_quiet _ n
  | del i j => exact out_quiet _ n
  | equal i j => exact out_quiet _ n

/-! ## string.c -/

theorem poolInsert_follows (p : StrPool.Pool) (d n : Nat) : Follows fails bare Eq n (poolInsert fails p d n) (StrPool.insert p d) := by
  unfold poolInsert StrPool.insert
  split
  · exact .ub
  · exact (insert_follows _ _ _ _ _ n).bind fun a b m e _ => by subst e; exact .ok rfl

theorem find_follows (p : StrPool.Pool) (s : List Byte) (n : Nat) : Follows fails true Eq n (find fails p s n) (StrPool.find p s) := by
  refine .same fun t _ => .same fun r _ => ?_
  by_cases h : r.2 ≠ 0
  · rw [if_pos h, if_pos h]; exact .ok rfl
  · rw [if_neg h, if_neg h]
    refine (strcpy_follows _ _ s n).bind fun a b m e _ => ?_
    subst e
    exact (poolInsert_follows _ _ m).bind fun a b m e _ => by subst e; exact .ok rfl

theorem poolGrow_follows (p : StrPool.Pool) (s : List Byte) (len n : Nat) :
    Follows fails true Eq n (poolGrow fails p s len n) (StrPool.grow p s len) :=
  (grow_follows _ _ s len n).bind fun a b m e _ => by subst e; exact .ok rfl

theorem poolFinish_follows (p : StrPool.Pool) (n : Nat) : Follows fails true Eq n (poolFinish fails p n) (StrPool.finish p) := by
  refine (poolGrow_follows p [0, 0] 1 n).bind fun a b m e _ => ?_
  subst e
  refine (finish_follows _ _ m).bind fun a b m e _ => ?_
  subst e
  exact (poolInsert_follows _ _ m).bind fun a b m e _ => by subst e; exact .ok rfl

theorem copy_follows (p : StrPool.Pool) (s : List Byte) (n : Nat) : Follows fails true Eq n (copy fails p s n) (StrPool.copy p s) :=
  (strcpy_follows _ _ s n).bind fun a b m e _ => by subst e; exact .ok rfl

theorem copyn_follows (p : StrPool.Pool) (s : List Byte) (len n : Nat) :
    Follows fails true Eq n (copyn fails p s len n) (StrPool.copyn p s len) :=
  (strncpy_follows _ _ s len n).bind fun a b m e _ => by subst e; exact .ok rfl

theorem pool_follows : StepFollows fails true Eq (poolStep fails) StrPool.step := by
  rintro p _ n o rfl
  cases o with
  | find b => exact out_val (fun v : Nat => Spec.Ret.ptr v) (find_follows p b n)
  | copy b => exact out_val (fun v : Nat => Spec.Ret.ptr v) (copy_follows p b n)
  | copyn b k => exact out_val (fun v : Nat => Spec.Ret.ptr v) (copyn_follows p b k n)
  | grow b k => exact out_unit (Spec.Ret.int 0) (poolGrow_follows p b k n)
  | finish => exact out_val (fun v : Nat => Spec.Ret.ptr v) (poolFinish_follows p n)
  | exists_ s => exact out_quiet _ n
  | iterate f => exact out_quiet _ n
  | iterateArg f => exact out_quiet _ n

theorem poolCreate_follows (m : StrMem.Mem) (cells : Heap (Entry StrPool.SKey Ptr)) (n : Nat) :
    Follows fails bare Eq n (poolCreate fails m cells n) (StrPool.create m cells) := by
  refine .xreq ?_
  have h1 : Follows fails bare Eq (n + 1) (createStrings fails (n + 1)) (.ok StrMem.create) := .xreq (.xreq (.ok rfl))
  refine h1.pure fun k => (create_follows 0 k).bind fun a b j e _ => ?_
  subst e
  exact .ok rfl

/-! ## sl.c -/

/-- The pool of structures exists as long as there are lists. -/
def SlRel (s : Sls) (σ : Sl.State) : Prop := s.sl = σ ∧ (s.pool = none → ∀ l, σ.lists l = none)

theorem sl_follows : StepFollows fails true SlRel (slStep fails) Sl.step := by
  rintro ⟨_, pool⟩ σ n o ⟨rfl, hp⟩
  rename_i σ
  cases o with
  | create cmp key =>
    refine ⟨slCreate fails ⟨σ, pool⟩ cmp key n, rfl, ?_⟩
    have h0 : Follows fails true (fun _ _ => True) n (match pool with
        | none => (createObjects fails 48 n).bind fun r => .ok (0, r.2)
        | some k => .ok (k, n)) (.ok ()) := by
      cases pool with
      | none => exact (createObjects_follows 48 n).bind (g := fun _ => .ok ()) fun a b m _ _ => .ok trivial
      | some k => exact .ok trivial
    refine (h0.bind (g := fun _ => Sl.create σ cmp key) fun a b m _ _ => ?_)
    match cmp, key with
    | some cmp, some key =>
      have h1 : Follows fails true (fun _ _ => True) m (slHeader fails a m) (.ok ()) := by
        unfold slHeader
        split
        · exact .xreq (.bareReq (.ok trivial))
        · exact .ok trivial
      refine (h1.bind (g := fun _ => Sl.create σ (some cmp) (some key)) fun a b m _ _ => .xreq ?_)
      cases hc : Sl.create σ (some cmp) (some key) with
      | ok r => exact .ok ⟨⟨rfl, fun h => by cases h⟩, rfl⟩
      | abort => exact .abort
      | fatal => exact .fatal
      | ub => exact .ub
    | some _, none => exact .abort
    | none, some _ => exact .abort
    | none, none => exact .abort
  | destroy l =>
    refine ⟨(slDestroy fails ⟨σ, pool⟩ l n).bind fun r => .ok ((r.1, 0), r.2), by
      show (slDestroy fails ⟨σ, pool⟩ l n).bind _ = _
      cases slDestroy fails ⟨σ, pool⟩ l n <;> rfl, ?_⟩
    have h1 : Follows fails true SlRel n (slDestroy fails ⟨σ, pool⟩ l n) (Sl.destroy σ l) := by
      unfold slDestroy
      cases hd : Sl.destroy σ l with
      | ok σ' =>
        cases pool with
        | none =>
          exfalso
          have := hp rfl l
          simp only [Sl.destroy, Sl.State.check] at hd
          split at hd
          · cases hd
          · rw [this] at hd; cases hd
        | some k => exact .bareReq (.ok ⟨rfl, fun h => by cases h⟩)
      | abort => exact .abort
      | fatal => exact .fatal
      | ub => exact .ub
    exact h1.bind fun a b m h _ => .ok ⟨h, rfl⟩
  | insert l d rnd =>
    refine ⟨(slInsert fails ⟨σ, pool⟩ l d rnd n).bind fun r => .ok ((r.1, 0), r.2), by
      show (slInsert fails ⟨σ, pool⟩ l d rnd n).bind _ = _
      cases slInsert fails ⟨σ, pool⟩ l d rnd n <;> rfl, ?_⟩
    have h1 : Follows fails true SlRel n (slInsert fails ⟨σ, pool⟩ l d rnd n) (Sl.insert σ l d rnd) := by
      unfold slInsert
      cases hd : Sl.insert σ l d rnd with
      | ok σ' =>
        refine .xreq (.ok ⟨rfl, fun h => ?_⟩)
        exfalso
        have := hp h l
        simp only [Sl.insert, Sl.State.check] at hd
        split at hd
        · cases hd
        · rw [this] at hd; cases hd
      | abort => exact .abort
      | fatal => exact .fatal
      | ub => exact .ub
    exact h1.bind fun a b m h _ => .ok ⟨h, rfl⟩
  | delete l d =>
    refine ⟨(Sl.step σ (.delete l d)).bind fun r => .ok ((⟨r.1, pool⟩, r.2), n), by
      show (Sl.step σ (.delete l d)).bind _ = _
      cases Sl.step σ (.delete l d) <;> rfl, ?_⟩
    cases hd : Sl.step σ (.delete l d) with
    | ok r =>
      refine .ok ⟨⟨rfl, fun h => ?_⟩, rfl⟩
      exfalso
      have := hp h l
      simp only [Sl.step, Sl.delete, Sl.State.check] at hd
      split at hd
      · cases hd
      · rw [this] at hd; cases hd
    | abort => exact .abort
    | fatal => exact .fatal
    | ub => exact .ub
  | find l k =>
    refine ⟨(Sl.step σ (.find l k)).bind fun r => .ok ((⟨r.1, pool⟩, r.2), n), by
      show (Sl.step σ (.find l k)).bind _ = _
      cases Sl.step σ (.find l k) <;> rfl, ?_⟩
    cases hd : Sl.step σ (.find l k) with
    | ok r =>
      have : r.1 = σ := by
        simp only [Sl.step] at hd
        cases hf : Sl.find σ l k <;> rw [hf] at hd <;> simp [Res.bind] at hd
        rw [← hd]
      refine .ok ⟨⟨rfl, fun h => ?_⟩, rfl⟩
      show ∀ l, r.1.lists l = none
      rw [this]; exact hp h
    | abort => exact .abort
    | fatal => exact .fatal
    | ub => exact .ub

end Maa.Oom
