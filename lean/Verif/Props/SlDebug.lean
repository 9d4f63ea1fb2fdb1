import Verif.Model.SlDebug
import Verif.Spec.SlDebug
import Verif.Props.SlLoose
import Verif.Props.Counters

/-! # Property C87: skip lists built with `SL_DEBUG` -/

namespace Maa.Sl

open Spec (SlOp SlProg Coll Colls ResRel run observe Ascending)

variable {σ : Type}

/-! ## the check -/

theorem checkLoop_ok {s : SList} {h : Heap} : ∀ (xs : List Node) (fuel : Nat) (count : Int), xs.length < fuel → Linked h xs → (∀ n ∈ xs, n.id ≠ 0) →
    (Ascending s.compare s.key (xs.map Node.datum) → checkLoop s h fuel (nxt 0 xs) count = .ok (count + xs.length)) ∧
    (¬ Ascending s.compare s.key (xs.map Node.datum) → checkLoop s h fuel (nxt 0 xs) count = .abort) := by
  intro xs
  induction xs with
  | nil =>
    intro fuel count hf _ _
    cases fuel with
    | zero => simp at hf
    | succ fuel => simp [checkLoop, nxt, Ascending]
  | cons n xs ih =>
    intro fuel count hf hl h0
    cases fuel with
    | zero => simp at hf
    | succ fuel =>
      rw [nxt_zero_cons]
      simp only [checkLoop]
      rw [if_neg (h0 n (by simp)), (hl [] n xs rfl).fwd (Nat.zero_le _), okBind]
      have ih' := ih fuel (count + 1) (by simpa using hf) (Linked.suffix (a := [n]) hl) (fun m hm => h0 m (by simp [hm]))
      have hlen : count + 1 + (xs.length : Int) = count + ((n :: xs).length : Int) := by simp; omega
      rw [hlen] at ih'
      cases xs with
      | nil =>
        have : nxt 0 ([] : List Node) = 0 := rfl
        rw [this] at ih' ⊢
        rw [if_pos rfl, okBind]
        exact ⟨fun _ => ih'.1 trivial, fun h => absurd trivial h⟩
      | cons m xs =>
        rw [nxt_zero_cons] at ih' ⊢
        rw [if_neg (h0 m (by simp)), hl.datum (n := n) (by simp), okBind, hl.datum (n := m) (by simp), okBind]
        simp only [List.map_cons, Ascending] at ih' ⊢
        by_cases hc : s.compare (s.key n.datum) (s.key m.datum) < 0
        · rw [if_neg (by omega), okBind]
          exact ⟨fun h => ih'.1 h.2, fun h => ih'.2 fun h' => h ⟨hc, h'⟩⟩
        · rw [if_pos (by omega)]
          exact ⟨fun h => absurd h.1 hc, fun _ => rfl⟩

theorem slCheck_rep {s : State} {l : Nat} {o : SList} {ns : List Node} (h0 : l ≠ 0) (hl : s.lists l = some o) (r : Rep s.heap o ns) :
    (Ascending o.compare o.key (ns.map Node.datum) → slCheck s l = .ok ()) ∧
    (¬ Ascending o.compare o.key (ns.map Node.datum) → slCheck s l = .abort) := by
  have hh : s.heap.fwd o.head 0 = .ok (nxt 0 ns) := NodeOk.fwd (n := hd o) (r.linked [] _ _ rfl) (Nat.zero_le _)
  have hch : s.check l = .ok o := by unfold State.check; rw [if_neg h0, hl]
  unfold slCheck
  rw [hch, okBind, hh, okBind]
  obtain ⟨h1, h2⟩ := checkLoop_ok (s := o) ns (s.heap.clock + 1) 0 (by have := r.few; omega) (Linked.suffix (a := [hd o]) r.linked)
    (fun n hn => Nat.ne_of_gt (r.pos n (by simp [hn])))
  refine ⟨fun h => ?_, fun h => ?_⟩
  · rw [h1 h, okBind, if_neg]
    rw [r.size]; simp
  · rw [h2 h]; rfl

theorem ascending_of_pairwise {cmp : Nat → Nat → Int} {key : Nat → Nat} : ∀ {ds : List Nat}, ds.Pairwise (fun a b => cmp (key a) (key b) < 0) →
    Ascending cmp key ds
  | [], _ => trivial
  | [_], _ => trivial
  | d :: e :: ds, h => by
    rw [List.pairwise_cons] at h
    exact ⟨h.1 e (by simp), ascending_of_pairwise h.2⟩

theorem slCheck_loose {s : State} {S : Colls} {N : Nat → List Node} (I : InvOf Loose s S N) {l : Nat} (hl : (s.lists l).isSome) :
    slCheck s l = .ok () ∨ slCheck s l = .abort := by
  obtain ⟨o, ho⟩ := Option.isSome_iff_exists.1 hl
  obtain ⟨h1, h2⟩ := slCheck_rep (Nat.ne_of_gt (I.small l o ho).1) ho (I.rep l o ho)
  by_cases h : Ascending o.compare o.key ((N l).map Node.datum)
  · exact Or.inl (h1 h)
  · exact Or.inr (h2 h)

theorem slCheck_inv {s : State} {S : Colls} {N : Nat → List Node} (I : Inv s S N) {l : Nat} (hl : (s.lists l).isSome) : slCheck s l = .ok () := by
  obtain ⟨o, ho⟩ := Option.isSome_iff_exists.1 hl
  obtain ⟨c, -, -, -, -, -, m5⟩ := I.mat l o ho
  exact (slCheck_rep (Nat.ne_of_gt (I.small l o ho).1) ho (I.rep l o ho)).1 (ascending_of_pairwise (List.pairwise_map.2 m5))

/-! ## programs -/

/-- what every call keeps, programs keep -/
theorem exec_keeps {J : State → Prop} {P : SlOp → Prop} (hJ : ∀ o s s' x, P o → J s → step s o = .ok (s', x) → J s') (p : SlProg σ) :
    p.All P → ∀ s q, J s → exec p s = .ok q → J q.1 := by
  induction p with
  | ret st x => intro _ s q h e; simp only [exec, Res.ok.injEq] at e; rw [← e]; exact h
  | call o k ih =>
    rintro ⟨ho, hk⟩ s q h e
    simp only [exec, Res.bind_ok_iff] at e
    obtain ⟨a, h1, h2⟩ := e
    exact ih _ (hk _) _ _ (hJ o s a.1 a.2 ho h h1) h2
  | walk l st f k ihf ihk =>
    rintro ⟨hf, hk⟩ s q h e
    simp only [exec, Res.bind_ok_iff] at e
    obtain ⟨a, h1, h2⟩ := e
    refine ihk _ _ (hk _ _) _ _ ?_ h2
    have body : ∀ (copy : List Nat) (n i : Nat) (s : State) (st : σ) q, J s → callBody (fun s st d => exec (f st d) s) copy n i s st = .ok q → J q.1 := by
      intro copy n
      induction n with
      | zero => intro i s st q h e; simp only [callBody, Res.ok.injEq] at e; rw [← e]; exact h
      | succ n ih =>
        intro i s st q h e
        simp only [callBody] at e
        cases hc : copy[i]? with
        | none => rw [hc] at e; simp at e
        | some d =>
          rw [hc] at e
          simp only [Res.bind_ok_iff] at e
          obtain ⟨b, h1, h2⟩ := e
          have hb := ihf _ _ (hf _ _) _ _ h h1
          by_cases hz : b.2.2 ≠ 0
          · rw [if_pos hz, Res.ok.injEq] at h2; rw [← h2]; exact hb
          · rw [if_neg hz] at h2; exact ih _ _ _ _ hb h2
    unfold walkCalls at h1
    by_cases h0 : l = 0
    · rw [if_pos h0, Res.ok.injEq] at h1; rw [← h1]; exact h
    · rw [if_neg h0] at h1
      simp only [Res.bind_ok_iff] at h1
      obtain ⟨_, _, _, _, copy, _, h1⟩ := h1
      exact body copy _ _ _ _ _ h h1

theorem step_exists {o : SlOp} {s s' : State} {x l : Nat} (ho : o ≠ .destroy l) (hs : (s.lists l).isSome) (h : step s o = .ok (s', x)) :
    (s'.lists l).isSome := by
  cases o with
  | create cmp key =>
    cases cmp with
    | none => simp [step, create] at h
    | some cmp =>
      cases key with
      | none => simp [step, create] at h
      | some key =>
        simp only [step, create, Res.bind_ok_iff, Res.ok.injEq, Prod.mk.injEq] at h
        obtain ⟨_, _, _, _, rfl, -⟩ := h
        simp only
        split
        · rfl
        · exact hs
  | destroy j =>
    simp only [step, destroy, Res.bind_ok_iff, Res.ok.injEq, Prod.mk.injEq] at h
    obtain ⟨_, ⟨_, _, _, _, rfl⟩, rfl, -⟩ := h
    have : l ≠ j := fun e => ho (by rw [e])
    simp only [State.put, this, if_false]
    exact hs
  | insert j d rnd =>
    simp only [step, insert, Res.bind_ok_iff, Res.ok.injEq, Prod.mk.injEq] at h
    obtain ⟨_, ⟨_, _, _, _, _, _, _, _, _, _, _, _, rfl⟩, rfl, -⟩ := h
    simp only [State.put]
    split
    · rfl
    · exact hs
  | delete j d =>
    simp only [step, delete, Res.bind_ok_iff, Res.ok.injEq, Prod.mk.injEq] at h
    obtain ⟨_, ⟨_, _, _, _, _, _, _, _, _, _, _, _, rfl⟩, rfl, -⟩ := h
    simp only [State.put]
    split
    · rfl
    · exact hs
  | find j k =>
    simp only [step, Res.bind_ok_iff, Res.ok.injEq, Prod.mk.injEq] at h
    obtain ⟨_, _, rfl, -⟩ := h
    exact hs

/-- the debugging build against the other: the same, or (if `e`) an abort -/
def SameOr {α : Type} (e : Prop) (x y : Res α) : Prop := x = y ∨ (e ∧ x = .abort)

theorem SameOr.bind {α β : Type} {e : Prop} {x y : Res α} (h : SameOr e x y) {f g : α → Res β} (hfg : ∀ a, y = .ok a → SameOr e (f a) (g a)) :
    SameOr e (x.bind f) (y.bind g) := by
  rcases h with rfl | ⟨he, rfl⟩
  · cases x with
    | ok a => exact hfg a rfl
    | abort => exact Or.inl rfl
    | fatal => exact Or.inl rfl
    | ub => exact Or.inl rfl
  · exact Or.inr ⟨he, rfl⟩

theorem insert_list {s s' : State} {l d : Nat} {rnd : Nat → Nat} (h : insert s l d rnd = .ok s') : (s'.lists l).isSome := by
  simp only [insert, Res.bind_ok_iff, Res.ok.injEq] at h
  obtain ⟨_, _, _, _, _, _, _, _, _, _, _, _, rfl⟩ := h
  simp [State.put]

theorem delete_list {s s' : State} {l d : Nat} (h : delete s l d = .ok s') : (s'.lists l).isSome := by
  simp only [delete, Res.bind_ok_iff, Res.ok.injEq] at h
  obtain ⟨_, _, _, _, _, _, _, _, _, _, _, _, rfl⟩ := h
  simp [State.put]

theorem check_list {s : State} {l : Nat} {o : SList} (h : s.check l = .ok o) : (s.lists l).isSome := by
  unfold State.check at h
  split at h
  · simp at h
  · split at h
    · rename_i h'; simp [h']
    · simp at h

theorem check_first {α : Type} {s : State} {l : Nat} {k : SList → Res α} : ((s.check l).bind fun _ => (s.check l).bind k) = (s.check l).bind k := by
  cases s.check l <;> rfl

section
variable {e : Prop} {P : SlOp → Prop} {G : State → Prop} (hstep : ∀ o s s' x, P o → G s → step s o = .ok (s', x) → G s')
  (hcheck : ∀ s l, G s → (s.lists l).isSome → SameOr e (slCheck s l) (.ok ()))
include hstep hcheck

theorem guard_same {α : Type} {s : State} (hG : G s) (l : Nat) {x y : Res α} (hxy : ∀ o, s.check l = .ok o → SameOr e x y)
    (hy : (s.check l).bind (fun _ => y) = y) : SameOr e ((s.check l).bind fun _ => (slCheck s l).bind fun _ => x) y := by
  cases hc : s.check l with
  | ok o =>
    rw [okBind]
    have := (hcheck s l hG (check_list hc)).bind (f := fun _ => x) (g := fun _ => y) (fun _ _ => hxy o hc)
    exact this
  | abort => rw [hc] at hy; exact Or.inl hy
  | fatal => rw [hc] at hy; exact Or.inl hy
  | ub => rw [hc] at hy; exact Or.inl hy

theorem stepD_same {o : SlOp} (ho : P o) {s : State} (hG : G s) : SameOr e (stepD s o) (step s o) := by
  cases o with
  | create cmp key => exact Or.inl rfl
  | destroy l => exact Or.inl rfl
  | insert l d rnd =>
    refine SameOr.bind ?_ fun a _ => Or.inl rfl
    refine guard_same hstep hcheck hG l ?_ (by unfold insert; exact check_first)
    intro _ _
    have : insert s l d rnd = (insert s l d rnd).bind fun σ' => Res.ok σ' := by cases insert s l d rnd <;> rfl
    rw [show (SameOr e _ (insert s l d rnd)) = SameOr e _ ((insert s l d rnd).bind fun σ' => Res.ok σ') from by rw [← this]]
    refine SameOr.bind (Or.inl rfl) fun a ha => ?_
    have hGa : G a := hstep (.insert l d rnd) s a 0 ho hG (by simp only [step, ha, okBind])
    exact SameOr.bind (y := .ok ()) (hcheck a l hGa (insert_list ha)) (g := fun _ => Res.ok a) fun _ _ => Or.inl rfl
  | delete l d =>
    refine SameOr.bind ?_ fun a _ => Or.inl rfl
    refine guard_same hstep hcheck hG l ?_ (by unfold delete; exact check_first)
    intro _ _
    have : delete s l d = (delete s l d).bind fun σ' => Res.ok σ' := by cases delete s l d <;> rfl
    rw [show (SameOr e _ (delete s l d)) = SameOr e _ ((delete s l d).bind fun σ' => Res.ok σ') from by rw [← this]]
    refine SameOr.bind (Or.inl rfl) fun a ha => ?_
    have hGa : G a := hstep (.delete l d) s a 0 ho hG (by simp only [step, ha, okBind])
    exact SameOr.bind (y := .ok ()) (hcheck a l hGa (delete_list ha)) (g := fun _ => Res.ok a) fun _ _ => Or.inl rfl
  | find l k =>
    refine SameOr.bind ?_ fun a _ => Or.inl rfl
    exact guard_same hstep hcheck hG l (fun _ _ => Or.inl rfl) (by unfold find; exact check_first)

omit hcheck in
theorem callBody_same {f : σ → Nat → SlProg σ} (hf : ∀ st d, (f st d).All P) (hb : ∀ st d s, G s → SameOr e (execD (f st d) s) (exec (f st d) s))
    (copy : List Nat) : ∀ (n i : Nat) (s : State) (st : σ), G s →
    SameOr e (callBody (fun s st d => execD (f st d) s) copy n i s st) (callBody (fun s st d => exec (f st d) s) copy n i s st) := by
  intro n
  induction n with
  | zero => intro i s st _; exact Or.inl rfl
  | succ n ih =>
    intro i s st hG
    simp only [callBody]
    cases copy[i]? with
    | none => exact Or.inl rfl
    | some d =>
      refine SameOr.bind (hb st d s hG) fun a ha => ?_
      have hGa := exec_keeps hstep _ (hf st d) s a hG ha
      by_cases hz : a.2.2 ≠ 0
      · rw [if_pos hz, if_pos hz]; exact Or.inl rfl
      · rw [if_neg hz, if_neg hz]; exact ih _ _ _ hGa

theorem execD_same (p : SlProg σ) : p.All P → p.Keeps → ∀ s, G s → SameOr e (execD p s) (exec p s) := by
  induction p with
  | ret st x => intro _ _ s _; exact Or.inl rfl
  | call o k ih =>
    rintro ⟨ho, hk⟩ hkeep s hG
    exact SameOr.bind (stepD_same hstep hcheck ho hG) fun a ha => ih _ (hk _) (hkeep _) _ (hstep o s a.1 a.2 ho hG ha)
  | walk l st f k ihf ihk =>
    rintro ⟨hf, hk⟩ ⟨hkf, hkk⟩ s hG
    simp only [execD, exec]
    refine SameOr.bind ?_ fun a ha => ihk _ _ (hk _ _) (hkk _ _) _ (exec_keeps hstep (.walk l st f fun st r => .ret st r) ⟨hf, fun _ _ => trivial⟩ s a hG (by
        simp only [exec, ha, okBind]))
    unfold walkCallsD
    by_cases h0 : l = 0
    · rw [if_pos h0]; unfold walkCalls; rw [if_pos h0]; exact Or.inl rfl
    · rw [if_neg h0]
      have hw : SameOr e (walkCalls (fun s st d => execD (f st d) s) l s st) (walkCalls (fun s st d => exec (f st d) s) l s st) := by
        unfold walkCalls
        rw [if_neg h0, if_neg h0]
        refine SameOr.bind (Or.inl rfl) fun o _ => SameOr.bind (Or.inl rfl) fun pt _ => SameOr.bind (Or.inl rfl) fun copy _ => ?_
        exact callBody_same hstep hf (fun st d s hG => ihf st d (hf st d) (hkf st d).2 s hG) copy _ _ _ _ hG
      have : walkCalls (fun s st d => exec (f st d) s) l s st = (walkCalls (fun s st d => exec (f st d) s) l s st).bind fun q => Res.ok q := by
        cases walkCalls (fun s st d => exec (f st d) s) l s st <;> rfl
      rw [this]
      refine SameOr.bind hw fun a ha => ?_
      by_cases hz : a.2.2 ≠ 0
      · rw [if_pos hz]; exact Or.inl rfl
      · rw [if_neg hz]
        have hl : (s.lists l).isSome := by
          unfold walkCalls at ha
          rw [if_neg h0] at ha
          simp only [Res.bind_ok_iff] at ha
          obtain ⟨o, h1, -⟩ := ha
          exact check_list h1
        have hla : (a.1.lists l).isSome := exec_keeps (J := fun s => (s.lists l).isSome) (P := (· ≠ .destroy l)) (fun o s s' x h1 h2 h3 => step_exists h1 h2 h3)
          (.walk l st f fun st r => .ret st r) ⟨fun st d => (hkf st d).1, fun _ _ => trivial⟩ s a hl (by simp only [exec, ha, okBind])
        have hGa : G a.1 := exec_keeps hstep (.walk l st f fun st r => .ret st r) ⟨hf, fun _ _ => trivial⟩ s a hG (by simp only [exec, ha, okBind])
        exact SameOr.bind (y := .ok ()) (hcheck _ l hGa hla) (g := fun _ => Res.ok a) fun _ _ => Or.inl rfl

end

/-- C87: with comparison functions that are orders, a library built with `SL_DEBUG` does exactly what the ordinary one does, to the last byte of
memory, in every program that does not destroy a list while walking over it: the checks never find anything. -/
theorem C87_same (place : Policy) (hp : Maa.Heap.Allocator place) (p : SlProg σ) (h : p.All SlOp.Ok) (hk : p.Keeps) :
    execD p (State.init place) = exec p (State.init place) := by
  have := execD_same (e := False) (P := SlOp.Ok) (G := fun s => ∃ S N, Inv s S N)
    (by
      rintro o s s' x ho ⟨S, N, I⟩ hs
      have := step_sim I o ho
      rw [hs] at this
      cases hb : S.step o <;> rw [hb] at this <;> simp only [ResRel] at this
      obtain ⟨-, N', I'⟩ := this
      exact ⟨_, N', I'⟩)
    (by rintro s l ⟨S, N, I⟩ hl; exact Or.inl (slCheck_inv I hl)) p h hk _ ⟨_, _, inv_init hp⟩
  rcases this with h | ⟨h, -⟩
  · exact h
  · exact absurd h id

/-- C87, against the specification of C77. -/
theorem C87_programs (place : Policy) (hp : Maa.Heap.Allocator place) (p : SlProg σ) (h : p.All SlOp.Ok) (hk : p.Keeps) :
    ((execD p (State.init place)).bind fun r => Res.ok r.2) = (Colls.exec p Colls.empty).bind fun r => Res.ok r.2 := by
  rw [C87_same place hp p h hk]
  exact C77_programs place hp p h

/-- C87: with any comparison functions at all, the debugging build does what the ordinary build does, or ends the program with a message. -/
theorem C87_same_or_abort (place : Policy) (hp : Maa.Heap.Allocator place) (p : SlProg σ) (hk : p.Keeps) :
    execD p (State.init place) = exec p (State.init place) ∨ execD p (State.init place) = .abort := by
  have all : ∀ p : SlProg σ, p.All fun _ => True := by
    intro p
    induction p with
    | ret st x => trivial
    | call o k ih => exact ⟨trivial, ih⟩
    | walk l st f k ihf ihk => exact ⟨ihf, ihk⟩
  have := execD_same (e := True) (P := fun _ => True) (G := fun s => ∃ S N, InvOf Loose s S N)
    (by
      rintro o s s' x - ⟨S, N, I⟩ hs
      obtain ⟨b, -, this⟩ := step_loose I o
      rw [hs] at this
      cases b <;> simp only [ResRel] at this
      obtain ⟨-, N', I'⟩ := this
      exact ⟨_, N', I'⟩)
    (by
      rintro s l ⟨S, N, I⟩ hl
      rcases slCheck_loose I hl with h | h
      · exact Or.inl h
      · exact Or.inr ⟨trivial, h⟩) p (all p) hk _ ⟨_, _, inv_init hp⟩
  rcases this with h | ⟨-, h⟩
  · exact Or.inl h
  · exact Or.inr h

/-- The program that collects the data of a list by walking over it. -/
def collect (l : Nat) : SlProg (List Nat) := .walk l [] (fun st d => .ret (st ++ [d]) 0) fun st r => .ret st r

theorem collect_ok {s : State} {l : Nat} {o : SList} {ns : List Node} (h0 : l ≠ 0) (hl : s.lists l = some o) (r : Rep s.heap o ns) :
    exec (collect l) s = .ok (s, ns.map Node.datum, 0) := by
  have hh : s.heap.fwd o.head 0 = .ok (nxt 0 ns) := NodeOk.fwd (n := hd o) (r.linked [] _ _ rfl) (Nat.zero_le _)
  have hch : s.check l = .ok o := by unfold State.check; rw [if_neg h0, hl]
  have go : ∀ (copy : List Nat) (n i : Nat) (st : List Nat), i + n = copy.length →
      callBody (fun s (st : List Nat) d => exec (.ret (st ++ [d]) 0) s) copy n i s st = .ok (s, st ++ copy.drop i, 0) := by
    intro copy n
    induction n with
    | zero => intro i st hi; rw [List.drop_of_length_le (by omega)]; simp [callBody]
    | succ n ih =>
      intro i st hi
      have hd : copy.drop i = copy[i]'(by omega) :: copy.drop (i + 1) := List.drop_eq_getElem_cons (by omega)
      simp only [callBody, exec]
      rw [List.getElem?_eq_getElem (by omega : i < copy.length)]
      simp only [okBind]
      rw [if_neg (by simp)]
      have := ih (i + 1) (st ++ [copy[i]]) (by omega)
      simp only [exec] at this
      rw [this, hd]
      simp
  unfold collect
  simp only [exec]
  unfold walkCalls
  rw [if_neg h0, hch, okBind, hh, okBind, copyLoop_ok ns _ [] _ (by have := r.few; omega) (Linked.suffix (a := [hd o]) r.linked) (fun n hn => Nat.ne_of_gt (r.pos n (by simp [hn])))
          (by simpa using r.size), okBind]
  have := go ([] ++ ns.map Node.datum) o.count.toNat 0 [] (by rw [r.size]; simp)
  simp only [exec] at this
  rw [this]
  simp [Res.bind]

/-- C87: after any program with any comparison functions, what the check says of an existing list: it lets the program go on exactly when the data,
in the sequence in which a walk visits them, ascend from each to the next; otherwise it ends the program.  It never misbehaves. -/
theorem C87_check (place : Policy) (hp : Maa.Heap.Allocator place) (p : SlProg σ) (s : State) (x : σ × Int) (h : exec p (State.init place) = .ok (s, x))
    (l : Nat) (o : SList) (hl : s.lists l = some o) :
    ∃ vs, exec (collect l) s = .ok (s, vs, 0) ∧ (Ascending o.compare o.key vs → slCheck s l = .ok ()) ∧
      (¬ Ascending o.compare o.key vs → slCheck s l = .abort) := by
  obtain ⟨r, h1, h2⟩ := exec_loose p _ _ _ (inv_init hp)
  rw [h] at h2
  cases r <;> simp only [ResRel] at h2
  obtain ⟨-, N, I⟩ := h2
  have h0 : l ≠ 0 := Nat.ne_of_gt (I.small l o hl).1
  exact ⟨_, collect_ok h0 hl (I.rep l o hl), slCheck_rep h0 hl (I.rep l o hl)⟩

/-- C87: with any comparison function, when an insertion into a list or a deletion from it returns in the debugging build, the data of the list
ascend: a comparison that puts a datum where it does not belong is found by the call that does it. -/
theorem C87_caught (place : Policy) (hp : Maa.Heap.Allocator place) (p : SlProg σ) (s s' : State) (x : σ × Int)
    (h : exec p (State.init place) = .ok (s, x)) (l d : Nat) (hs : (∃ rnd, insertD s l d rnd = .ok s') ∨ deleteD s l d = .ok s') :
    ∃ o vs, s'.lists l = some o ∧ exec (collect l) s' = .ok (s', vs, 0) ∧ Ascending o.compare o.key vs := by
  obtain ⟨r, h1, h2⟩ := exec_loose p _ _ _ (inv_init hp)
  rw [h] at h2
  cases r <;> simp only [ResRel] at h2
  obtain ⟨-, N, I⟩ := h2
  have key : ∃ op, step s op = .ok (s', 0) ∧ slCheck s' l = .ok () ∧ (s'.lists l).isSome := by
    rcases hs with ⟨rnd, hs⟩ | hs
    · simp only [insertD, Res.bind_ok_iff, Res.ok.injEq] at hs
      obtain ⟨_, _, _, _, a, ha, ⟨⟩, hc, rfl⟩ := hs
      exact ⟨.insert l d rnd, by simp only [step, ha, okBind], hc, insert_list ha⟩
    · simp only [deleteD, Res.bind_ok_iff, Res.ok.injEq] at hs
      obtain ⟨_, _, _, _, a, ha, ⟨⟩, hc, rfl⟩ := hs
      exact ⟨.delete l d, by simp only [step, ha, okBind], hc, delete_list ha⟩
  obtain ⟨op, k1, k2, k3⟩ := key
  obtain ⟨b, -, this⟩ := step_loose I op
  rw [k1] at this
  cases b <;> simp only [ResRel] at this
  obtain ⟨-, N', I'⟩ := this
  obtain ⟨o, ho⟩ := Option.isSome_iff_exists.1 k3
  have h0 : l ≠ 0 := Nat.ne_of_gt (I'.small l o ho).1
  refine ⟨o, _, ho, collect_ok h0 ho (I'.rep l o ho), ?_⟩
  by_contra hc
  rw [(slCheck_rep h0 ho (I'.rep l o ho)).2 hc] at k2
  simp at k2

/-- C87, the debugging build is stricter: the ordinary library lets the function called by a walk destroy the list (C77), the other one then
looks at the list that is no more. -/
theorem C87_destroy_refuted : nested.All SlOp.Ok ∧ exec nested State.init ≠ .ub ∧ execD nested State.init = .ub := by
  refine ⟨⟨byNumber_ok, fun _ => ⟨byNumber_ok, fun _ => ⟨trivial, fun _ => ⟨trivial, fun _ => ⟨trivial, fun _ => ⟨trivial, fun _ => ⟨?_, fun _ _ => trivial⟩⟩⟩⟩⟩⟩⟩, ?_, ?_⟩
  · intro st d
    by_cases hd : d = 10
    · simp only [hd, if_true]; exact ⟨trivial, fun _ => trivial⟩
    · simp only [hd, if_false]; exact ⟨fun _ _ => ⟨trivial, fun _ => trivial⟩, fun _ _ => trivial⟩
  · exact fun h => by
      have : ((exec nested State.init).bind fun r => Res.ok r.2) = .ok ([10, 20, 7, 30, 7, 27], 0) := by decide +kernel
      rw [h] at this
      simp [Res.bind] at this
  · exact Res.eq_ub_of (by decide +kernel)

/-- a program that meets the hypotheses: it deletes and inserts in the list it walks over -/
def tidy : SlProg (List Nat) :=
  .call byNumber fun l => .call (.insert l 30 fun _ => 0x80) fun _ => .call (.insert l 10 fun _ => 0) fun _ =>
  .walk l [] (fun st d => .call (.delete l d) fun _ => .call (.insert l (d + 1) fun _ => 0x80) fun _ => .ret (st ++ [d]) 0) fun st _ =>
  .walk l st (fun st d => .ret (st ++ [d]) 0) fun st r => .call (.destroy l) fun _ => .ret st r

example : tidy.All SlOp.Ok ∧ tidy.Keeps := by
  refine ⟨⟨byNumber_ok, fun _ => ⟨trivial, fun _ => ⟨trivial, fun _ => ⟨fun _ _ => ⟨trivial, fun _ => ⟨trivial, fun _ => trivial⟩⟩, fun _ _ =>
    ⟨fun _ _ => trivial, fun _ _ => ⟨trivial, fun _ => trivial⟩⟩⟩⟩⟩⟩, ?_⟩
  intro l _ _
  refine ⟨fun st d => ⟨⟨by simp, fun _ => ⟨by simp, fun _ => trivial⟩⟩, fun _ _ => trivial⟩, fun _ _ => ⟨fun _ _ => ⟨trivial, trivial⟩, fun _ _ _ => trivial⟩⟩

example : ((execD tidy State.init).bind fun r => Res.ok r.2) = .ok ([10, 30, 11, 31], 0) := by decide +kernel

/-- a comparison that calls everything greater: the ordinary library inserts, the debugging one ends the program at the second insertion; before
that a comparison that goes round in a circle, which is not noticed as long as neighbours ascend -/
example : observe (run stepD State.init [roundabout, .insert 1 3 fun _ => 0, .insert 1 1 fun _ => 0, .insert 1 5 fun _ => 0]) = .ok [1, 0, 0, 0] ∧
    observe (run step State.init [.create (some fun _ _ => 1) (some id), .insert 1 3 fun _ => 0, .insert 1 1 fun _ => 0]) = .ok [1, 0, 0] ∧
    observe (run stepD State.init [.create (some fun _ _ => 1) (some id), .insert 1 3 fun _ => 0, .insert 1 1 fun _ => 0]) = .abort := by
  refine ⟨?_, ?_, ?_⟩ <;> decide +kernel

end Maa.Sl
