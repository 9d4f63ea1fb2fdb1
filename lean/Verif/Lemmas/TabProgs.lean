import Verif.Model.TabProgs
import Verif.Lemmas.Tables
import Verif.Lemmas.HashPos

/-! Programs with hash tables: the pointer level does what the specification promises. -/

namespace Maa.Tables

open HashHeap
open Tab (Entry Tab)
open Heap (Seg Chain)
open Set (FnEnv eqOf)
open SetHeap (set1_self)

variable {K σ : Type} {env : FnEnv K}

/-- the cells of all tables -/
abbrev Cells (K : Type) := Nat → Nat → List (Nat × Entry K Ptr)
/-- all tables at chain level -/
abbrev Chains (K : Type) := Nat → Option (Tab K Ptr)

/-- what a walk in progress needs between two states -/
def Fr (C : Chains K) (A : Cells K) (C' : Chains K) (A' : Cells K) (w : Spec.Walk K) : Prop :=
  match w.2 with
  | none => ∀ x, C w.1 = some x → x.readonly ≠ 0 → A' w.1 = A w.1 ∧ ∃ x', C' w.1 = some x' ∧ x'.prime = x.prime ∧ x'.readonly ≠ 0
  | some rest => ∀ x, C w.1 = some x → ∃ x', C' w.1 = some x' ∧ x'.prime = x.prime ∧ Kp rest (A w.1) (A' w.1)

theorem Fr.refl {C : Chains K} {A : Cells K} {w : Spec.Walk K} : Fr C A C A w := by
  obtain ⟨i, m⟩ := w
  cases m with
  | none => exact fun x hx hro => ⟨rfl, x, hx, rfl, hro⟩
  | some rest => exact fun x hx => ⟨x, hx, rfl, Kp.refl _ _⟩

theorem Fr.trans {C1 C2 C3 : Chains K} {A1 A2 A3 : Cells K} {w : Spec.Walk K} (h : Fr C1 A1 C2 A2 w) (h' : Fr C2 A2 C3 A3 w) : Fr C1 A1 C3 A3 w := by
  obtain ⟨i, m⟩ := w
  cases m with
  | none =>
    intro x hx hro
    obtain ⟨a1, x', a2, a3, a4⟩ := h x hx hro
    obtain ⟨b1, x'', b2, b3, b4⟩ := h' x' a2 a4
    exact ⟨b1.trans a1, x'', b2, b3.trans a3, b4⟩
  | some rest =>
    intro x hx
    obtain ⟨x', a2, a3, a4⟩ := h x hx
    obtain ⟨x'', b2, b3, b4⟩ := h' x' a2
    exact ⟨x'', b2, b3.trans a3, a4.trans b4⟩

/-- the tables walked over exist, and are locked as they should be -/
def Live (L : List (Spec.Walk K)) (C : Chains K) : Prop := ∀ w ∈ L, ∃ x, C w.1 = some x ∧ (w.2 = none → x.readonly ≠ 0)

theorem Live.fr {L : List (Spec.Walk K)} {C C' : Chains K} {A A'} (h : Live L C) (k : ∀ w ∈ L, Fr C A C' A' w) : Live L C' := by
  intro w hw
  obtain ⟨x, h1, h2⟩ := h w hw
  have := k w hw
  unfold Fr at this
  cases hm : w.2 with
  | none =>
    rw [hm] at this
    obtain ⟨-, x', h3, -, h4⟩ := this x h1 (h2 hm)
    exact ⟨x', h3, fun _ => h4⟩
  | some rest =>
    rw [hm] at this
    obtain ⟨x', h3, -, h4⟩ := this x h1
    exact ⟨x', h3, by simp⟩

/-- the outcome of a part of a program, pointer level against specification -/
def Post (env : FnEnv K) (L : List (Spec.Walk K)) (C : Chains K) (A : Cells K) (c : HTables K × σ × Int) (b : Spec.Tables K × σ × Int) : Prop :=
  c.2 = b.2 ∧ ∃ C' A', TRep env c.1 C' A' b.1 ∧ ∀ w ∈ L, Fr C A C' A' w

/-- a piece of code does what the predicate transformer promises -/
def Does (env : FnEnv K) (L : List (Spec.Walk K)) (body : HTables K → Res (HTables K × σ × Int))
    (spec : Spec.Tables K → (Spec.TabOut K σ → Prop) → Prop) : Prop :=
  ∀ s C A α Q, TRep env s C A α → Live L C → spec α Q → ∃ out, Q out ∧ Spec.ResRel (Post env L C A) (body s) out

theorem Post.trans {L : List (Spec.Walk K)} {C C1 : Chains K} {A A1} (k : ∀ w ∈ L, Fr C A C1 A1 w)
    {x : Res (HTables K × σ × Int)} {y : Spec.TabOut K σ} (h : Spec.ResRel (Post env L C1 A1) x y) : Spec.ResRel (Post env L C A) x y := by
  cases x <;> cases y <;> simp only [Spec.ResRel] at h ⊢
  obtain ⟨h1, C', A', h2, h4⟩ := h
  exact ⟨h1, C', A', h2, fun w hw => (k w hw).trans (h4 w hw)⟩

variable {L : List (Spec.Walk K)} {i : Nat} {body : HTables K → σ → K × Ptr → Res (HTables K × σ × Int)}
  {spec : List (K × Nat) → σ → K × Nat → Spec.Tables K → (Spec.TabOut K σ → Prop) → Prop}

theorem TRep.tab {s : HTables K} {C : Chains K} {A} {α : Spec.Tables K} (r : TRep env s C A α) {x : Tab K Ptr} (hx : C i = some x) :
    ∃ t a, s.tabs i = some t ∧ α.objs i = some a ∧ HRep s.heap t.tab x (A i) ∧ Hash.Sim (env.ops t.hashFn t.cmpFn) x a.st := by
  cases ht : s.tabs i with
  | none => rw [(r.m.none_iff i).1 (by simp [ht])] at hx; simp at hx
  | some t =>
    obtain ⟨x', a, h1, h2, h3, h4, -⟩ := r.get ht
    rw [hx] at h1
    cases h1
    exact ⟨t, a, rfl, h2, h3, h4⟩

/-- what remains to be shown after a part of a walk -/
def Rest (spec : List (K × Nat) → σ → K × Nat → Spec.Tables K → (Spec.TabOut K σ → Prop) → Prop) (rest : List (K × Nat))
    (Q : Spec.TabOut K σ → Prop) (out : Spec.TabOut K σ) : Prop :=
  Spec.Then out Q fun q => if q.2.2 ≠ 0 then Q (.ok (q.1, q.2.1, 1)) ∧ q.2.2 = 1 else Spec.visitPairs spec rest q.1 q.2.1 Q

theorem Rest.nil {Q : Spec.TabOut K σ → Prop} {out} (h : Rest spec [] Q out) : Q out := by
  cases out <;> simp only [Rest, Spec.Then, Spec.visitPairs] at h
  · rename_i q
    by_cases hz : q.2.2 ≠ 0
    · rw [if_pos hz] at h
      obtain ⟨h1, h2⟩ := h
      rw [← h2] at h1
      exact h1
    · rw [if_neg hz] at h
      have : q.2.2 = 0 := by simpa using hz
      rw [← this] at h
      exact h
  all_goals exact h

/-- as `Post`, and the slots after slot `k` of table `i` are as before -/
def PostX (env : FnEnv K) (L : List (Spec.Walk K)) (i k P : Nat) (C : Chains K) (A : Cells K) (c : HTables K × σ × Int)
    (b : Spec.Tables K × σ × Int) : Prop :=
  c.2 = b.2 ∧ ∃ C' A', TRep env c.1 C' A' b.1 ∧ (∀ w ∈ L, Fr C A C' A' w) ∧ (∃ x', C' i = some x' ∧ x'.prime = P) ∧
    ∀ j, k < j → j < P → A' i j = A i j

theorem visitChain_sim (hb : ∀ rest st p, Does env ((i, some rest) :: L) (fun s => body s st p) (spec rest st p)) {P k : Nat}
    (hk : k < P) (after : List (K × Ptr)) (rem : List (Nat × Entry K Ptr)) :
    ∀ (n : Nat) (s : HTables K) (C : Chains K) A (α : Spec.Tables K) (st : σ) (pt : Nat) (pre : List (Nat × Entry K Ptr)) Q,
    rem.length < n → TRep env s C A α → Live L C → (∃ x, C i = some x ∧ x.prime = P) → A i k = pre ++ rem → Chain s.heap.mem pt rem →
    (∀ j, k < j → j < P → ∀ c ∈ A i j, pairOf c ∈ after) → Spec.visitPairs spec (rem.map pairOf ++ after) α st Q →
    ∃ out, Rest spec after Q out ∧ Spec.ResRel (PostX env L i k P C A) (visitChain body n s st pt) out := by
  induction rem with
  | nil =>
    intro n s C A α st pt pre Q hn r lk hx hA hc haft hv
    cases n with
    | zero => simp at hn
    | succ n =>
      have : pt = 0 := hc
      subst this
      exact ⟨.ok (α, st, 0), by simpa [Rest, Spec.Then] using hv, rfl, C, A, r, fun _ _ => Fr.refl, hx, fun _ _ _ => rfl⟩
  | cons c rem ih =>
    intro n s C A α st pt pre Q hn r lk hx hA hc haft hv
    cases n with
    | zero => simp at hn
    | succ n =>
      obtain ⟨h1, h2, nx, h3, h4⟩ := hc
      subst h1
      obtain ⟨x, hx1, hx2⟩ := hx
      have hp : (c.2.key, c.2.datum) = pairOf c := rfl
      simp only [visitChain, h2, if_false, Heap.read_ok h3, Res.bind, hp]
      simp only [List.map_cons, List.cons_append, Spec.visitPairs] at hv
      have lk' : Live ((i, some (rem.map pairOf ++ after)) :: L) C := by
        intro w hw
        rcases List.mem_cons.1 hw with rfl | hw
        · exact ⟨x, hx1, by simp⟩
        · exact lk w hw
      obtain ⟨out, ho, hrel⟩ := hb _ st (pairOf c) s C A α _ r lk' hv
      cases hbd : body s st (pairOf c) <;> cases out <;> simp only [hbd, Spec.ResRel, Spec.Then] at hrel ho ⊢
      · rename_i cc b
        obtain ⟨e1, C', A', r', kp⟩ := hrel
        obtain ⟨x', k2, k3, k1⟩ := kp _ (List.mem_cons_self ..) x hx1
        simp only at k1 k2 k3
        have e2 : cc.2.1 = b.2.1 := by rw [e1]
        have e3 : cc.2.2 = b.2.2 := by rw [e1]
        have kpL : ∀ w ∈ L, Fr C A C' A' w := fun w hw => kp w (List.mem_cons_of_mem _ hw)
        have hkeep : ∀ j, k < j → j < P → A' i j = A i j := fun j hj hjp =>
          k1.2 j (fun d hd => List.mem_append_right _ (haft j hj hjp d hd))
        by_cases hz : b.2.2 ≠ 0
        · rw [e3, if_pos hz]
          rw [if_pos hz] at ho
          exact ⟨.ok (b.1, b.2.1, 1), by simp [Rest, Spec.Then, ho], by rw [e2], C', A', r', kpL, ⟨x', k2, k3.trans hx2⟩, hkeep⟩
        · rw [e3, if_neg hz]
          rw [if_neg hz] at ho
          obtain ⟨pre1, hA1⟩ := k1.1 k (pre ++ [c]) rem (by rw [hA]; simp)
            (fun d hd => List.mem_append_left _ (List.mem_map.2 ⟨d, hd, rfl⟩))
          have hch : Chain cc.1.heap.mem nx rem := by
            obtain ⟨t, a, -, -, t2, -⟩ := r'.tab k2
            have h5 := t2.chain k (by rw [k3, hx2]; exact hk)
            rw [hA1] at h5
            obtain ⟨x, -, h6⟩ := Seg.split h5
            rw [chain_head h4 h6]; exact h6
          obtain ⟨out, o1, o2⟩ := ih n cc.1 C' A' b.1 b.2.1 nx pre1 Q (by simp at hn; omega) r' (lk.fr kpL) ⟨x', k2, k3.trans hx2⟩ hA1 hch
            (fun j hj hjp d hd => by rw [hkeep j hj hjp] at hd; exact haft j hj hjp d hd) ho
          rw [e2]
          refine ⟨out, o1, ?_⟩
          cases hvc : visitChain body n cc.1 b.2.1 nx <;> cases out <;> simp only [hvc, Spec.ResRel] at o2 ⊢
          obtain ⟨u1, C2, A2, u2, u3, u4, u5⟩ := o2
          exact ⟨u1, C2, A2, u2, fun w hw => (kpL w hw).trans (u3 w hw), u4, fun j hj hjp => (u5 j hj hjp).trans (hkeep j hj hjp)⟩
      · exact ⟨.abort, ho, trivial⟩
      · exact ⟨.fatal, ho, trivial⟩
      · exact ⟨.ub, ho, trivial⟩

theorem visitSlots_sim (hb : ∀ rest st p, Does env ((i, some rest) :: L) (fun s => body s st p) (spec rest st p)) {P : Nat} :
    ∀ (n k : Nat) (s : HTables K) (C : Chains K) A (α : Spec.Tables K) (st : σ) Q, k ≤ P → P < k + n → TRep env s C A α → Live L C →
    (∃ x, C i = some x ∧ x.prime = P) → Spec.visitPairs spec ((cellsFrom P k (A i)).map pairOf) α st Q →
    ∃ out, Rest spec [] Q out ∧ Spec.ResRel (Post env L C A) (visitSlots body i n k s st) out := by
  intro n
  induction n with
  | zero => intro k s C A α st Q hk h _ _ _ _; omega
  | succ n ih =>
    intro k s C A α st Q hkle hn r lk hx hv
    obtain ⟨x, hx1, hx2⟩ := hx
    obtain ⟨t, a, t1, -, t2, -⟩ := r.tab hx1
    simp only [visitSlots, HTables.get, t1]
    simp only [Res.bind]
    rw [t2.prime, hx2]
    by_cases hkP : k < P
    · rw [if_pos hkP]
      have hc := t2.chain k (by rw [hx2]; exact hkP)
      have hlen := Heap.Chain.length_lt t2.ok hc
      have haft : ∀ j, k < j → j < P → ∀ c ∈ A i j, pairOf c ∈ (cellsFrom P (k + 1) (A i)).map pairOf := by
        intro j hj hjp c hcm
        refine List.mem_map.2 ⟨c, ?_, rfl⟩
        unfold cellsFrom
        rw [List.mem_flatMap]
        refine ⟨j, ?_, hcm⟩
        rw [List.mem_drop_iff_getElem]
        exact ⟨j - (k + 1), by simp; omega, by simp; omega⟩
      rw [cellsFrom_lt (A i) hkP, List.map_append] at hv
      obtain ⟨out, o1, o2⟩ := visitChain_sim hb hkP _ (A i k) s.heap.clock s C A α st _ [] Q hlen r lk ⟨x, hx1, hx2⟩ rfl hc haft hv
      cases hvc : visitChain body s.heap.clock s st (t.tab.buckets k) <;> cases out <;> simp only [hvc, Rest, Spec.ResRel, Spec.Then] at o1 o2 ⊢
      · rename_i c b
        obtain ⟨e1, C', A', r', kp, hx', hkeep⟩ := o2
        have e2 : c.2.1 = b.2.1 := by rw [e1]
        have e3 : c.2.2 = b.2.2 := by rw [e1]
        by_cases hz : b.2.2 ≠ 0
        · rw [e3, if_pos hz]
          rw [if_pos hz] at o1
          refine ⟨.ok b, ?_, e1, C', A', r', kp⟩
          simp only [if_pos hz]
          exact o1
        · rw [e3, if_neg hz]
          rw [if_neg hz] at o1
          have hsame : cellsFrom P (k + 1) (A' i) = cellsFrom P (k + 1) (A i) := by
            unfold cellsFrom
            rw [List.flatMap_def, List.flatMap_def]
            congr 1
            apply List.map_congr_left
            intro j hj
            rw [List.mem_drop_iff_getElem] at hj
            obtain ⟨x, hx, rfl⟩ := hj
            simp at hx
            simp only [List.getElem_range]
            exact hkeep _ (by omega) (by omega)
          rw [← hsame] at o1
          obtain ⟨out, p1, p2⟩ := ih (k + 1) c.1 C' A' b.1 b.2.1 Q (by omega) (by omega) r' (lk.fr kp) hx' o1
          rw [e2]
          exact ⟨out, p1, Post.trans kp p2⟩
      · exact ⟨.abort, o1, trivial⟩
      · exact ⟨.fatal, o1, trivial⟩
      · exact ⟨.ub, o1, trivial⟩
    · rw [if_neg hkP]
      rw [cellsFrom_ge (A i) (by omega)] at hv
      exact ⟨.ok (α, st, 0), by simpa [Rest, Spec.Then] using hv, rfl, C, A, r, fun _ _ => Fr.refl⟩

theorem order_perm {s : HTables K} {B : Nat → List (Nat × Entry K Ptr)} {t : HTab} {x : Tab K Ptr} {m : Spec.MapState K} {ops : KeyOps K}
    (r : HRep s.heap t x B) (h : Hash.Sim ops x m) : ((cellsFrom x.prime 0 B).map pairOf).Perm m.map := by
  have := h.rep.perm
  unfold Tab.pairsOf at this
  rw [← cells_map r, List.map_map] at this
  exact this

theorem walk_sim (hb : ∀ rest st p, Does env ((i, some rest) :: L) (fun s => body s st p) (spec rest st p))
    {cont : HTables K → σ → Int → Res (HTables K × σ × Int)} {kspec : σ → Int → Spec.Tables K → (Spec.TabOut K σ → Prop) → Prop}
    (hk : ∀ st r, Does env L (fun s => cont s st r) (kspec st r)) (st : σ) :
    Does env L (fun s => (walkCalls body i s st).bind fun q => cont q.1 q.2.1 q.2.2)
      (fun α Q => Spec.Then (α.get i) Q fun a => ∀ order : List (K × Nat), order.Perm a.st.map →
        Spec.visitPairs spec order α st fun out => Spec.Then out Q fun q => kspec q.2.1 q.2.2 q.1 Q) := by
  intro s C A α Q r lk hv
  simp only [walkCalls, HTables.get]
  cases ht : s.tabs i with
  | none =>
    simp only [Spec.Tables.get, (r.none_iff i).1 ht, Spec.Then] at hv
    exact ⟨.ub, hv, trivial⟩
  | some t =>
    obtain ⟨x, a, h1, h2, h3, h4, h5, h6⟩ := r.get ht
    simp only [Spec.Tables.get, h2, Spec.Then] at hv
    simp only [Res.bind]
    have hvis := hv _ (order_perm h3 h4)
    obtain ⟨out, o1, o2⟩ := visitSlots_sim hb (P := x.prime) (t.tab.prime + 1) 0 s C A α st _ (Nat.zero_le _) (by rw [h3.prime]; omega) r lk ⟨x, h1, rfl⟩ hvis
    replace o1 := o1.nil
    cases hvc : visitSlots body i (t.tab.prime + 1) 0 s st <;> cases out <;> simp only [hvc, Spec.ResRel, Spec.Then] at o1 o2 ⊢
    · rename_i c b
      obtain ⟨e1, C', A', r', kp⟩ := o2
      obtain ⟨out, p1, p2⟩ := hk b.2.1 b.2.2 c.1 _ A' _ Q r' (lk.fr kp) o1
      rw [e1]
      exact ⟨out, p1, Post.trans kp p2⟩
    · exact ⟨.abort, o1, trivial⟩
    · exact ⟨.fatal, o1, trivial⟩
    · exact ⟨.ub, o1, trivial⟩

theorem put_tabs_self {s : HTables K} {t : HTable} (hi : s.tabs i = some t) : s.put i (some t) = s := by
  cases s
  simp only [HTables.put, HTables.mk.injEq, true_and, and_true]
  funext j
  split
  · rename_i h; rw [h]; exact hi.symm
  · rfl

theorem Fr.flag {C : Chains K} {A : Cells K} {x : Tab K Ptr} (hx : C i = some x) (f : Int) {w : Spec.Walk K}
    (hf : w = (i, none) → x.readonly ≠ 0 → f ≠ 0) : Fr C A (set1 C i (some { x with readonly := f })) A w := by
  obtain ⟨j, m⟩ := w
  by_cases hj : j = i
  · subst hj
    cases m with
    | none =>
      intro y hy hro
      simp only at hy
      rw [hx] at hy
      cases hy
      exact ⟨rfl, _, set1_same _ _ _, rfl, hf rfl hro⟩
    | some rest =>
      intro y hy
      simp only at hy
      rw [hx] at hy
      cases hy
      exact ⟨_, set1_same _ _ _, rfl, Kp.refl _ _⟩
  · cases m with
    | none => exact fun y hy hro => ⟨rfl, y, by simp only; rw [set1_ne _ _ hj]; exact hy, rfl, hro⟩
    | some rest => exact fun y hy => ⟨y, by simp only; rw [set1_ne _ _ hj]; exact hy, rfl, Kp.refl _ _⟩

/-- what holds after a walk with positions -/
def LoopPost (env : FnEnv K) (L : List (Spec.Walk K)) (i : Nat) (C : Chains K) (A : Cells K) (c : HTables K × σ × Int)
    (b : Spec.Tables K × σ × Int) : Prop :=
  c.2 = b.2 ∧ ∃ C' A', TRep env c.1 C' A' (if b.2.2 = 0 then b.1.lock i 0 else b.1) ∧ ∀ w ∈ L, Fr C A C' A' w

theorem positionLoop_sim (hb : ∀ rest st p, Does env ((i, none) :: L) (fun s => body s st p) (spec rest st p)) (hiL : (i, none) ∉ L)
    {B : Nat → List (Nat × Entry K Ptr)} {P : Nat} (rem : List (Nat × Entry K Ptr)) :
    ∀ (n : Nat) (s : HTables K) (C : Chains K) A (α : Spec.Tables K) (st : σ) (p : Nat) Q, TRep env s C A α → Live ((i, none) :: L) C →
    A i = B → (∃ x, C i = some x ∧ x.prime = P) → At P B p rem → rem.length < n →
    Spec.visitPairs spec (rem.map pairOf) α st Q →
    ∃ out, Q out ∧ Spec.ResRel (LoopPost env L i C A) (positionLoop body i n s p st) out := by
  induction rem with
  | nil =>
    intro n s C A α st p Q _ _ _ _ hat
    obtain ⟨e, rest, h1, -⟩ := hat.cell
    simp at h1
  | cons c rest ih =>
    intro n s C A α st p Q r lk hA hx hat hn hv
    cases n with
    | zero => omega
    | succ n =>
      obtain ⟨e, rest', h1, k, hkP, hmem⟩ := hat.cell
      simp only [List.cons.injEq] at h1
      obtain ⟨h1, h1'⟩ := h1
      subst h1'
      rw [h1] at hat hv
      obtain ⟨x, hx1, hx2⟩ := hx
      obtain ⟨t, a, t1, -, t2, -⟩ := r.tab hx1
      rw [hA] at t2
      obtain ⟨hp0, nx, hm⟩ := cell_mem t2 (by rw [hx2]; exact hkP) hmem
      have hp : (e.key, e.datum) = pairOf (p, e) := rfl
      simp only [positionLoop, if_neg hp0, HashHeap.getPosition, Heap.read_ok hm, Res.bind, hp]
      simp only [List.map_cons, Spec.visitPairs] at hv
      obtain ⟨out, ho, hrel⟩ := hb _ st _ s C A α _ r lk hv
      cases hbd : body s st (pairOf (p, e)) <;> cases out <;> simp only [hbd, Spec.ResRel, Spec.Then] at hrel ho ⊢
      · rename_i cc b
        obtain ⟨e1, C', A', r', kp⟩ := hrel
        have e2 : cc.2.1 = b.2.1 := by rw [e1]
        have e3 : cc.2.2 = b.2.2 := by rw [e1]
        have kpL : ∀ w ∈ L, Fr C A C' A' w := fun w hw => kp w (List.mem_cons_of_mem _ hw)
        by_cases hz : b.2.2 ≠ 0
        · rw [e3, if_pos hz]
          rw [if_pos hz] at ho
          exact ⟨.ok (b.1, b.2.1, 1), ho, by rw [e2], C', A', by simpa using r', kpL⟩
        · rw [e3, if_neg hz]
          rw [if_neg hz] at ho
          obtain ⟨x0, hl1, hl2⟩ := lk _ (List.mem_cons_self ..)
          simp only at hl1
          rw [hx1] at hl1
          cases hl1
          obtain ⟨k1, x', k2, k3, k4⟩ := kp _ (List.mem_cons_self ..) x hx1 (hl2 rfl)
          simp only at k1 k2
          obtain ⟨t', a', t1', ha', t2', hsr'⟩ := r'.tab k2
          rw [k1, hA] at t2'
          rw [← hx2, ← k3] at hat
          simp only [HTables.get, t1']
          rcases nextPosition_ok t2' (fun i hi e he => (hsr'.rep.inv.slot i hi e he).2) hat with ⟨f1, f2⟩ | ⟨p', f1, f2, f3⟩
          · rw [f2]
            simp only
            cases n with
            | zero => simp at hn
            | succ n =>
              rw [f1] at ho
              simp only [positionLoop, if_true]
              refine ⟨.ok (b.1, b.2.1, 0), ho, by rw [e2], _, A', by simpa using r'.lock t1' 0 k2, fun w hw => ?_⟩
              exact (kpL w hw).trans (Fr.flag k2 0 (fun h => absurd (h ▸ hw) hiL))
          · rw [f2]
            simp only
            rw [put_tabs_self t1']
            obtain ⟨out, o1, o2⟩ := ih n cc.1 C' A' b.1 b.2.1 p' Q r' (lk.fr kp) (k1.trans hA) ⟨x', k2, k3.trans hx2⟩
              (by rw [← hx2, ← k3]; exact f3) (by simp at hn; omega) ho
            rw [e2]
            refine ⟨out, o1, ?_⟩
            cases hpl : positionLoop body i n cc.1 p' b.2.1 <;> cases out <;> simp only [hpl, Spec.ResRel] at o2 ⊢
            obtain ⟨u1, w2, A2, u2, u4⟩ := o2
            exact ⟨u1, w2, A2, u2, fun w hw => (kpL w hw).trans (u4 w hw)⟩
      · exact ⟨.abort, ho, trivial⟩
      · exact ⟨.fatal, ho, trivial⟩
      · exact ⟨.ub, ho, trivial⟩

theorem loop_sim (hb : ∀ rest st p, Does env ((i, none) :: L) (fun s => body s st p) (spec rest st p))
    {cont : HTables K → σ → Int → Res (HTables K × σ × Int)} {kspec : σ → Int → Spec.Tables K → (Spec.TabOut K σ → Prop) → Prop}
    (hk : ∀ st r, Does env L (fun s => cont s st r) (kspec st r)) (st : σ) :
    Does env L (fun s => (tabLoop body i s st).bind fun q => cont q.1 q.2.1 q.2.2)
      (fun α Q => (i, none) ∉ L ∧ Spec.Then (α.get i) Q fun a => ∀ order : List (K × Nat), order.Perm a.st.map →
        if order = [] then kspec st 0 α Q else
        Spec.visitPairs spec order (α.lock i 1) st fun out =>
          Spec.Then out Q fun q => kspec q.2.1 q.2.2 (if q.2.2 = 0 then q.1.lock i 0 else q.1) Q) := by
  rintro s C A α Q r lk ⟨hiL, hv⟩
  simp only [tabLoop, HTables.get]
  cases ht : s.tabs i with
  | none =>
    simp only [Spec.Tables.get, (r.none_iff i).1 ht, Spec.Then] at hv
    exact ⟨.ub, hv, trivial⟩
  | some t =>
    obtain ⟨x, a, h1, h2, h3, h4, h5, h6⟩ := r.get ht
    simp only [Spec.Tables.get, h2, Spec.Then] at hv
    simp only [Res.bind]
    have hperm := order_perm h3 h4
    have hvis := hv _ hperm
    rcases initPosition_ok h3 with ⟨i1, i2⟩ | ⟨p, i0, i1, i2⟩
    · rw [i2]
      rw [i1, List.map_nil, if_pos rfl] at hvis
      simp only [put_tabs_self ht, positionLoop, if_true]
      exact hk st 0 s C A α Q r lk hvis
    · have hne : (cellsFrom x.prime 0 (A i)).map pairOf ≠ [] := by
        obtain ⟨e, rest, h1, -⟩ := i2.cell
        rw [h1]; simp
      rw [if_neg hne] at hvis
      rw [i1]
      have hlen : (cellsFrom x.prime 0 (A i)).length < t.tab.entries + 1 := by
        have h7 := congrArg List.length (cells_map h3)
        rw [List.length_map] at h7
        rw [h3.entries, h4.rep.inv.count, h7]
        omega
      have fl : ∀ w : Spec.Walk K, Fr C A (set1 C i (some { x with readonly := 1 })) A w := fun w => Fr.flag h1 1 (fun _ _ => by decide)
      have lk1 : Live ((i, none) :: L) (set1 C i (some { x with readonly := 1 })) := by
        intro w hw
        rcases List.mem_cons.1 hw with rfl | hw
        · exact ⟨_, set1_same _ _ _, fun _ => by simp⟩
        · exact lk.fr (fun w _ => fl w) w hw
      obtain ⟨out, o1, o2⟩ := positionLoop_sim hb hiL _ (t.tab.entries + 1) (s.put i (some { t with tab := { t.tab with readonly := 1 } })) _ A _ st p _
        (r.lock ht 1 h1) lk1 rfl ⟨_, set1_same _ _ _, rfl⟩ i2 hlen hvis
      simp only
      cases hpl : positionLoop body i (t.tab.entries + 1) (s.put i (some { t with tab := { t.tab with readonly := 1 } })) p st <;> cases out <;>
        simp only [hpl, Spec.ResRel] at o1 o2 ⊢
      · rename_i c b
        obtain ⟨e1, C', A', r', kp⟩ := o2
        have e2 : c.2.1 = b.2.1 := by rw [e1]
        have e3 : c.2.2 = b.2.2 := by rw [e1]
        have hkept : ∀ w ∈ L, Fr C A C' A' w := fun w hw => (fl w).trans (kp w hw)
        obtain ⟨out, p1, p2⟩ := hk b.2.1 b.2.2 c.1 C' A' _ Q r' (lk.fr hkept) o1
        rw [e2, e3]
        exact ⟨out, p1, Post.trans hkept p2⟩
      · exact ⟨.abort, o1, trivial⟩
      · exact ⟨.fatal, o1, trivial⟩
      · exact ⟨.ub, o1, trivial⟩

/-- a program does what the specification promises -/
theorem exec_sim (p : Spec.TabProg K σ) : ∀ L, Does env L (exec env p) (Spec.Ensured (eqOf env) (Lawful env) L p) := by
  induction p with
  | ret st v =>
    intro L s C A α Q r lk hv
    exact ⟨_, hv, rfl, C, A, r, fun _ _ => Fr.refl⟩
  | call o k ih =>
    intro L s C A α Q r lk hv
    obtain ⟨h1, h2, h3⟩ := hv
    have g1 := step_full (env := env) r o h1
    simp only [exec]
    cases ha : tablesStep env s o <;> cases hc : Spec.tabStep (eqOf env) α o <;> rw [ha, hc] at g1 <;> simp only [Spec.ResRel] at g1 <;>
      simp only [hc, Spec.Then] at h3 <;> simp only [Res.bind]
    · rename_i c d
      obtain ⟨e1, C', A', r', fr1, fr2⟩ := g1
      have hkept : ∀ w ∈ L, Fr C A C' A' w := by
        intro w hw
        have hal := h2 w hw
        obtain ⟨x, hx, hro⟩ := lk w hw
        obtain ⟨j, m⟩ := w
        cases m with
        | none => exact fun y hy hyr => fr1 j y hy hyr hal
        | some rest =>
          intro y hy
          obtain ⟨t, a, -, ha', -, hs⟩ := r.tab hy
          by_cases hsp : Spec.Spares (eqOf env a.cmpFn) rest j o
          · exact fr2 j y a rest hy ha' hsp
          · rcases hal a ha' with hr | hr
            · by_cases hf : ∃ f, o = .call j (.readonly f)
              · obtain ⟨f, rfl⟩ := hf
                exact absurd trivial hsp
              · push Not at hf
                obtain ⟨f1, x', f2, f3, -⟩ := fr1 j y hy (by rw [hs.ro]; exact hr) hf
                exact ⟨x', f2, f3, by simp only [f1]; exact Kp.refl _ _⟩
            · exact absurd hr hsp
      obtain ⟨out, p1, p2⟩ := ih d.2 L c.1 C' A' d.1 Q r' (lk.fr hkept) h3
      rw [e1]
      exact ⟨out, p1, Post.trans hkept p2⟩
    · exact ⟨.abort, h3, trivial⟩
    · exact ⟨.fatal, h3, trivial⟩
    · exact ⟨.ub, h3, trivial⟩
  | walk i st f k ihf ihk =>
    intro L
    exact walk_sim (fun rest st e => ihf st e ((i, some rest) :: L)) (fun st v => ihk st v L) st
  | loop i st f k ihf ihk =>
    intro L
    exact loop_sim (spec := fun _ st p => Spec.Ensured (eqOf env) (Lawful env) ((i, none) :: L) (f st p))
      (fun _ st e => ihf st e ((i, none) :: L)) (fun st v => ihk st v L) st

end Maa.Tables
