import Verif.Model.SetProgs
import Verif.Lemmas.SetAlias
import Verif.Lemmas.HashPos

/-! Programs with sets: the pointer level does what the specification promises. -/

namespace Maa.SetHeap

open HashHeap
open Tab (Entry Tab)
open Heap (Seg Chain)
open Set (FnEnv SetObj Store elems SRep StRep eqOf OkOp)

variable {K σ : Type} {env : FnEnv K}

theorem Kept.trans {s1 s2 s3 : Store K} {A1 A2 A3} {i : Nat} (h : Kept s1 A1 s2 A2 i) (h' : Kept s2 A2 s3 A3 i) : Kept s1 A1 s3 A3 i := by
  intro x hx hro
  obtain ⟨a1, x', a2, a3, a4⟩ := h x hx hro
  obtain ⟨b1, x'', b2, b3, b4⟩ := h' x' a2 a4
  exact ⟨b1.trans a1, x'', b2, b3.trans a3, b4⟩

/-- the sets in the list are locked -/
def Locked (L : List Nat) (w : Store K) : Prop := ∀ i ∈ L, ∃ x, w.objs i = some x ∧ x.tab.readonly ≠ 0

theorem Locked.kept {L : List Nat} {w w' : Store K} {A A'} (h : Locked L w) (k : ∀ i ∈ L, Kept w A w' A' i) : Locked L w' := by
  intro i hi
  obtain ⟨x, h1, h2⟩ := h i hi
  obtain ⟨-, x', h3, -, h4⟩ := k i hi x h1 h2
  exact ⟨x', h3, h4⟩

/-- the outcome of a part of a program, pointer level against specification -/
def Post (env : FnEnv K) (L : List Nat) (w : Store K) (A : Nat → Nat → List (Nat × Entry K Unit)) (c : HStore K × σ × Int)
    (b : Spec.AStore K × σ × Int) : Prop :=
  c.2 = b.2 ∧ ∃ w' A', HSt c.1 w' A' ∧ StRep env w' b.1 ∧ ∀ i ∈ L, Kept w A w' A' i

/-- a piece of code does what the predicate transformer promises -/
def Does (env : FnEnv K) (L : List Nat) (body : HStore K → Res (HStore K × σ × Int))
    (spec : Spec.AStore K → (Spec.SetOut K σ → Prop) → Prop) : Prop :=
  ∀ s w A α Q, HSt s w A → StRep env w α → Locked L w → spec α Q →
    ∃ out, Q out ∧ Spec.ResRel (Post env L w A) (body s) out

theorem Post.trans {L L' : List Nat} {w w1 : Store K} {A A1} (hL : ∀ i ∈ L, i ∈ L') (k : ∀ i ∈ L, Kept w A w1 A1 i)
    {x : Res (HStore K × σ × Int)} {y : Spec.SetOut K σ} (h : Spec.ResRel (Post env L' w1 A1) x y) : Spec.ResRel (Post env L w A) x y := by
  cases x <;> cases y <;> simp only [Spec.ResRel] at h ⊢
  obtain ⟨h1, w', A', h2, h3, h4⟩ := h
  exact ⟨h1, w', A', h2, h3, fun i hi => (k i hi).trans (h4 i (hL i hi))⟩

/-- the cells of a locked set stay the same in memory -/
theorem agree {B : Nat → List (Nat × Entry K Unit)} {k p : Nat} {M} (hM : Chain M p (B k)) {h : Heap (Entry K Unit)} {t : HTab} {x : Tab K Unit}
    (r : HRep h t x B) (hk : k < x.prime) : ∀ a ∈ addrs (B k), h.mem a = M a := by
  have hc := r.chain k hk
  cases hB : B k with
  | nil => simp [addrs]
  | cons c l =>
    rw [hB] at hM hc
    have : t.buckets k = p := by rw [hc.1, hM.1]
    rw [this] at hc
    exact Chain_agree _ hc hM

variable {L : List Nat} {i : Nat} {body : HStore K → σ → K → Res (HStore K × σ × Int)}
  {spec : σ → K → Spec.AStore K → (Spec.SetOut K σ → Prop) → Prop}

/-- what remains to be shown after a part of a walk -/
def Rest (spec : σ → K → Spec.AStore K → (Spec.SetOut K σ → Prop) → Prop) (rest : List K) (Q : Spec.SetOut K σ → Prop)
    (out : Spec.SetOut K σ) : Prop :=
  Spec.Then out Q fun q => if q.2.2 ≠ 0 then Q (.ok (q.1, q.2.1, 1)) ∧ q.2.2 = 1 else Spec.visitAll spec rest q.1 q.2.1 Q

theorem visitChain_sim (hb : ∀ st e, Does env (i :: L) (fun s => body s st e) (spec st e)) {B : Nat → List (Nat × Entry K Unit)} {P k p : Nat}
    (hk : k < P) {M} (hM : Chain M p (B k)) (rest : List K) (l : List (Nat × Entry K Unit)) :
    ∀ (n : Nat) (s : HStore K) (w : Store K) A (α : Spec.AStore K) (st : σ) (pt : Nat) Q, HSt s w A → StRep env w α → Locked (i :: L) w →
    A i = B → (∃ x, w.objs i = some x ∧ x.tab.prime = P) → (∀ a ∈ addrs l, a ∈ addrs (B k)) → Chain M pt l → l.length < n →
    Spec.visitAll spec (l.map (·.2.key) ++ rest) α st Q →
    ∃ out, Rest spec rest Q out ∧ Spec.ResRel (Post env (i :: L) w A) (visitChain body n s st pt) out := by
  induction l with
  | nil =>
    intro n s w A α st pt Q r q lk hA hx hl hc hn hv
    cases n with
    | zero => simp at hn
    | succ n =>
      have : pt = 0 := hc
      subst this
      exact ⟨.ok (α, st, 0), by simpa [Rest, Spec.Then] using hv, rfl, w, A, r, q, fun _ _ => Kept.refl⟩
  | cons c l ih =>
    intro n s w A α st pt Q r q lk hA hx hl hc hn hv
    cases n with
    | zero => simp at hn
    | succ n =>
      obtain ⟨h1, h2, nx, h3, h4⟩ := hc
      subst h1
      have rd : ∀ (s : HStore K) (w : Store K) A, HSt s w A → A i = B → (∃ x, w.objs i = some x ∧ x.tab.prime = P) →
          s.heap.read c.1 = .ok (c.2, nx) := by
        rintro s w A r hA ⟨x, hx, hp⟩
        obtain ⟨t, -, h6, -⟩ := r.set hx
        rw [hA] at h6
        exact Heap.read_ok (by rw [agree hM h6 (by rw [hp]; exact hk) c.1 (hl c.1 (by simp [addrs]))]; exact h3)
      simp only [visitChain]
      rw [if_neg h2, rd s w A r hA hx]
      simp only [List.map_cons, List.cons_append, Spec.visitAll] at hv
      obtain ⟨out, ho, hrel⟩ := hb st c.2.key s w A α _ r q lk hv
      simp only [Res.bind]
      cases hbd : body s st c.2.key <;> cases out <;> simp only [hbd, Spec.ResRel, Spec.Then] at hrel ho ⊢
      · rename_i cc b
        obtain ⟨e1, w', A', r', q', kp⟩ := hrel
        have e2 : cc.2.1 = b.2.1 := by rw [e1]
        have e3 : cc.2.2 = b.2.2 := by rw [e1]
        by_cases hz : b.2.2 ≠ 0
        · rw [e3, if_pos hz]
          rw [if_pos hz] at ho
          exact ⟨.ok (b.1, b.2.1, 1), by simp [Rest, Spec.Then, ho], by rw [e2], w', A', r', q', kp⟩
        · rw [e3, if_neg hz]
          rw [if_neg hz] at ho
          obtain ⟨x, hx1, hx2⟩ := hx
          obtain ⟨x0, hl1, hl2⟩ := lk i (by simp)
          rw [hx1] at hl1
          cases hl1
          obtain ⟨k1, x', k2, k3, k4⟩ := kp i (by simp) x hx1 hl2
          have hx' : ∃ x, w'.objs i = some x ∧ x.tab.prime = P := ⟨x', k2, k3.trans hx2⟩
          rw [rd cc.1 w' A' r' (k1.trans hA) hx']
          simp only
          obtain ⟨out, o1, o2⟩ := ih n cc.1 w' A' b.1 b.2.1 nx Q r' q' (lk.kept kp) (k1.trans hA) hx'
            (fun a ha => hl a (by simp only [addrs, List.map_cons, List.mem_cons] at ha ⊢; exact Or.inr ha)) h4 (by simp at hn; omega) ho
          rw [e2]
          exact ⟨out, o1, Post.trans (fun _ h => h) kp o2⟩
      · exact ⟨.abort, ho, trivial⟩
      · exact ⟨.fatal, ho, trivial⟩
      · exact ⟨.ub, ho, trivial⟩

theorem visitSlots_sim (hb : ∀ st e, Does env (i :: L) (fun s => body s st e) (spec st e)) {B : Nat → List (Nat × Entry K Unit)} {P : Nat} :
    ∀ (n k : Nat) (s : HStore K) (w : Store K) A (α : Spec.AStore K) (st : σ) Q, HSt s w A → StRep env w α → Locked (i :: L) w →
    A i = B → (∃ x, w.objs i = some x ∧ x.tab.prime = P) → k ≤ P → P < k + n →
    Spec.visitAll spec ((cellsFrom P k B).map (·.2.key)) α st Q →
    ∃ out, Rest spec [] Q out ∧ Spec.ResRel (Post env (i :: L) w A) (visitSlots body i n k s st) out := by
  intro n
  induction n with
  | zero => intro k s w A α st Q _ _ _ _ _ _ h; omega
  | succ n ih =>
    intro k s w A α st Q r q lk hA hx hk hn hv
    obtain ⟨x, hx1, hx2⟩ := hx
    obtain ⟨t, t1, t2, -⟩ := r.set hx1
    simp only [visitSlots, HStore.get, t1]
    simp only [Res.bind]
    rw [t2.prime, hx2]
    by_cases hkP : k < P
    · rw [if_pos hkP]
      have hc := t2.chain k (by rw [hx2]; exact hkP)
      have hlen := Heap.Chain.length_lt t2.ok hc
      rw [hA] at hc hlen
      rw [cellsFrom_lt B hkP, List.map_append] at hv
      obtain ⟨out, o1, o2⟩ := visitChain_sim hb hkP hc _ (B k) s.heap.clock s w A α st _ Q r q lk hA ⟨x, hx1, hx2⟩ (fun _ h => h) hc hlen hv
      cases hvc : visitChain body s.heap.clock s st (t.tab.buckets k) <;> cases out <;> simp only [hvc, Rest, Spec.ResRel, Spec.Then] at o1 o2 ⊢
      · rename_i c b
        obtain ⟨e1, w', A', r', q', kp⟩ := o2
        have e2 : c.2.1 = b.2.1 := by rw [e1]
        have e3 : c.2.2 = b.2.2 := by rw [e1]
        by_cases hz : b.2.2 ≠ 0
        · rw [e3, if_pos hz]
          rw [if_pos hz] at o1
          refine ⟨.ok b, ?_, e1, w', A', r', q', kp⟩
          simp only [if_pos hz]
          exact o1
        · rw [e3, if_neg hz]
          rw [if_neg hz] at o1
          obtain ⟨x0, hl1, hl2⟩ := lk i (by simp)
          rw [hx1] at hl1
          cases hl1
          obtain ⟨k1, x', k2, k3, k4⟩ := kp i (by simp) x hx1 hl2
          obtain ⟨out, p1, p2⟩ := ih (k + 1) c.1 w' A' b.1 b.2.1 Q r' q' (lk.kept kp) (k1.trans hA) ⟨x', k2, k3.trans hx2⟩ (by omega) (by omega) o1
          rw [e2]
          exact ⟨out, p1, Post.trans (fun _ h => h) kp p2⟩
      · exact ⟨.abort, o1, trivial⟩
      · exact ⟨.fatal, o1, trivial⟩
      · exact ⟨.ub, o1, trivial⟩
    · rw [if_neg hkP]
      rw [cellsFrom_ge B (by omega)] at hv
      exact ⟨.ok (α, st, 0), by simpa [Rest, Spec.Then] using hv, rfl, w, A, r, q, fun _ _ => Kept.refl⟩

theorem Rest.nil {Q : Spec.SetOut K σ → Prop} {out} (h : Rest spec [] Q out) : Q out := by
  cases out <;> simp only [Rest, Spec.Then, Spec.visitAll] at h
  · rename_i q
    by_cases hz : q.2.2 ≠ 0
    · rw [if_pos hz] at h
      obtain ⟨h1, h2⟩ := h
      rw [← h2] at h1
      exact h1
    · rw [if_neg hz] at h
      have : q.2.2 = 0 := by simpa using hz
      rw [← this] at h
      exact h
  all_goals exact h

theorem StRep.get' {w : Store K} {α : Spec.AStore K} (q : StRep env w α) {x : SetObj K} (hx : w.objs i = some x) :
    ∃ a, α.objs i = some a ∧ SRep env x a := by
  have := q.objs i
  rw [hx] at this
  cases ha : α.objs i with
  | none => rw [ha] at this; exact absurd this id
  | some a => rw [ha] at this; exact ⟨a, rfl, this⟩

theorem _root_.Maa.Set.StRep.lock {w : Store K} {α : Spec.AStore K} (q : StRep env w α) {x : SetObj K} (hx : w.objs i = some x) (f : Int) :
    StRep env (w.put i (some { x with tab := { x.tab with readonly := f } })) (α.lock i f) := by
  obtain ⟨a, ha, h⟩ := StRep.get' q hx
  unfold Spec.AStore.lock
  rw [ha]
  refine ⟨q.next, fun j => ?_⟩
  by_cases hj : j = i
  · subst hj
    simp only [Store.put, Spec.AStore.put, if_true]
    exact ⟨h.law, h.rep.congr rfl rfl rfl, rfl, h.hfn, h.cfn⟩
  · simp only [Store.put, Spec.AStore.put, if_neg hj]
    exact q.objs j

theorem Kept.flag {w : Store K} {A} {x : SetObj K} (hx : w.objs i = some x) (f : Int) {j : Nat} (hf : j = i → x.tab.readonly ≠ 0 → f ≠ 0) :
    Kept w A (w.put i (some { x with tab := { x.tab with readonly := f } })) A j := by
  intro y hy hro
  by_cases hj : j = i
  · subst hj
    rw [hx] at hy
    cases hy
    exact ⟨rfl, { x with tab := { x.tab with readonly := f } }, by simp [Store.put], rfl, hf rfl hro⟩
  · exact ⟨rfl, y, by simp [Store.put, hj, hy], rfl, hro⟩

theorem Locked.flag {w : Store K} {x : SetObj K} (h : Locked L w) (hx : w.objs i = some x) {f : Int} (hf : f ≠ 0) :
    Locked (i :: L) (w.put i (some { x with tab := { x.tab with readonly := f } })) := by
  intro j hj
  by_cases hji : j = i
  · subst hji
    exact ⟨_, by simp [Store.put]; rfl, hf⟩
  · simp only [List.mem_cons, hji, false_or] at hj
    obtain ⟨y, h1, h2⟩ := h j hj
    exact ⟨y, by simp [Store.put, hji, h1], h2⟩

theorem order_perm {s : HStore K} {B : Nat → List (Nat × Entry K Unit)} {t : HTab} {x : SetObj K} {a : Spec.ASet K} (r : HRep s.heap t x.tab B)
    (h : SRep env x a) : ((cellsFrom x.tab.prime 0 B).map (·.2.key)).Perm a.elems := by
  have := h.perm
  unfold elems at this
  rw [← cells_map r, List.map_map] at this
  exact this

theorem iterate_sim (hb : ∀ st e, Does env (i :: L) (fun s => body s st e) (spec st e)) {k : σ → Int → Spec.SetProg K σ}
    {cont : HStore K → σ → Int → Res (HStore K × σ × Int)} {kspec : σ → Int → Spec.AStore K → (Spec.SetOut K σ → Prop) → Prop}
    (hk : ∀ st r, Does env L (fun s => cont s st r) (kspec st r)) (st : σ) :
    Does env L (fun s => (iterateCalls body i s st).bind fun q => cont q.1 q.2.1 q.2.2)
      (fun α Q => Spec.Then (α.get i) Q fun a => ∀ order : List K, order.Perm a.elems →
        Spec.visitAll spec order (α.lock i 1) st fun out =>
          Spec.Then out Q fun q => kspec q.2.1 q.2.2 (q.1.lock i a.readonly) Q) := by
  intro s w A α Q r q lk hv
  simp only [iterateCalls, HStore.get]
  cases hx : w.objs i with
  | none =>
    have h1 : s.sets i = none := by simpa using (r.m.none_iff i).2 (by simp [hx])
    have h2 : α.objs i = none := by
      have := q.objs i
      rw [hx] at this
      cases ha : α.objs i with
      | none => rfl
      | some a => rw [ha] at this; exact absurd this id
    rw [h1]
    simp only [Spec.AStore.get, h2, Spec.Then] at hv
    exact ⟨.ub, hv, trivial⟩
  | some x =>
    obtain ⟨t, t1, t2, -⟩ := r.set hx
    obtain ⟨a, ha, hsr⟩ := StRep.get' q hx
    simp only [Spec.AStore.get, ha, Spec.Then] at hv
    obtain ⟨s1, d1, d2, -, -, -⟩ := putRo_step r t1 hx 1
    rw [t1]
    simp only [Res.bind, d1]
    have hvis := hv _ (order_perm t2 hsr)
    obtain ⟨out, o1, o2⟩ := visitSlots_sim hb (B := A i) (P := x.tab.prime) (rounds t) 0 s1 _ A (α.lock i 1) st _ d2 (q.lock hx 1)
      (lk.flag hx (by decide)) rfl ⟨{ x with tab := { x.tab with readonly := 1 } }, by simp [Store.put], rfl⟩ (Nat.zero_le _) (by unfold rounds; rw [t2.prime]; omega) hvis
    replace o1 := o1.nil
    cases hvc : visitSlots body i (rounds t) 0 s1 st <;> cases out <;> simp only [hvc, Spec.ResRel, Spec.Then] at o1 o2 ⊢
    · rename_i c b
      obtain ⟨e1, w', A', r', q', kp⟩ := o2
      obtain ⟨k1, x', k2, k3, k4⟩ := kp i (by simp) { x with tab := { x.tab with readonly := 1 } } (by simp [Store.put]) (by simp)
      obtain ⟨t', t1', -⟩ := r'.set k2
      obtain ⟨s2, f1, f2, -, -, -⟩ := putRo_step r' t1' k2 t.tab.readonly
      have hro : t.tab.readonly = a.readonly := t2.ro.trans hsr.ro
      have q2 := q'.lock k2 t.tab.readonly
      rw [hro] at q2 f2 f1
      have hkept : ∀ j ∈ L, Kept w A (w'.put i (some { x' with tab := { x'.tab with readonly := a.readonly } })) A' j := by
        intro j hj
        refine ((Kept.flag hx 1 (by simp)).trans (kp j (by simp [hj]))).trans ?_
        intro y hy hyr
        by_cases hji : j = i
        · subst hji
          rw [k2] at hy
          cases hy
          obtain ⟨z, z1, z2⟩ := lk j hj
          rw [hx] at z1
          cases z1
          exact ⟨rfl, { x' with tab := { x'.tab with readonly := a.readonly } }, by simp [Store.put], rfl, by rw [← hsr.ro]; exact z2⟩
        · exact ⟨rfl, y, by simp [Store.put, hji, hy], rfl, hyr⟩
      obtain ⟨out, p1, p2⟩ := hk b.2.1 b.2.2 s2 _ A' _ Q f2 q2 (lk.kept hkept) o1
      have e2 : c.2.1 = b.2.1 := by rw [e1]
      have e3 : c.2.2 = b.2.2 := by rw [e1]
      simp only [hro, f1, e2, e3]
      exact ⟨out, p1, Post.trans (fun _ h => h) hkept p2⟩
    · exact ⟨.abort, o1, trivial⟩
    · exact ⟨.fatal, o1, trivial⟩
    · exact ⟨.ub, o1, trivial⟩

theorem put_sets_self {s : HStore K} {t : HSet} (hi : s.sets i = some t) : s.put i (some t) = s := by
  cases s
  simp only [HStore.put, HStore.mk.injEq, true_and, and_true]
  funext j
  split
  · rename_i h; rw [h]; exact hi.symm
  · rfl

/-- what holds after a walk with positions -/
def LoopPost (env : FnEnv K) (L : List Nat) (i : Nat) (w : Store K) (A : Nat → Nat → List (Nat × Entry K Unit)) (c : HStore K × σ × Int)
    (b : Spec.AStore K × σ × Int) : Prop :=
  c.2 = b.2 ∧ ∃ w' A', HSt c.1 w' A' ∧ StRep env w' (if b.2.2 = 0 then b.1.lock i 0 else b.1) ∧ ∀ j ∈ L, j ≠ i → Kept w A w' A' j

theorem positionLoop_sim (hb : ∀ st e, Does env (i :: L) (fun s => body s st e) (spec st e)) {B : Nat → List (Nat × Entry K Unit)} {P : Nat}
    (rem : List (Nat × Entry K Unit)) :
    ∀ (n : Nat) (s : HStore K) (w : Store K) A (α : Spec.AStore K) (st : σ) (p : Nat) Q, HSt s w A → StRep env w α → Locked (i :: L) w →
    A i = B → (∃ x, w.objs i = some x ∧ x.tab.prime = P) → At P B p rem → rem.length < n →
    Spec.visitAll spec (rem.map (·.2.key)) α st Q →
    ∃ out, Q out ∧ Spec.ResRel (LoopPost env L i w A) (positionLoop body i n s p st) out := by
  induction rem with
  | nil =>
    intro n s w A α st p Q _ _ _ _ _ hat
    obtain ⟨e, rest, h1, -⟩ := hat.cell
    simp at h1
  | cons c rest ih =>
    intro n s w A α st p Q r q lk hA hx hat hn hv
    cases n with
    | zero => omega
    | succ n =>
      obtain ⟨e, rest', h1, k, hkP, hmem⟩ := hat.cell
      simp only [List.cons.injEq] at h1
      obtain ⟨h1, h1'⟩ := h1
      subst h1'
      rw [h1] at hat hv
      obtain ⟨x, hx1, hx2⟩ := hx
      obtain ⟨t, t1, t2, -⟩ := r.set hx1
      rw [hA] at t2
      obtain ⟨hp0, nx, hm⟩ := cell_mem t2 (by rw [hx2]; exact hkP) hmem
      simp only [positionLoop, if_neg hp0, HashHeap.getPosition, Heap.read_ok hm, Res.bind]
      simp only [List.map_cons, Spec.visitAll] at hv
      obtain ⟨out, ho, hrel⟩ := hb st e.key s w A α _ r q lk hv
      cases hbd : body s st e.key <;> cases out <;> simp only [hbd, Spec.ResRel, Spec.Then] at hrel ho ⊢
      · rename_i cc b
        obtain ⟨e1, w', A', r', q', kp⟩ := hrel
        have e2 : cc.2.1 = b.2.1 := by rw [e1]
        have e3 : cc.2.2 = b.2.2 := by rw [e1]
        by_cases hz : b.2.2 ≠ 0
        · rw [e3, if_pos hz]
          rw [if_pos hz] at ho
          exact ⟨.ok (b.1, b.2.1, 1), ho, by rw [e2], w', A', r', by simpa using q', fun j hj _ => kp j (by simp [hj])⟩
        · rw [e3, if_neg hz]
          rw [if_neg hz] at ho
          obtain ⟨x0, hl1, hl2⟩ := lk i (by simp)
          rw [hx1] at hl1
          cases hl1
          obtain ⟨k1, x', k2, k3, k4⟩ := kp i (by simp) x hx1 hl2
          obtain ⟨t', t1', t2', -⟩ := r'.set k2
          obtain ⟨a', ha', hsr'⟩ := StRep.get' q' k2
          rw [k1, hA] at t2'
          rw [← hx2, ← k3] at hat
          simp only [HStore.get, t1']
          rcases nextPosition_ok t2' (fun i hi e he => (hsr'.rep.inv.slot i hi e he).2) hat with ⟨f1, f2⟩ | ⟨p', f1, f2, f3⟩
          · rw [f2]
            simp only
            cases n with
            | zero => simp at hn
            | succ n =>
              rw [f1] at ho
              simp only [positionLoop, if_true]
              obtain ⟨s2, g1, g2, -⟩ := putRo_step r' t1' k2 0
              simp only [putRo, HStore.get, t1', Res.bind, Res.ok.injEq] at g1
              rw [← g1] at g2
              refine ⟨.ok (b.1, b.2.1, 0), ho, by rw [e2], _, A', g2, by simpa using q'.lock k2 0, fun j hj hji => ?_⟩
              exact (kp j (by simp [hj])).trans (Kept.flag k2 0 (fun h => absurd h hji))
          · rw [f2]
            simp only
            rw [put_sets_self t1']
            obtain ⟨out, o1, o2⟩ := ih n cc.1 w' A' b.1 b.2.1 p' Q r' q' (lk.kept kp) (k1.trans hA) ⟨x', k2, k3.trans hx2⟩
              (by rw [← hx2, ← k3]; exact f3) (by simp at hn; omega) ho
            rw [e2]
            refine ⟨out, o1, ?_⟩
            cases hpl : positionLoop body i n cc.1 p' b.2.1 <;> cases out <;> simp only [hpl, Spec.ResRel] at o2 ⊢
            obtain ⟨u1, w2, A2, u2, u3, u4⟩ := o2
            exact ⟨u1, w2, A2, u2, u3, fun j hj hji => (kp j (by simp [hj])).trans (u4 j hj hji)⟩
      · exact ⟨.abort, ho, trivial⟩
      · exact ⟨.fatal, ho, trivial⟩
      · exact ⟨.ub, ho, trivial⟩

theorem loop_sim (hb : ∀ st e, Does env (i :: L) (fun s => body s st e) (spec st e))
    {cont : HStore K → σ → Int → Res (HStore K × σ × Int)} {kspec : σ → Int → Spec.AStore K → (Spec.SetOut K σ → Prop) → Prop}
    (hk : ∀ st r, Does env L (fun s => cont s st r) (kspec st r)) (st : σ) :
    Does env L (fun s => (setLoop body i s st).bind fun q => cont q.1 q.2.1 q.2.2)
      (fun α Q => i ∉ L ∧ Spec.Then (α.get i) Q fun a => ∀ order : List K, order.Perm a.elems →
        if order = [] then kspec st 0 α Q else
        Spec.visitAll spec order (α.lock i 1) st fun out =>
          Spec.Then out Q fun q => kspec q.2.1 q.2.2 (if q.2.2 = 0 then q.1.lock i 0 else q.1) Q) := by
  rintro s w A α Q r q lk ⟨hiL, hv⟩
  simp only [setLoop, HStore.get]
  cases hx : w.objs i with
  | none =>
    have h1 : s.sets i = none := by simpa using (r.m.none_iff i).2 (by simp [hx])
    have h2 : α.objs i = none := by
      have := q.objs i
      rw [hx] at this
      cases ha : α.objs i with
      | none => rfl
      | some a => rw [ha] at this; exact absurd this id
    rw [h1]
    simp only [Spec.AStore.get, h2, Spec.Then] at hv
    exact ⟨.ub, hv, trivial⟩
  | some x =>
    obtain ⟨t, t1, t2, -⟩ := r.set hx
    obtain ⟨a, ha, hsr⟩ := StRep.get' q hx
    simp only [Spec.AStore.get, ha, Spec.Then] at hv
    rw [t1]
    simp only [Res.bind]
    have hperm := order_perm t2 hsr
    have hvis := hv _ hperm
    rcases initPosition_ok t2 with ⟨i1, i2⟩ | ⟨p, i0, i1, i2⟩
    · rw [i2]
      rw [i1, List.map_nil, if_pos rfl] at hvis
      simp only [put_sets_self t1, positionLoop, if_true]
      exact hk st 0 s w A α Q r q lk hvis
    · have hne : (cellsFrom x.tab.prime 0 (A i)).map (·.2.key) ≠ [] := by
        obtain ⟨e, rest, h1, -⟩ := i2.cell
        rw [h1]; simp
      rw [if_neg hne] at hvis
      rw [i1]
      obtain ⟨s1, d1, d2, -⟩ := putRo_step r t1 hx 1
      simp only [putRo, HStore.get, t1, Res.bind, Res.ok.injEq] at d1
      rw [← d1] at d2
      have hlen : (cellsFrom x.tab.prime 0 (A i)).length < t.tab.entries + 1 := by
        have := hperm.length_eq
        rw [List.length_map] at this
        rw [t2.entries, hsr.count]
        omega
      obtain ⟨out, o1, o2⟩ := positionLoop_sim hb _ _ _ _ A _ st p _ d2 (q.lock hx 1) (lk.flag hx (by decide)) rfl
        ⟨{ x with tab := { x.tab with readonly := 1 } }, by simp [Store.put], rfl⟩ i2 hlen hvis
      simp only
      cases hpl : positionLoop body i (t.tab.entries + 1) (s.put i (some { t with tab := { t.tab with readonly := 1 } })) p st <;> cases out <;>
        simp only [hpl, Spec.ResRel, Spec.Then] at o1 o2 ⊢
      · rename_i c b
        obtain ⟨e1, w', A', r', q', kp⟩ := o2
        have e2 : c.2.1 = b.2.1 := by rw [e1]
        have e3 : c.2.2 = b.2.2 := by rw [e1]
        have hkept : ∀ j ∈ L, Kept w A w' A' j := fun j hj =>
          (Kept.flag hx 1 (by simp)).trans (kp j hj (by rintro rfl; exact hiL hj))
        obtain ⟨out, p1, p2⟩ := hk b.2.1 b.2.2 c.1 w' A' _ Q r' q' (lk.kept hkept) o1
        rw [e2, e3]
        exact ⟨out, p1, Post.trans (fun _ h => h) hkept p2⟩
      · exact ⟨.abort, o1, trivial⟩
      · exact ⟨.fatal, o1, trivial⟩
      · exact ⟨.ub, o1, trivial⟩

/-- a program does what the specification promises -/
theorem exec_sim (p : Spec.SetProg K σ) : ∀ L, Does env L (exec env p) (Spec.Ensures (eqOf env) (OkOp env) L p) := by
  induction p with
  | ret st v =>
    intro L s w A α Q r q lk hv
    exact ⟨_, hv, rfl, w, A, r, q, fun _ _ => Kept.refl⟩
  | call o k ih =>
    intro L s w A α Q r q lk hv
    obtain ⟨h1, h2, h3⟩ := hv
    have g1 := step_ref (env := env) r o h1.1
    have g2 := Set.step_sim w α o h1 q
    simp only [exec]
    cases ha : hsetStep env s o <;> cases hb : Set.setStep env w o <;> rw [ha, hb] at g1 <;> simp only [Spec.ResRel] at g1 <;>
      cases hc : Spec.setStep (eqOf env) α o <;> rw [hb, hc] at g2 <;> simp only [Spec.ResRel] at g2 <;>
      simp only [hc, Spec.Then] at h3 <;> simp only [Res.bind]
    · rename_i c b d
      obtain ⟨e1, A', r', kp⟩ := g1
      have hkept : ∀ j ∈ L, Kept w A b.1 A' j := fun j hj => kp j (h2 j hj)
      obtain ⟨out, p1, p2⟩ := ih d.2 L c.1 b.1 A' d.1 Q r' g2.2 (lk.kept hkept) h3
      rw [e1, g2.1]
      exact ⟨out, p1, Post.trans (fun _ h => h) hkept p2⟩
    · exact ⟨.abort, h3, trivial⟩
    · exact ⟨.fatal, h3, trivial⟩
    · exact ⟨.ub, h3, trivial⟩
  | iterate i st f k ihf ihk =>
    intro L
    exact iterate_sim (k := k) (fun st e => ihf st e (i :: L)) (fun st v => ihk st v L) st
  | loop i st f k ihf ihk =>
    intro L
    exact loop_sim (fun st e => ihf st e (i :: L)) (fun st v => ihk st v L) st

end Maa.SetHeap
