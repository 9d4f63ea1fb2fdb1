import Verif.Spec.SetsLoose
import Verif.Props.TabLoose
import Verif.Props.SetHeap

/-! # Property C91: several sets with any hash and comparison functions -/

namespace Maa.SetsLoose

open Tab (Entry Tab Kept stored)
open Spec (LooseTab LooseSet LooseSets Stored SetOp OneSetOp setMay mayRun ResRel mayFind mayInsert)
open _root_.Maa.Set (FnEnv SetObj Store elems)
open SetHeap (HStore HSet HSt hsetStep)

variable {K : Type} {env : FnEnv K}

theorem okBind {α β : Type} (a : α) (f : α → Res β) : (Res.ok a).bind f = f a := rfl

/-- chain-level table against the elements it holds -/
structure TLoose (t : Tab K Unit) (m : LooseTab K Unit) : Prop where
  kept : Kept t m.pairs
  ro : t.readonly = m.readonly
  retr : t.retrievals = m.retrievals
  miss : t.misses = m.misses

/-- chain-level set against the specification's -/
structure OLoose (x : SetObj K) (a : LooseSet K) : Prop where
  tab : TLoose x.tab a.tab
  hash : x.hashFn = a.hashFn
  cmp : x.cmpFn = a.cmpFn

/-- both exist and agree, or neither does -/
def ORel (x : Option (SetObj K)) (a : Option (LooseSet K)) : Prop :=
  match x, a with
  | none, none => True
  | some x, some a => OLoose x a
  | _, _ => False

/-- the sets of a program -/
structure LSt (σ : Store K) (S : LooseSets K) : Prop where
  next : σ.next = S.next
  objs : ∀ i, ORel (σ.objs i) (S.objs i)

/-- the functions of a set during a call -/
def opsOf (env : FnEnv K) (a : LooseSet K) : KeyOps K := { hash := env.hash a.hashFn, cmp := env.cmp a.cmpFn }

theorem OLoose.ops {x : SetObj K} {a : LooseSet K} (h : OLoose x a) : x.ops env = opsOf env a := by
  simp [SetObj.ops, FnEnv.ops, opsOf, h.hash, h.cmp]

theorem OLoose.elems {x : SetObj K} {a : LooseSet K} (h : OLoose x a) : (elems x).Perm a.elems := by
  have := h.tab.kept.perm.map Stored.key
  rw [List.map_map] at this
  exact this

theorem LSt.empty : LSt (K := K) Store.empty LooseSets.empty := ⟨rfl, fun _ => trivial⟩

theorem LSt.get {σ : Store K} {S : LooseSets K} (h : LSt σ S) (i : Nat) :
    ResRel (fun x a => σ.objs i = some x ∧ S.objs i = some a ∧ OLoose x a) (σ.get i) (S.get i) := by
  unfold Store.get LooseSets.get
  have := h.objs i
  cases hx : σ.objs i <;> cases ha : S.objs i <;> rw [hx, ha] at this <;> simp only [ORel] at this
  · trivial
  · exact ⟨rfl, rfl, this⟩

theorem LSt.put {σ : Store K} {S : LooseSets K} (h : LSt σ S) (i : Nat) {x : Option (SetObj K)} {a : Option (LooseSet K)} (hx : ORel x a) :
    LSt (σ.put i x) (S.put i a) := by
  refine ⟨h.next, fun j => ?_⟩
  simp only [Store.put, LooseSets.put]
  split
  · exact hx
  · exact h.objs j

theorem LSt.alloc {σ : Store K} {S : LooseSets K} (h : LSt σ S) {x : SetObj K} {a : LooseSet K} (hx : OLoose x a) : LSt (σ.alloc x) (S.alloc a) := by
  refine ⟨by simp only [Store.alloc, LooseSets.alloc, h.next], fun j => ?_⟩
  simp only [Store.alloc, LooseSets.alloc, h.next]
  split
  · exact hx
  · exact h.objs j

/-! ## one set -/

theorem insert1 (ops : KeyOps K) {t : Tab K Unit} {m : LooseTab K Unit} (h : TLoose t m) (k : K) :
    ∃ q, setMay m (ops, .insert k) q ∧ ResRel (fun c b => c.2 = b.2 ∧ TLoose c.1 b.1) (Tab.insert ops t k ()) q := by
  simp only [setMay]
  by_cases ro : m.readonly = 0
  · obtain ⟨t', x, L, h1, h2, h3, h4, h5, h6⟩ := Tab.insert_kept ops h.kept (h.ro.trans ro) k ()
    refine ⟨.ok ({ m with pairs := L }, x), by rw [if_neg (by simp [ro])]; exact ⟨L, x, h2, rfl⟩, ?_⟩
    rw [h1]
    exact ⟨rfl, h3, h4.trans h.ro, h5.trans h.retr, h6.trans h.miss⟩
  · exact ⟨.abort, by rw [if_pos ro], by rw [SetHeap.tinsert_ro (by rw [h.ro]; exact ro)]; trivial⟩

theorem delete1 (ops : KeyOps K) {t : Tab K Unit} {m : LooseTab K Unit} (h : TLoose t m) (k : K) :
    ∃ q, setMay m (ops, .delete k) q ∧ ResRel (fun c b => c.2 = b.2 ∧ TLoose c.1 b.1) (Tab.delete ops t k) q := by
  simp only [setMay]
  by_cases ro : m.readonly = 0
  · obtain ⟨t', x, L, h1, h2, h3, h4, h5, h6⟩ := Tab.delete_kept ops h.kept (h.ro.trans ro) k
    refine ⟨.ok ({ m with pairs := L }, x), by rw [if_neg (by simp [ro])]; exact ⟨L, x, h2, rfl⟩, ?_⟩
    rw [h1]
    exact ⟨rfl, h3, h4.trans h.ro, h5.trans h.retr, h6.trans h.miss⟩
  · refine ⟨.abort, by rw [if_pos ro], ?_⟩
    have hp := h.kept.pos
    unfold Tab.delete
    rw [if_neg (by omega)]
    simp only
    rw [if_pos (by rw [h.ro]; exact ro)]
    trivial

theorem search1 (ops : KeyOps K) {t : Tab K Unit} {m : LooseTab K Unit} (h : TLoose t m) (k : K) :
    ∃ t' x, Tab.retrieve ops t k = .ok (t', x) ∧ mayFind ops m.pairs k x ∧ TLoose t' (m.searched x) := by
  obtain ⟨t', x, h1, h2, h3, h4, h5, h6, -⟩ := Tab.retrieve_kept ops h.kept k
  exact ⟨t', x, h1, h2, h3, h4.trans h.ro, h5.trans (by rw [h.retr]; rfl), h6.trans (by rw [h.miss]; rfl)⟩

theorem member1 (ops : KeyOps K) {t : Tab K Unit} {m : LooseTab K Unit} (h : TLoose t m) (k : K) :
    ∃ t' x b, Tab.retrieve ops t k = .ok (t', x) ∧ setMay m (ops, .member k) (.ok (b, match x with | some _ => 1 | none => 0)) ∧ TLoose t' b := by
  obtain ⟨t', x, h1, h2, h3⟩ := search1 ops h k
  refine ⟨t', x, m.searched x, h1, ?_, h3⟩
  refine ⟨x, h2, ?_⟩
  cases x <;> rfl

/-! ## loops -/

theorem insertAll_loose (l : List K) : ∀ {x : SetObj K} {a : LooseSet K}, OLoose x a →
    ∃ r, Spec.mayInsertAll (opsOf env a) a.tab l r ∧
      ResRel (fun c b => OLoose c { a with tab := b.1 }) (Set.insertAll env x l) r := by
  induction l with
  | nil => intro x a h; exact ⟨_, rfl, h⟩
  | cons e es ih =>
    intro x a h
    obtain ⟨q, h1, h2⟩ := insert1 (opsOf env a) h.tab e
    simp only [Set.insertAll, Set.setInsert, h.ops, Spec.mayInsertAll, List.map_cons, mayRun]
    cases hi : Tab.insert (opsOf env a) x.tab e () <;> cases q <;> rw [hi] at h2 <;> simp only [ResRel] at h2
    · rename_i c b
      obtain ⟨p, h3, h4⟩ := ih (x := { x with tab := c.1 }) (a := { a with tab := b.1 }) ⟨h2.2, h.hash, h.cmp⟩
      refine ⟨_, ⟨_, h1, p, h3, rfl⟩, ?_⟩
      simp only [okBind]
      cases hd : Set.insertAll env { x with tab := c.1 } es <;> cases p <;> rw [hd] at h4 <;> simp only [ResRel] at h4 <;>
        simp only [Res.bind, ResRel]
      exact h4
    · exact ⟨.abort, ⟨.abort, h1, rfl⟩, trivial⟩
    · exact ⟨.fatal, ⟨.fatal, h1, rfl⟩, trivial⟩
    · exact ⟨.ub, ⟨.ub, h1, rfl⟩, trivial⟩

theorem deleteAll_loose (l : List K) : ∀ {x : SetObj K} {a : LooseSet K}, OLoose x a →
    ∃ r, Spec.mayDeleteAll (opsOf env a) a.tab l r ∧
      ResRel (fun c b => OLoose c { a with tab := b.1 }) (Set.deleteAll env x l) r := by
  induction l with
  | nil => intro x a h; exact ⟨_, rfl, h⟩
  | cons e es ih =>
    intro x a h
    obtain ⟨q, h1, h2⟩ := delete1 (opsOf env a) h.tab e
    simp only [Set.deleteAll, Set.setDelete, h.ops, Spec.mayDeleteAll, List.map_cons, mayRun]
    cases hi : Tab.delete (opsOf env a) x.tab e <;> cases q <;> rw [hi] at h2 <;> simp only [ResRel] at h2
    · rename_i c b
      obtain ⟨p, h3, h4⟩ := ih (x := { x with tab := c.1 }) (a := { a with tab := b.1 }) ⟨h2.2, h.hash, h.cmp⟩
      refine ⟨_, ⟨_, h1, p, h3, rfl⟩, ?_⟩
      simp only [okBind]
      cases hd : Set.deleteAll env { x with tab := c.1 } es <;> cases p <;> rw [hd] at h4 <;> simp only [ResRel] at h4 <;>
        simp only [Res.bind, ResRel]
      exact h4
    · exact ⟨.abort, ⟨.abort, h1, rfl⟩, trivial⟩
    · exact ⟨.fatal, ⟨.fatal, h1, rfl⟩, trivial⟩
    · exact ⟨.ub, ⟨.ub, h1, rfl⟩, trivial⟩

/-- adding to a set that is not read-only returns -/
theorem mayInsertAll_ok {ops : KeyOps K} (l : List K) : ∀ {m : LooseTab K Unit} {r}, m.readonly = 0 → Spec.mayInsertAll ops m l r →
    ∃ b, r = .ok b ∧ b.1.readonly = 0 := by
  induction l with
  | nil => intro m r h hr; exact ⟨_, hr, h⟩
  | cons e es ih =>
    intro m r h hr
    simp only [Spec.mayInsertAll, List.map_cons, mayRun, setMay] at hr
    obtain ⟨q, hq, hr⟩ := hr
    rw [if_neg (by simp [h])] at hq
    obtain ⟨L, x, -, rfl⟩ := hq
    obtain ⟨p, h2, rfl⟩ := hr
    obtain ⟨b, rfl, h3⟩ := ih (m := { m with pairs := L }) h h2
    exact ⟨_, rfl, h3⟩

theorem select_loose (keep : Bool) (l : List K) : ∀ {x y : SetObj K} {n : LooseSet K} {b : LooseTab K Unit}, OLoose x n → n.tab.readonly = 0 →
    y.hashFn = n.hashFn → y.cmpFn = n.cmpFn → TLoose y.tab { b with readonly := 1 } →
    ∃ c r, Set.selectLoop env keep x y l = .ok c ∧ Spec.maySelect (opsOf env n) keep l n.tab b r ∧ OLoose c.1 { n with tab := r.1 } ∧
      TLoose c.2.tab { r.2 with readonly := 1 } ∧ r.2.readonly = b.readonly ∧ c.2.hashFn = y.hashFn ∧ c.2.cmpFn = y.cmpFn := by
  induction l with
  | nil => intro x y n b h _ h2 h3 h4; exact ⟨_, _, rfl, rfl, h, h4, rfl, rfl, rfl⟩
  | cons e es ih =>
    intro x y n b h hro h2 h3 h4
    have hops : y.ops env = opsOf env n := by simp [SetObj.ops, FnEnv.ops, opsOf, h2, h3]
    obtain ⟨t', v, e1, e2, e3⟩ := search1 (opsOf env n) h4 e
    have e4 : TLoose t' { b.searched v with readonly := 1 } := e3
    obtain ⟨z, hm, hv⟩ : ∃ z, Set.setMember env y e = .ok ({ y with tab := t' }, z) ∧ (z ≠ 0) = (v.isSome = true) := by
      simp only [Set.setMember, hops, e1, okBind]
      exact ⟨_, rfl, by cases v <;> simp⟩
    simp only [Set.selectLoop, hm, okBind]
    by_cases hk : v.isSome = keep
    · rw [if_pos (by rw [hv, hk])]
      obtain ⟨q, k1, k2⟩ := insert1 (opsOf env n) h.tab e
      simp only [setMay] at k1
      rw [if_neg (by simp [hro])] at k1
      obtain ⟨L, w, k3, rfl⟩ := k1
      simp only [Set.setInsert, h.ops]
      cases hi : Tab.insert (opsOf env n) x.tab e () <;> rw [hi] at k2 <;> simp only [ResRel] at k2
      rename_i c
      simp only [okBind]
      obtain ⟨c', r, j1, j2, j3⟩ := ih (x := { x with tab := c.1 }) (y := { y with tab := t' }) (n := { n with tab := { n.tab with pairs := L } })
        (b := b.searched v) ⟨k2.2, h.hash, h.cmp⟩ hro h2 h3 e4
      exact ⟨c', r, j1, ⟨v, e2, by rw [if_pos hk]; exact ⟨L, w, k3, j2⟩⟩, j3⟩
    · have hk' : ¬ ((z ≠ 0) = (keep = true)) := by
        rw [hv]
        intro hc
        exact hk (Bool.eq_iff_iff.2 (Iff.of_eq hc))
      rw [if_neg hk']
      obtain ⟨c', r, j1, j2, j3⟩ := ih (x := x) (y := { y with tab := t' }) (n := n) (b := b.searched v) h hro h2 h3 e4
      exact ⟨c', r, j1, ⟨v, e2, by rw [if_neg hk]; exact j2⟩, j3⟩

theorem equal_loose (l : List K) : ∀ {y : SetObj K} {n : LooseSet K} {b : LooseTab K Unit},
    y.hashFn = n.hashFn → y.cmpFn = n.cmpFn → TLoose y.tab { b with readonly := 1 } →
    ∃ c r, Set.equalLoop env y l = .ok c ∧ Spec.mayFindAll (opsOf env n) l b r ∧ c.2 = r.2 ∧
      TLoose c.1.tab { r.1 with readonly := 1 } ∧ r.1.readonly = b.readonly ∧ c.1.hashFn = y.hashFn ∧ c.1.cmpFn = y.cmpFn := by
  induction l with
  | nil => intro y n b h2 h3 h4; exact ⟨_, _, rfl, rfl, rfl, h4, rfl, rfl, rfl⟩
  | cons e es ih =>
    intro y n b h2 h3 h4
    have hops : y.ops env = opsOf env n := by simp [SetObj.ops, FnEnv.ops, opsOf, h2, h3]
    obtain ⟨t', v, e1, e2, e3⟩ := search1 (opsOf env n) h4 e
    have e4 : TLoose t' { b.searched v with readonly := 1 } := e3
    simp only [Set.equalLoop, Set.setMember, hops, e1, okBind]
    cases v with
    | none => exact ⟨_, _, rfl, ⟨none, e2, rfl⟩, rfl, e4, rfl, rfl, rfl⟩
    | some u =>
      obtain ⟨c', r, j1, j2, j3⟩ := ih (y := { y with tab := t' }) (n := n) (b := b.searched (some u)) h2 h3 e4
      exact ⟨c', r, j1, ⟨some u, e2, j2⟩, j3⟩

/-! ## one call -/

theorem LSt.get2 {σ : Store K} {S : LooseSets K} (h : LSt σ S) (i j : Nat) {f : SetObj K → SetObj K → Res (Store K × Int)}
    {P : LooseSet K × LooseSet K → Res (LooseSets K × Int) → Prop} {Q : Store K × Int → LooseSets K × Int → Prop}
    (hf : ∀ x y, Set.sameFns x y = false → f x y = .fatal)
    (hP : ∀ x y a b, S.objs i = some a → S.objs j = some b → OLoose x a → OLoose y b → a.hashFn = b.hashFn → a.cmpFn = b.cmpFn →
      Set.sameFns x y = true → ∃ r, P (a, b) r ∧ ResRel Q (f x y) r) :
    ∃ r, Spec.Res.Then (S.get2 i j) P r ∧ ResRel Q ((σ.get i).bind fun x => (σ.get j).bind fun y => f x y) r := by
  have h1 := h.get i
  have h2 := h.get j
  unfold LooseSets.get2
  cases e1 : σ.get i <;> cases e2 : S.get i <;> rw [e1, e2] at h1 <;> simp only [ResRel] at h1
  · rename_i x a
    cases e3 : σ.get j <;> cases e4 : S.get j <;> rw [e3, e4] at h2 <;> simp only [ResRel] at h2
    · rename_i y b
      simp only [okBind]
      have hs : Set.sameFns x y = decide (a.hashFn = b.hashFn ∧ a.cmpFn = b.cmpFn) := by
        simp only [Set.sameFns, h1.2.2.hash, h1.2.2.cmp, h2.2.2.hash, h2.2.2.cmp]
        by_cases k1 : a.hashFn = b.hashFn <;> by_cases k2 : a.cmpFn = b.cmpFn <;> simp [k1, k2]
      by_cases hc : a.hashFn = b.hashFn ∧ a.cmpFn = b.cmpFn
      · rw [if_pos hc]
        exact hP x y a b h1.2.1 h2.2.1 h1.2.2 h2.2.2 hc.1 hc.2 (by rw [hs]; simp [hc])
      · rw [if_neg hc, hf x y (by rw [hs]; simp only [hc, decide_false])]
        exact ⟨.fatal, rfl, trivial⟩
    all_goals first | exact ⟨.ub, rfl, trivial⟩ | exact ⟨.abort, rfl, trivial⟩ | exact ⟨.fatal, rfl, trivial⟩
  all_goals first | exact ⟨.ub, rfl, trivial⟩ | exact ⟨.abort, rfl, trivial⟩ | exact ⟨.fatal, rfl, trivial⟩

theorem LSt.one {σ : Store K} {S : LooseSets K} (h : LSt σ S) (i : Nat) (o : OneSetOp K) {f : SetObj K → Res (SetObj K × Int)}
    (hf : ∀ x a, OLoose x a → ∃ q, setMay a.tab (opsOf env a, o) q ∧ ResRel (fun c b => c.2 = b.2 ∧ OLoose c.1 { a with tab := b.1 }) (f x) q) :
    ∃ r, S.mayOne (opsOf env) i o r ∧
      ResRel (fun c b => c.2 = b.2 ∧ LSt c.1 b.1) ((σ.get i).bind fun x => (f x).bind fun r => .ok (σ.put i (some r.1), r.2)) r := by
  have h1 := h.get i
  unfold LooseSets.mayOne
  cases e1 : σ.get i <;> cases e2 : S.get i <;> rw [e1, e2] at h1 <;> simp only [ResRel] at h1
  · rename_i x a
    obtain ⟨q, k1, k2⟩ := hf x a h1.2.2
    refine ⟨_, ⟨q, k1, rfl⟩, ?_⟩
    simp only [okBind]
    cases hc : f x <;> cases q <;> rw [hc] at k2 <;> simp only [ResRel] at k2 <;> simp only [Res.bind, ResRel]
    exact ⟨k2.1, h.put i k2.2⟩
  all_goals first | exact ⟨.ub, rfl, trivial⟩ | exact ⟨.abort, rfl, trivial⟩ | exact ⟨.fatal, rfl, trivial⟩

theorem create_loose (h c : Nat) : ∃ x : SetObj K, Set.setCreate h c = .ok x ∧ OLoose x ⟨{}, h, c⟩ := by
  obtain ⟨t, c1, c2, -, c3, c4, c5, c6, c7, c8, -⟩ := Tab.create_ok (K := K) (D := Unit) 0
  refine ⟨⟨t, h, c⟩, by simp only [Set.setCreate, c1, okBind], ⟨Tab.create_kept t c2 c4 c3, c5, c6, c8⟩, rfl, rfl⟩

theorem step_loose (env : FnEnv K) {σ : Store K} {S : LooseSets K} (h : LSt σ S) (o : SetOp K) :
    ∃ r, S.may env.hash env.cmp o r ∧ ResRel (fun c b => c.2 = b.2 ∧ LSt c.1 b.1) (Set.setStep env σ o) r := by
  cases o with
  | create f c =>
    obtain ⟨x, h1, h2⟩ := create_loose (K := K) f c
    simp only [Set.setStep, h1, okBind]
    exact ⟨_, rfl, by rw [h.next], h.alloc h2⟩
  | insert i e =>
    refine h.one i (.insert e) (f := fun x => Set.setInsert env x e) fun x a hx => ?_
    obtain ⟨q, k1, k2⟩ := insert1 (opsOf env a) hx.tab e
    refine ⟨q, k1, ?_⟩
    simp only [Set.setInsert, hx.ops]
    cases hc : Tab.insert (opsOf env a) x.tab e () <;> cases q <;> rw [hc] at k2 <;> simp only [ResRel] at k2 <;> simp only [Res.bind, ResRel]
    exact ⟨k2.1, k2.2, hx.hash, hx.cmp⟩
  | delete i e =>
    refine h.one i (.delete e) (f := fun x => Set.setDelete env x e) fun x a hx => ?_
    obtain ⟨q, k1, k2⟩ := delete1 (opsOf env a) hx.tab e
    refine ⟨q, k1, ?_⟩
    simp only [Set.setDelete, hx.ops]
    cases hc : Tab.delete (opsOf env a) x.tab e <;> cases q <;> rw [hc] at k2 <;> simp only [ResRel] at k2 <;> simp only [Res.bind, ResRel]
    exact ⟨k2.1, k2.2, hx.hash, hx.cmp⟩
  | member i e =>
    refine h.one i (.member e) (f := fun x => Set.setMember env x e) fun x a hx => ?_
    obtain ⟨t', v, b, k1, k2, k3⟩ := member1 (opsOf env a) hx.tab e
    refine ⟨_, k2, ?_⟩
    simp only [Set.setMember, hx.ops, k1, okBind]
    exact ⟨rfl, k3, hx.hash, hx.cmp⟩
  | readonly i f =>
    refine h.one i (.readonly f) (f := fun x => .ok (Set.setReadonly x f)) fun x a hx => ?_
    exact ⟨_, rfl, hx.tab.ro, ⟨hx.tab.kept.congr rfl rfl rfl, rfl, hx.tab.retr, hx.tab.miss⟩, hx.hash, hx.cmp⟩
  | destroy i =>
    have h1 := h.get i
    simp only [Set.setStep, LooseSets.may]
    cases e1 : σ.get i <;> cases e2 : S.get i <;> rw [e1, e2] at h1 <;> simp only [ResRel] at h1
    · rename_i x a
      refine ⟨_, rfl, ?_⟩
      simp only [okBind, Set.setDestroy, Tab.destroy]
      by_cases hro : a.tab.readonly ≠ 0
      · rw [if_pos hro, if_pos (by rw [h1.2.2.tab.ro]; exact hro)]; trivial
      · rw [if_neg hro, if_neg (by rw [h1.2.2.tab.ro]; exact hro)]
        exact ⟨rfl, h.put i (x := none) (a := none) trivial⟩
    all_goals first | exact ⟨.ub, rfl, trivial⟩ | exact ⟨.abort, rfl, trivial⟩ | exact ⟨.fatal, rfl, trivial⟩
  | count i =>
    have h1 := h.get i
    simp only [Set.setStep, LooseSets.may]
    cases e1 : σ.get i <;> cases e2 : S.get i <;> rw [e1, e2] at h1 <;> simp only [ResRel] at h1
    · rename_i x a
      refine ⟨_, rfl, ?_, h⟩
      have := h1.2.2.tab.kept.perm.length_eq
      rw [List.length_map, ← h1.2.2.tab.kept.count] at this
      simp only [Set.setCount, this]
    all_goals first | exact ⟨.ub, rfl, trivial⟩ | exact ⟨.abort, rfl, trivial⟩ | exact ⟨.fatal, rfl, trivial⟩
  | stats i =>
    have h1 := h.get i
    simp only [Set.setStep, LooseSets.may]
    cases e1 : σ.get i <;> cases e2 : S.get i <;> rw [e1, e2] at h1 <;> simp only [ResRel] at h1
    · rename_i x a
      obtain ⟨s, k1, k2⟩ := h1.2.2.tab.kept.stats
      refine ⟨_, rfl, ?_⟩
      simp only [okBind, Set.setGetStats, k1]
      exact ⟨by rw [k2], h⟩
    all_goals first | exact ⟨.ub, rfl, trivial⟩ | exact ⟨.abort, rfl, trivial⟩ | exact ⟨.fatal, rfl, trivial⟩
  | add i j =>
    refine h.get2 i j (f := fun x y => (Set.setAdd env x y).bind fun r => .ok (σ.put i (some r), (i : Int)))
      (fun x y hs => by simp only [Set.setAdd, hs]; rfl) fun x y a b ha hb hx hy f1 f2 hs => ?_
    obtain ⟨q, k1, k2⟩ := insertAll_loose (env := env) (elems y) hx
    refine ⟨_, ⟨elems y, q, hy.elems, k1, rfl⟩, ?_⟩
    simp only [Set.setAdd, hs, if_true]
    cases hc : Set.insertAll env x (elems y) <;> cases q <;> rw [hc] at k2 <;> simp only [ResRel] at k2 <;> simp only [Res.bind, ResRel]
    exact ⟨trivial, h.put i k2⟩
  | del i j =>
    refine h.get2 i j (f := fun x y => (Set.setDel env x y).bind fun r => .ok (σ.put i (some r), (i : Int)))
      (fun x y hs => by simp only [Set.setDel, hs]; rfl) fun x y a b ha hb hx hy f1 f2 hs => ?_
    obtain ⟨q, k1, k2⟩ := deleteAll_loose (env := env) (elems y) hx
    refine ⟨_, ⟨elems y, q, hy.elems, k1, rfl⟩, ?_⟩
    simp only [Set.setDel, hs, if_true]
    cases hc : Set.deleteAll env x (elems y) <;> cases q <;> rw [hc] at k2 <;> simp only [ResRel] at k2 <;> simp only [Res.bind, ResRel]
    exact ⟨trivial, h.put i k2⟩
  | union i j =>
    refine h.get2 i j (f := fun x y => (Set.setUnion env x y).bind fun r => .ok (σ.alloc r, (σ.next : Int)))
      (fun x y hs => by simp only [Set.setUnion, hs]; rfl) fun x y a b ha hb hx hy f1 f2 hs => ?_
    obtain ⟨n, c1, c2⟩ := create_loose (K := K) x.hashFn x.cmpFn
    rw [hx.hash, hx.cmp] at c2
    obtain ⟨q, k1, k2⟩ := insertAll_loose (env := env) (elems x ++ elems y) c2
    obtain ⟨p, rfl, -⟩ := mayInsertAll_ok _ rfl k1
    refine ⟨_, ⟨elems x, elems y, p, hx.elems, hy.elems, k1, rfl⟩, ?_⟩
    have happ : (Set.insertAll env n (elems x)).bind (fun s => Set.insertAll env s (elems y)) = Set.insertAll env n (elems x ++ elems y) := by
      generalize elems x = l1
      generalize n = n'
      induction l1 generalizing n' with
      | nil => rfl
      | cons e es ih =>
        simp only [Set.insertAll, List.cons_append]
        cases hi : Set.setInsert env n' e with
        | ok z => simp only [okBind]; exact ih z.1
        | _ => rfl
    simp only [Set.setUnion, hs, if_true, c1, okBind, happ]
    cases hc : Set.insertAll env n (elems x ++ elems y) <;> rw [hc] at k2 <;> simp only [ResRel] at k2
    simp only [okBind, ResRel, h.next, true_and]
    exact h.alloc k2
  | inter i j =>
    refine h.get2 i j (f := fun x y => (Set.setInter env x y).bind fun r => .ok ((σ.put j (some r.2)).alloc r.1, (σ.next : Int)))
      (fun x y hs => by simp only [Set.setInter, Set.setSelect, hs]; rfl) fun x y a b ha hb hx hy f1 f2 hs => ?_
    obtain ⟨n, c1, c2⟩ := create_loose (K := K) x.hashFn x.cmpFn
    rw [hx.hash, hx.cmp] at c2
    obtain ⟨c, r, k1, k2, k3, k4, k5, k6, k7⟩ := select_loose (env := env) true (elems x) (y := { y with tab := { y.tab with readonly := 1 } })
      (b := b.tab) c2 rfl (hy.hash.trans f1.symm) (hy.cmp.trans f2.symm) ⟨hy.tab.kept.congr rfl rfl rfl, rfl, hy.tab.retr, hy.tab.miss⟩
    refine ⟨_, ⟨elems x, r, hx.elems, k2, rfl⟩, ?_⟩
    simp only [Set.setInter, Set.setSelect, hs, if_true, c1, okBind, k1, ResRel, h.next, true_and]
    refine (h.put j ?_).alloc k3
    exact ⟨⟨k4.kept.congr rfl rfl rfl, hy.tab.ro.trans k5.symm, k4.retr, k4.miss⟩, k6.trans hy.hash, k7.trans hy.cmp⟩
  | diff i j =>
    refine h.get2 i j (f := fun x y => (Set.setDiff env x y).bind fun r => .ok ((σ.put j (some r.2)).alloc r.1, (σ.next : Int)))
      (fun x y hs => by simp only [Set.setDiff, Set.setSelect, hs]; rfl) fun x y a b ha hb hx hy f1 f2 hs => ?_
    obtain ⟨n, c1, c2⟩ := create_loose (K := K) x.hashFn x.cmpFn
    rw [hx.hash, hx.cmp] at c2
    obtain ⟨c, r, k1, k2, k3, k4, k5, k6, k7⟩ := select_loose (env := env) false (elems x) (y := { y with tab := { y.tab with readonly := 1 } })
      (b := b.tab) c2 rfl (hy.hash.trans f1.symm) (hy.cmp.trans f2.symm) ⟨hy.tab.kept.congr rfl rfl rfl, rfl, hy.tab.retr, hy.tab.miss⟩
    refine ⟨_, ⟨elems x, r, hx.elems, k2, rfl⟩, ?_⟩
    simp only [Set.setDiff, Set.setSelect, hs, if_true, c1, okBind, k1, ResRel, h.next, true_and]
    refine (h.put j ?_).alloc k3
    exact ⟨⟨k4.kept.congr rfl rfl rfl, hy.tab.ro.trans k5.symm, k4.retr, k4.miss⟩, k6.trans hy.hash, k7.trans hy.cmp⟩
  | equal i j =>
    refine h.get2 i j (f := fun x y => (Set.setEqual env x y).bind fun r => .ok (σ.put j (some r.1), r.2))
      (fun x y hs => by simp only [Set.setEqual, hs]; rfl) fun x y a b ha hb hx hy f1 f2 hs => ?_
    have len : ∀ {x : SetObj K} {a : LooseSet K}, OLoose x a → x.tab.entries = a.tab.pairs.length := fun hx => by
      have := hx.tab.kept.perm.length_eq
      rwa [List.length_map, ← hx.tab.kept.count] at this
    simp only [Set.setEqual, hs, if_true]
    by_cases hl : a.tab.pairs.length ≠ b.tab.pairs.length
    · have hl' : x.tab.entries ≠ y.tab.entries := by rw [len hx, len hy]; exact hl
      rw [if_pos hl']
      refine ⟨.ok (S, 0), by rw [if_pos hl], rfl, ?_⟩
      have := h.put j (x := some y) (a := some b) hy
      have e : S.put j (some b) = S := by
        cases S
        simp only [LooseSets.put, LooseSets.mk.injEq, and_true]
        funext k
        split
        · rename_i hk; rw [hk]; exact hb.symm
        · rfl
      rw [e] at this
      exact this
    · have hl' : ¬ x.tab.entries ≠ y.tab.entries := by rw [len hx, len hy]; exact hl
      rw [if_neg hl']
      obtain ⟨c, r, k1, k2, k3, k4, k5, k6, k7⟩ := equal_loose (env := env) (elems x) (n := a) (y := { y with tab := { y.tab with readonly := 1 } })
        (b := b.tab) (hy.hash.trans f1.symm) (hy.cmp.trans f2.symm) ⟨hy.tab.kept.congr rfl rfl rfl, rfl, hy.tab.retr, hy.tab.miss⟩
      refine ⟨_, by rw [if_neg hl]; exact ⟨elems x, r, hx.elems, k2, rfl⟩, ?_⟩
      simp only [k1, okBind, ResRel]
      refine ⟨k3, h.put j ?_⟩
      exact ⟨⟨k4.kept.congr rfl rfl rfl, hy.tab.ro.trans k5.symm, k4.retr, k4.miss⟩, k6.trans hy.hash, k7.trans hy.cmp⟩

/-! ## The pointer level, histories -/

/-- the sets in memory against the specification's -/
def Full (s : HStore K) (S : LooseSets K) : Prop := ∃ σ A, HSt s σ A ∧ LSt σ S

theorem full_step {s : HStore K} {S : LooseSets K} (h : Full s S) (o : SetOp K) (ho : o.NoAlias) :
    ∃ r, S.may env.hash env.cmp o r ∧ ResRel (fun c b => c.2 = b.2 ∧ Full c.1 b.1) (hsetStep env s o) r := by
  obtain ⟨σ, A, h1, h2⟩ := h
  have h3 := SetHeap.step_ref (env := env) h1 o ho
  obtain ⟨r, h4, h5⟩ := step_loose (env := env) h2 o
  refine ⟨r, h4, ?_⟩
  cases e1 : hsetStep env s o <;> cases e2 : Set.setStep env σ o <;> rw [e1, e2] at h3 <;> simp only [ResRel] at h3 <;>
    cases r <;> rw [e2] at h5 <;> simp only [ResRel] at h5 ⊢
  obtain ⟨e3, A', h6, -⟩ := h3
  exact ⟨e3.trans h5.1, _, A', h6, h5.2⟩

/-- One call; every call comes with what the functions answer during it. -/
def looseStep (s : HStore K) (o : FnEnv K × SetOp K) : Res (HStore K × Int) := hsetStep o.1 s o.2

/-- The outcomes allowed. -/
def looseMay (S : LooseSets K) (o : FnEnv K × SetOp K) (r : Res (LooseSets K × Int)) : Prop := S.may o.1.hash o.1.cmp o.2 r

theorem history_loose (hist : List (FnEnv K × SetOp K)) : ∀ (s : HStore K) (S : LooseSets K), Full s S → (∀ o ∈ hist, o.2.NoAlias) →
    ∃ r, mayRun looseMay S hist r ∧ ResRel (fun c b => c.2 = b.2 ∧ Full c.1 b.1) (Spec.run looseStep s hist) r := by
  induction hist with
  | nil => intro s m h _; exact ⟨_, rfl, rfl, h⟩
  | cons o os ih =>
    intro s m h ok
    obtain ⟨q, h1, h2⟩ := full_step (env := o.1) h o.2 (ok o (by simp))
    simp only [mayRun, Spec.run]
    have hc : looseStep s o = hsetStep o.1 s o.2 := rfl
    cases hd : looseStep s o <;> cases q <;> rw [← hc, hd] at h2 <;> simp only [ResRel] at h2
    · rename_i c b
      obtain ⟨p, h3, h4⟩ := ih c.1 b.1 h2.2 fun o' ho' => ok o' (by simp [ho'])
      refine ⟨_, ⟨_, h1, p, h3, rfl⟩, ?_⟩
      simp only [Res.bind]
      cases hd : Spec.run looseStep c.1 os <;> cases p <;> rw [hd] at h4 <;> simp only [ResRel] at h4 <;> simp only [ResRel]
      exact ⟨by rw [h2.1, h4.1], h4.2⟩
    · exact ⟨.abort, ⟨.abort, h1, rfl⟩, by simp [Res.bind, ResRel]⟩
    · exact ⟨.fatal, ⟨.fatal, h1, rfl⟩, by simp [Res.bind, ResRel]⟩
    · exact ⟨.ub, ⟨.ub, h1, rfl⟩, by simp [Res.bind, ResRel]⟩

theorem start_loose {place : Policy} (hp : Heap.Allocator place) (hist : List (FnEnv K × SetOp K)) (ok : ∀ o ∈ hist, o.2.NoAlias) :
    ∃ r, mayRun looseMay LooseSets.empty hist r ∧ ResRel (fun c b => c.2 = b.2 ∧ Full c.1 b.1) (Spec.run looseStep (HStore.empty place) hist) r :=
  history_loose hist _ _ ⟨_, _, HSt.empty hp, LSt.empty⟩ ok

/-- C91: a program with any number of sets, whatever the hash and comparison functions answer: every history of calls returns what
Spec/SetsLoose.lean allows.  (`set_add` and `set_del` are given two different sets.) -/
theorem C91_sets (place : Policy) (hp : Heap.Allocator place) (hist : List (FnEnv K × SetOp K)) (ok : ∀ o ∈ hist, o.2.NoAlias) :
    ∃ r, mayRun looseMay LooseSets.empty hist r ∧ Spec.observe (Spec.run looseStep (HStore.empty place) hist) = Spec.observe r := by
  obtain ⟨r, h1, h2⟩ := start_loose hp hist ok
  exact ⟨r, h1, Spec.ResRel.observe (R := Full) h2⟩

theorem run_ub {S O X : Type} {step : S → O → Res (S × X)} (hist : List O) : ∀ s, Spec.run step s hist = .ub →
    ∃ pre o post s' outs, hist = pre ++ o :: post ∧ Spec.run step s pre = .ok (s', outs) ∧ step s' o = .ub := by
  induction hist with
  | nil => intro s h; cases h
  | cons o os ih =>
    intro s h
    simp only [Spec.run] at h
    cases hc : step s o with
    | ok c =>
      rw [hc] at h
      simp only [okBind] at h
      cases hd : Spec.run step c.1 os with
      | ub =>
        obtain ⟨pre, o', post, s', outs, h1, h2, h3⟩ := ih _ hd
        refine ⟨o :: pre, o', post, s', c.2 :: outs, by rw [h1]; rfl, ?_, h3⟩
        simp only [Spec.run, hc, okBind, h2]
      | _ => rw [hd] at h; cases h
    | ub => exact ⟨[], o, os, s, [], rfl, rfl, hc⟩
    | _ => rw [hc] at h; cases h

theorem get_cases (S : LooseSets K) (i : Nat) : (∃ a, S.objs i = some a ∧ S.get i = .ok a) ∨ (S.objs i = none ∧ S.get i = .ub) := by
  unfold LooseSets.get
  cases h : S.objs i with
  | none => exact Or.inr ⟨rfl, rfl⟩
  | some a => exact Or.inl ⟨a, rfl, rfl⟩

theorem get2_cases (S : LooseSets K) (i j : Nat) :
    (∃ a b, S.objs i = some a ∧ S.objs j = some b ∧ (S.get2 i j = .ok (a, b) ∨ S.get2 i j = .fatal)) ∨ S.objs i = none ∨ S.objs j = none := by
  unfold LooseSets.get2
  rcases get_cases S i with ⟨a, h1, h2⟩ | ⟨h1, -⟩
  · rcases get_cases S j with ⟨b, h3, h4⟩ | ⟨h3, -⟩
    · refine Or.inl ⟨a, b, h1, h3, ?_⟩
      rw [h2, h4]
      simp only [okBind]
      split
      · exact Or.inl rfl
      · exact Or.inr rfl
    · exact Or.inr (Or.inr h3)
  · exact Or.inr (Or.inl h1)

theorem insertAll_ends {ops : KeyOps K} {m : LooseTab K Unit} {l : List K} {q} (h : Spec.mayInsertAll ops m l q) : q = .abort ∨ ∃ a, q = .ok a :=
  HashHeap.mayRun_ends (fun s o r h => (HashHeap.setMay_ends s o r h).imp And.left id) _ _ _ h

theorem deleteAll_ends {ops : KeyOps K} {m : LooseTab K Unit} {l : List K} {q} (h : Spec.mayDeleteAll ops m l q) : q = .abort ∨ ∃ a, q = .ok a :=
  HashHeap.mayRun_ends (fun s o r h => (HashHeap.setMay_ends s o r h).imp And.left id) _ _ _ h

/-- undefined behaviour is possible only with a set that does not exist -/
theorem may_ub {S : LooseSets K} {hash : Nat → K → Nat} {cmp : Nat → K → K → Int} {o : SetOp K} (h : S.may hash cmp o .ub) :
    ∃ i ∈ o.handles, S.objs i = none := by
  by_contra hc
  have all : ∀ i ∈ o.handles, ∃ a, S.objs i = some a := fun i hi => by
    cases hs : S.objs i with
    | none => exact absurd ⟨i, hi, hs⟩ hc
    | some a => exact ⟨a, rfl⟩
  have one : ∀ {i o'}, (∃ a, S.objs i = some a) → ∀ {ops}, ¬ S.mayOne ops i o' .ub := by
    rintro i o' ⟨a, ha⟩ ops hm
    simp only [LooseSets.mayOne, LooseSets.get, ha, Spec.Res.Then] at hm
    obtain ⟨q, h1, h2⟩ := hm
    rcases HashHeap.setMay_ends _ _ _ h1 with ⟨rfl, -⟩ | ⟨a, rfl⟩ <;> cases h2
  have two : ∀ {i j}, (∃ a, S.objs i = some a) → (∃ a, S.objs j = some a) → (∃ p, S.get2 i j = .ok p) ∨ S.get2 i j = .fatal := by
    rintro i j ⟨a, ha⟩ ⟨b, hb⟩
    rcases get2_cases S i j with ⟨_, _, -, -, h | h⟩ | h | h
    · exact Or.inl ⟨_, h⟩
    · exact Or.inr h
    · rw [ha] at h; cases h
    · rw [hb] at h; cases h
  cases o with
  | create f c => cases h
  | insert i e => exact one (all i (by simp [SetOp.handles])) h
  | delete i e => exact one (all i (by simp [SetOp.handles])) h
  | member i e => exact one (all i (by simp [SetOp.handles])) h
  | readonly i f => exact one (all i (by simp [SetOp.handles])) h
  | destroy i =>
    obtain ⟨a, ha⟩ := all i (by simp [SetOp.handles])
    simp only [LooseSets.may, LooseSets.get, ha, Spec.Res.Then] at h
    split at h <;> cases h
  | count i =>
    obtain ⟨a, ha⟩ := all i (by simp [SetOp.handles])
    simp only [LooseSets.may, LooseSets.get, ha, Spec.Res.Then] at h
    cases h
  | stats i =>
    obtain ⟨a, ha⟩ := all i (by simp [SetOp.handles])
    simp only [LooseSets.may, LooseSets.get, ha, Spec.Res.Then] at h
    cases h
  | add i j =>
    rcases two (all i (by simp [SetOp.handles])) (all j (by simp [SetOp.handles])) with ⟨p, hp⟩ | hp <;>
      simp only [LooseSets.may, hp, Spec.Res.Then] at h
    · obtain ⟨_, q, -, h1, h2⟩ := h
      rcases insertAll_ends h1 with rfl | ⟨a, rfl⟩ <;> cases h2
    · cases h
  | del i j =>
    rcases two (all i (by simp [SetOp.handles])) (all j (by simp [SetOp.handles])) with ⟨p, hp⟩ | hp <;>
      simp only [LooseSets.may, hp, Spec.Res.Then] at h
    · obtain ⟨_, q, -, h1, h2⟩ := h
      rcases deleteAll_ends h1 with rfl | ⟨a, rfl⟩ <;> cases h2
    · cases h
  | union i j =>
    rcases two (all i (by simp [SetOp.handles])) (all j (by simp [SetOp.handles])) with ⟨p, hp⟩ | hp <;>
      simp only [LooseSets.may, hp, Spec.Res.Then] at h
    · obtain ⟨_, _, _, -, -, -, h2⟩ := h
      cases h2
    · cases h
  | inter i j =>
    rcases two (all i (by simp [SetOp.handles])) (all j (by simp [SetOp.handles])) with ⟨p, hp⟩ | hp <;>
      simp only [LooseSets.may, hp, Spec.Res.Then] at h
    · obtain ⟨_, _, -, -, h2⟩ := h
      cases h2
    · cases h
  | diff i j =>
    rcases two (all i (by simp [SetOp.handles])) (all j (by simp [SetOp.handles])) with ⟨p, hp⟩ | hp <;>
      simp only [LooseSets.may, hp, Spec.Res.Then] at h
    · obtain ⟨_, _, -, -, h2⟩ := h
      cases h2
    · cases h
  | equal i j =>
    rcases two (all i (by simp [SetOp.handles])) (all j (by simp [SetOp.handles])) with ⟨p, hp⟩ | hp <;>
      simp only [LooseSets.may, hp, Spec.Res.Then] at h
    · split at h
      · cases h
      · obtain ⟨_, _, -, -, h2⟩ := h
        cases h2
    · cases h

/-- C91: no hash or comparison function brings a program into undefined behaviour; if it gets there, it is because a call was given a set that
had not been created or had been destroyed. -/
theorem C91_safe (place : Policy) (hp : Heap.Allocator place) (hist : List (FnEnv K × SetOp K)) (ok : ∀ o ∈ hist, o.2.NoAlias)
    (hu : Spec.run looseStep (HStore.empty place) hist = .ub) :
    ∃ pre o post s outs i, hist = pre ++ o :: post ∧ Spec.run looseStep (HStore.empty place) pre = .ok (s, outs) ∧
      i ∈ o.2.handles ∧ s.sets i = none := by
  obtain ⟨pre, o, post, s, outs, h1, h2, h3⟩ := run_ub hist _ hu
  subst h1
  obtain ⟨r, h4, h5⟩ := start_loose hp pre fun o' ho' => ok o' (by simp [ho'])
  rw [h2] at h5
  cases r <;> simp only [ResRel] at h5
  rename_i b
  obtain ⟨q, h6, h7⟩ := full_step (env := o.1) h5.2 o.2 (ok o (by simp))
  have h3' : hsetStep o.1 s o.2 = .ub := h3
  rw [h3'] at h7
  cases q <;> simp only [ResRel] at h7
  obtain ⟨i, h8, h9⟩ := may_ub h6
  refine ⟨pre, o, post, s, outs, i, rfl, h2, h8, ?_⟩
  obtain ⟨-, σ, A, k1, k2⟩ := h5
  have := k2.objs i
  rw [h9] at this
  cases hx : σ.objs i with
  | some x => rw [hx] at this; cases this
  | none =>
    have := (k1.m.none_iff i).2 (by simp [hx])
    simpa using this

/-- C91, what the sets are like after such a history: for one of the allowed outcomes `S`, the same sets exist; each has the functions, the flag and
the counters it has in `S`, its statistics can be asked for and count its elements, and `set_iterate` visits exactly its elements; every live cell
of memory belongs to exactly one set, and none is left when all sets have been destroyed. -/
theorem C91_state (place : Policy) (hp : Heap.Allocator place) (hist : List (FnEnv K × SetOp K)) (ok : ∀ o ∈ hist, o.2.NoAlias)
    (s : HStore K) (outs : List Int) (hr : Spec.run looseStep (HStore.empty place) hist = .ok (s, outs)) :
    ∃ S : LooseSets K, mayRun looseMay LooseSets.empty hist (.ok (S, outs)) ∧
      (∀ i, s.sets i = none ↔ S.objs i = none) ∧
      (∀ i t a, s.sets i = some t → S.objs i = some a →
        t.hashFn = a.hashFn ∧ t.cmpFn = a.cmpFn ∧ t.tab.readonly = a.tab.readonly ∧ t.tab.retrievals = a.tab.retrievals ∧ t.tab.misses = a.tab.misses ∧
        (∃ st, HashHeap.hgetStats s.heap t.tab = .ok st ∧ st.entries = a.tab.pairs.length) ∧
        ∀ (σ : Type) (ops : KeyOps K) (f : σ → K × Unit → σ × Int) (st : σ) (n : Nat), t.tab.prime < n →
          ∃ st' log x, HashHeap.siterate ops (fun q p => .ret (Spec.recorder f q p).1 (Spec.recorder f q p).2) n (s.heap, t.tab) (st, []) =
              .ok ((s.heap, t.tab), (st', log), x) ∧ Spec.IterationOf (a.elems.map fun e => (e, ())) log x) ∧
      (∀ c, (s.heap.mem c).isSome ↔ ∃ i t, s.sets i = some t ∧ Spec.InChains s.heap t.tab c) ∧
      (∀ i j t u c, s.sets i = some t → s.sets j = some u → Spec.InChains s.heap t.tab c → Spec.InChains s.heap u.tab c → i = j) ∧
      ((∀ i, s.sets i = none) → ∀ c, s.heap.mem c = none) := by
  obtain ⟨r, h1, h2⟩ := start_loose hp hist ok
  rw [hr] at h2
  cases r <;> simp only [ResRel] at h2
  rename_i b
  obtain ⟨S, outs'⟩ := b
  obtain ⟨e, σ, A, k1, k2⟩ := h2
  have e' : outs = outs' := e
  subst e'
  obtain ⟨m1, m2, m3⟩ := k1.m.memory
  refine ⟨S, h1, fun i => ?_, fun i t a ht ha => ?_, fun a => (m1 a).trans ⟨?_, ?_⟩, ?_, fun hn => m3 fun i => by simp [hn i]⟩
  · have h3 := k1.m.none_iff i
    have h4 := k2.objs i
    simp only [Option.map_eq_none_iff] at h3
    rw [h3]
    cases hx : σ.objs i <;> cases hy : S.objs i <;> rw [hx, hy] at h4 <;> simp only [ORel] at h4 <;> simp
  · obtain ⟨x, h3, h4, h5, h6⟩ := k1.obj ht
    have h7 := k2.objs i
    rw [h3, ha] at h7
    have h8 : OLoose x a := h7
    refine ⟨h5.trans h8.hash, h6.trans h8.cmp, h4.ro.trans h8.tab.ro, h4.retrievals.trans h8.tab.retr, h4.misses.trans h8.tab.miss, ?_, ?_⟩
    · obtain ⟨st, s1, s2⟩ := h8.tab.kept.stats
      exact ⟨st, by rw [← s1]; exact HashHeap.hgetStats_ok h4, s2⟩
    · intro τ ops f st n hn
      have hp : t.tab.prime = x.tab.prime := h4.prime
      have r' : HashHeap.HRep s.heap { t.tab with readonly := 1 } { x.tab with readonly := 1 } (A i) := h4.withRo 1
      have := HashHeap.siterLoop_still ops (Spec.recorder f) (s := (s.heap, { t.tab with readonly := 1 })) r' n 0 (st, []) (by
        show x.tab.prime - 0 < n
        omega)
      have cells : ((HashHeap.cellsFrom x.tab.prime 0 (A i)).map fun c => (c.2.key, c.2.datum)).Perm (a.elems.map fun e => (e, ())) := by
        have h9 := h8.tab.kept.perm.map fun e : Stored K Unit => (e.key, ())
        rw [← HashHeap.cells_map h4, List.map_map, List.map_map] at h9
        simp only [LooseSet.elems, List.map_map]
        exact h9
      refine ⟨(Tab.loop (Spec.recorder f) (st, []) ((HashHeap.cellsFrom x.tab.prime 0 (A i)).map fun c => (c.2.key, c.2.datum))).1.1, _, _, ?_,
        Tab.loop_iteration f st _ _ cells⟩
      simp only [HashHeap.siterate, this, Res.bind]
  · rintro ⟨i, t, h1, h2⟩
    simp only [Option.map_eq_some_iff] at h1
    obtain ⟨t, h3, rfl⟩ := h1
    exact ⟨i, t, h3, h2⟩
  · rintro ⟨i, t, h1, h2⟩
    exact ⟨i, t.tab, by simp [h1], h2⟩
  · intro i j t u a hi hj
    exact m2 i j t.tab u.tab a (by simp [hi]) (by simp [hj])

/-! ## What the binary operations allowed by the specification mean for the elements -/

section elements
variable {ops : KeyOps K}

/-- some element compares equal to `e` -/
def HasMatch (ops : KeyOps K) (l : List K) (e : K) : Prop := ∃ x ∈ l, ops.cmp x e = 0

/-- the elements of the specification's table -/
def els (m : LooseTab K Unit) : List K := m.pairs.map Stored.key

theorem insertAll_els (l : List K) : ∀ {m m' : LooseTab K Unit} {xs}, Spec.mayInsertAll ops m l (.ok (m', xs)) →
    (∃ new, els m' = new ++ els m ∧ new.Sublist l.reverse) ∧ ∀ e ∈ l, e ∈ els m' ∨ HasMatch ops (els m') e := by
  induction l with
  | nil =>
    intro m m' xs h
    have : Res.ok (m', xs) = Res.ok (m, []) := h
    cases this
    exact ⟨⟨[], rfl, List.Sublist.refl _⟩, by simp⟩
  | cons k ks ih =>
    intro m m' xs h
    obtain ⟨q, h1, h2⟩ := h
    cases q with
    | ok c =>
      obtain ⟨p, h3, h4⟩ := h2
      cases p with
      | ok b =>
        simp only [okBind] at h4
        cases h4
        obtain ⟨⟨new, n1, n2⟩, h5⟩ := ih (m := c.1) (m' := b.1) (xs := b.2) h3
        simp only [setMay] at h1
        split at h1
        · cases h1
        obtain ⟨L, x, hi, hL⟩ := h1
        cases hL
        rcases hi with ⟨rfl, rfl, -⟩ | ⟨rfl, rfl, e, he, hm⟩
        · refine ⟨⟨new ++ [k], by rw [n1]; simp [els], ?_⟩, ?_⟩
          · rw [List.reverse_cons]; exact n2.append (List.Sublist.refl _)
          · intro e he
            rcases List.mem_cons.1 he with rfl | he
            · left; rw [n1]; simp [els]
            · exact h5 e he
        · refine ⟨⟨new, by rw [n1], ?_⟩, ?_⟩
          · rw [List.reverse_cons]; exact n2.trans (List.sublist_append_left _ _)
          · intro e' he'
            rcases List.mem_cons.1 he' with rfl | he'
            · right
              refine ⟨e.key, ?_, hm⟩
              rw [n1]
              simp only [els, List.mem_append, List.mem_map]
              exact Or.inr ⟨e, he, rfl⟩
            · exact h5 e' he'
      | _ => cases h4
    | _ => cases h2

theorem deleteAll_els (l : List K) : ∀ {m m' : LooseTab K Unit} {xs}, Spec.mayDeleteAll ops m l (.ok (m', xs)) →
    (els m').Sublist (els m) ∧ ∃ gone, (els m).Perm (els m' ++ gone) ∧ gone.length ≤ l.length ∧ ∀ x ∈ gone, ∃ e ∈ l, ops.cmp x e = 0 := by
  induction l with
  | nil =>
    intro m m' xs h
    have : Res.ok (m', xs) = Res.ok (m, []) := h
    cases this
    exact ⟨List.Sublist.refl _, [], by simp, by simp, by simp⟩
  | cons k ks ih =>
    intro m m' xs h
    obtain ⟨q, h1, h2⟩ := h
    cases q with
    | ok c =>
      obtain ⟨p, h3, h4⟩ := h2
      cases p with
      | ok b =>
        simp only [okBind] at h4
        cases h4
        obtain ⟨s1, gone, g1, g2, g3⟩ := ih (m := c.1) (m' := b.1) (xs := b.2) h3
        simp only [setMay] at h1
        split at h1
        · cases h1
        obtain ⟨L, x, hi, hL⟩ := h1
        cases hL
        rcases hi with ⟨rfl, l1, e, l2, e1, rfl, hm⟩ | ⟨rfl, rfl, -⟩
        · have el : els m = l1.map Stored.key ++ e.key :: l2.map Stored.key := by simp [els, e1]
          have el' : els { m with pairs := l1 ++ l2 } = l1.map Stored.key ++ l2.map Stored.key := by simp [els]
          rw [el'] at s1 g1
          refine ⟨s1.trans (by rw [el]; exact (List.Sublist.refl _).append (List.sublist_cons_self _ _)), e.key :: gone, ?_, by simpa using g2, ?_⟩
          · rw [el]
            exact List.perm_middle.trans ((List.Perm.cons _ g1).trans List.perm_middle.symm)
          · intro x hx
            rcases List.mem_cons.1 hx with rfl | hx
            · exact ⟨k, by simp, hm⟩
            · obtain ⟨y, hy, hc⟩ := g3 x hx
              exact ⟨y, by simp [hy], hc⟩
        · refine ⟨s1, gone, g1, by simp only [List.length_cons]; omega, fun x hx => ?_⟩
          obtain ⟨y, hy, hc⟩ := g3 x hx
          exact ⟨y, by simp [hy], hc⟩
      | _ => cases h4
    | _ => cases h2

theorem searched_pairs (m : LooseTab K Unit) (x : Option Unit) : (m.searched x).pairs = m.pairs := rfl

theorem select_els (keep : Bool) (l : List K) : ∀ {n b : LooseTab K Unit} {r}, Spec.maySelect ops keep l n b r →
    r.2.pairs = b.pairs ∧ (∃ new, els r.1 = new ++ els n ∧ new.Sublist l.reverse ∧
      ∀ e ∈ new, if keep then HasMatch ops (els b) e else ¬ Spec.Sure ops b.pairs e) ∧
    ∀ e ∈ l, (if keep then Spec.Sure ops b.pairs e else ¬ HasMatch ops (els b) e) → e ∈ els r.1 ∨ HasMatch ops (els r.1) e := by
  induction l with
  | nil =>
    intro n b r h
    have : r = (n, b) := h
    subst this
    exact ⟨rfl, ⟨[], rfl, List.Sublist.refl _, by simp⟩, by simp⟩
  | cons k ks ih =>
    intro n b r h
    obtain ⟨x, hx, h⟩ := h
    by_cases hk : x.isSome = keep
    · rw [if_pos hk] at h
      obtain ⟨L, y, hi, h⟩ := h
      obtain ⟨i1, ⟨new, i2, i3, i4⟩, i5⟩ := ih h
      rw [searched_pairs] at i1 i4 i5
      have helb : els (b.searched x) = els b := rfl
      rw [helb] at i4 i5
      have hsel : if keep then HasMatch ops (els b) k else ¬ Spec.Sure ops b.pairs k := by
        rcases hx with ⟨e, he, hm, rfl⟩ | ⟨rfl, hs⟩
        · simp only [Option.isSome_some] at hk
          rw [← hk, if_pos rfl]
          exact ⟨e.key, List.mem_map.2 ⟨e, he, rfl⟩, hm⟩
        · simp only [Option.isSome_none] at hk
          rw [← hk, if_neg (by simp)]
          exact hs
      rcases hi with ⟨rfl, rfl, -⟩ | ⟨rfl, rfl, e, he, hm⟩
      · have i2' : els r.1 = (new ++ [k]) ++ els n := by rw [i2]; simp [els]
        refine ⟨i1, ⟨new ++ [k], i2', by rw [List.reverse_cons]; exact i3.append (List.Sublist.refl _), ?_⟩, ?_⟩
        · intro e he
          rcases List.mem_append.1 he with he | he
          · exact i4 e he
          · rw [List.mem_singleton.1 he]; exact hsel
        · intro e he hc
          rcases List.mem_cons.1 he with rfl | he
          · left; rw [i2']; simp
          · exact i5 e he hc
      · have i2' : els r.1 = new ++ els n := i2
        refine ⟨i1, ⟨new, i2', by rw [List.reverse_cons]; exact i3.trans (List.sublist_append_left _ _), i4⟩, ?_⟩
        intro e' he' hc
        rcases List.mem_cons.1 he' with rfl | he'
        · right
          refine ⟨e.key, ?_, hm⟩
          rw [i2']
          simp only [els, List.mem_append, List.mem_map]
          exact Or.inr ⟨e, he, rfl⟩
        · exact i5 e' he' hc
    · rw [if_neg hk] at h
      obtain ⟨i1, ⟨new, i2, i3, i4⟩, i5⟩ := ih h
      rw [searched_pairs] at i1 i4 i5
      have helb : els (b.searched x) = els b := rfl
      rw [helb] at i4 i5
      refine ⟨i1, ⟨new, i2, by rw [List.reverse_cons]; exact i3.trans (List.sublist_append_left _ _), i4⟩, ?_⟩
      intro e he hc
      rcases List.mem_cons.1 he with rfl | he
      · exfalso
        rcases hx with ⟨y, hy, hm, rfl⟩ | ⟨rfl, hs⟩
        · simp only [Option.isSome_some] at hk
          have : keep = false := by cases keep <;> simp_all
          subst this
          rw [if_neg (by simp)] at hc
          exact hc ⟨y.key, List.mem_map.2 ⟨y, hy, rfl⟩, hm⟩
        · simp only [Option.isSome_none] at hk
          have : keep = true := by cases keep <;> simp_all
          subst this
          rw [if_pos rfl] at hc
          exact hs hc
      · exact i5 e he hc

theorem findAll_els (l : List K) : ∀ {b : LooseTab K Unit} {r}, Spec.mayFindAll ops l b r →
    r.1.pairs = b.pairs ∧ ((r.2 = 1 ∧ ∀ e ∈ l, HasMatch ops (els b) e) ∨ (r.2 = 0 ∧ ∃ e ∈ l, ¬ Spec.Sure ops b.pairs e)) := by
  induction l with
  | nil =>
    intro b r h
    have : r = (b, 1) := h
    subst this
    exact ⟨rfl, Or.inl ⟨rfl, by simp⟩⟩
  | cons k ks ih =>
    intro b r h
    obtain ⟨x, hx, h⟩ := h
    rcases hx with ⟨y, hy, hm, rfl⟩ | ⟨rfl, hs⟩
    · rw [if_pos (by rfl : (some y.datum).isSome = true)] at h
      obtain ⟨i1, i2⟩ := ih h
      refine ⟨i1, i2.imp (fun i => ⟨i.1, fun e he => ?_⟩) fun i => ⟨i.1, ?_⟩⟩
      · rcases List.mem_cons.1 he with rfl | he
        · exact ⟨y.key, List.mem_map.2 ⟨y, hy, rfl⟩, hm⟩
        · exact i.2 e he
      · obtain ⟨e, he, hn⟩ := i.2
        exact ⟨e, by simp [he], hn⟩
    · rw [if_neg (by simp)] at h
      subst h
      exact ⟨rfl, Or.inr ⟨rfl, k, by simp, hs⟩⟩

end elements

theorem get2_ok {S : LooseSets K} {i j : Nat} {R : LooseSet K × LooseSet K → Res (LooseSets K × Int) → Prop} {x : LooseSets K × Int}
    (h : Spec.Res.Then (S.get2 i j) R (.ok x)) :
    ∃ a b, S.objs i = some a ∧ S.objs j = some b ∧ a.hashFn = b.hashFn ∧ a.cmpFn = b.cmpFn ∧ R (a, b) (.ok x) := by
  unfold LooseSets.get2 LooseSets.get at h
  cases hi : S.objs i with
  | none => rw [hi] at h; cases h
  | some a =>
    cases hj : S.objs j with
    | none => rw [hi, hj] at h; cases h
    | some b =>
      rw [hi, hj] at h
      simp only [okBind] at h
      split at h
      · rename_i hf
        exact ⟨a, b, rfl, rfl, hf.1, hf.2, h⟩
      · cases h

variable {S S' : LooseSets K} {i j : Nat} {x : Int} {hash : Nat → K → Nat} {cmp : Nat → K → K → Int}

/-- C91: what `set_add` may do.  Elements of the second set are added to the first, at most once each; one that is left out compares equal to an
element that is in the first set afterwards.  No other set changes. -/
theorem C91_add (h : S.may hash cmp (.add i j) (.ok (S', x))) :
    ∃ a b a', S.objs i = some a ∧ S.objs j = some b ∧ S'.objs i = some a' ∧ x = i ∧ (∀ k, k ≠ i → S'.objs k = S.objs k) ∧
      (∃ new order, a'.elems = new ++ a.elems ∧ new.Sublist order ∧ order.Perm b.elems) ∧
      ∀ e ∈ b.elems, e ∈ a'.elems ∨ ∃ y ∈ a'.elems, cmp a.cmpFn y e = 0 := by
  obtain ⟨a, b, ha, hb, -, -, order, q, h1, h2, h3⟩ := get2_ok h
  cases q with
  | ok c =>
    simp only [okBind] at h3
    cases h3
    obtain ⟨⟨new, h4, h5⟩, h6⟩ := insertAll_els order (m' := c.1) (xs := c.2) h2
    refine ⟨a, b, { a with tab := c.1 }, ha, hb, by simp [LooseSets.put], rfl, fun k hk => by simp [LooseSets.put, hk],
      ⟨new, order.reverse, h4, h5, (List.reverse_perm _).trans h1⟩, fun e he => h6 e (h1.mem_iff.2 he)⟩
  | _ => cases h3

/-- C91: what `set_del` may do.  Elements are removed from the first set, each because it compares equal to an element of the second; what is left
stays as it was. -/
theorem C91_del (h : S.may hash cmp (.del i j) (.ok (S', x))) :
    ∃ a b a', S.objs i = some a ∧ S.objs j = some b ∧ S'.objs i = some a' ∧ x = i ∧ (∀ k, k ≠ i → S'.objs k = S.objs k) ∧
      ∃ gone, a.elems.Perm (a'.elems ++ gone) ∧ gone.length ≤ b.elems.length ∧ ∀ y ∈ gone, ∃ e ∈ b.elems, cmp a.cmpFn y e = 0 := by
  obtain ⟨a, b, ha, hb, -, -, order, q, h1, h2, h3⟩ := get2_ok h
  cases q with
  | ok c =>
    simp only [okBind] at h3
    cases h3
    obtain ⟨-, gone, h4, h5, h6⟩ := deleteAll_els order (m' := c.1) (xs := c.2) h2
    refine ⟨a, b, { a with tab := c.1 }, ha, hb, by simp [LooseSets.put], rfl, fun k hk => by simp [LooseSets.put, hk],
      gone, h4, by rw [← h1.length_eq]; exact h5, fun y hy => ?_⟩
    obtain ⟨e, he, hc⟩ := h6 y hy
    exact ⟨e, h1.mem_iff.1 he, hc⟩
  | _ => cases h3

/-- C91: what `set_union` may do: a new set, with the same functions; its elements are elements of the two, none more often than there; one
that is left out compares equal to an element of the new set.  No other set changes. -/
theorem C91_union (h : S.may hash cmp (.union i j) (.ok (S', x))) :
    ∃ a b c, S.objs i = some a ∧ S.objs j = some b ∧ S'.objs S.next = some c ∧ x = S.next ∧ (∀ k, k ≠ S.next → S'.objs k = S.objs k) ∧
      c.hashFn = a.hashFn ∧ c.cmpFn = a.cmpFn ∧ c.tab.readonly = 0 ∧
      (∃ order, c.elems.Sublist order ∧ order.Perm (a.elems ++ b.elems)) ∧
      ∀ e ∈ a.elems ++ b.elems, e ∈ c.elems ∨ ∃ y ∈ c.elems, cmp a.cmpFn y e = 0 := by
  obtain ⟨a, b, ha, hb, -, -, o1, o2, c, h1, h2, h3, h4⟩ := get2_ok h
  cases h4
  obtain ⟨⟨new, h4, h5⟩, h6⟩ := insertAll_els (o1 ++ o2) (m' := c.1) (xs := c.2) h3
  have hp : (o1 ++ o2).Perm (a.elems ++ b.elems) := h1.append h2
  obtain ⟨p, hp', hro⟩ := mayInsertAll_ok (o1 ++ o2) rfl h3
  cases hp'
  refine ⟨a, b, { a with tab := c.1 }, ha, hb, by simp [LooseSets.alloc], rfl, fun k hk => by simp [LooseSets.alloc, hk], rfl, rfl, hro,
    ⟨(o1 ++ o2).reverse, ?_, (List.reverse_perm _).trans hp⟩, fun e he => h6 e (hp.mem_iff.2 he)⟩
  have h4' : ({ a with tab := c.1 } : LooseSet K).elems = new := by
    have : els c.1 = new := by rw [h4]; simp [els]
    exact this
  rw [h4']
  exact h5

/-- C91: what `set_inter` may do: a new set of elements of the first set, each of which compared equal to an element of the second; an element of
the first set that cannot be missed in the second is in the result, or left out because it compares equal to one there.  The elements of
the two sets stay. -/
theorem C91_inter (h : S.may hash cmp (.inter i j) (.ok (S', x))) :
    ∃ a b c, S.objs i = some a ∧ S.objs j = some b ∧ S'.objs S.next = some c ∧ x = S.next ∧
      c.hashFn = a.hashFn ∧ c.cmpFn = a.cmpFn ∧ (∃ order, c.elems.Sublist order ∧ order.Perm a.elems) ∧
      (∀ e ∈ c.elems, ∃ y ∈ b.elems, cmp a.cmpFn y e = 0) ∧
      (∀ e ∈ a.elems, Spec.Sure ⟨hash a.hashFn, cmp a.cmpFn⟩ b.tab.pairs e → e ∈ c.elems ∨ ∃ y ∈ c.elems, cmp a.cmpFn y e = 0) ∧
      ∀ k, k ≠ S.next → (S'.objs k).map LooseSet.elems = (S.objs k).map LooseSet.elems := by
  obtain ⟨a, b, ha, hb, -, -, order, c, h1, h2, h3⟩ := get2_ok h
  cases h3
  obtain ⟨h4, ⟨new, h5, h6, h7⟩, h8⟩ := select_els true order h2
  have h5' : ({ a with tab := c.1 } : LooseSet K).elems = new := by
    have : els c.1 = new := by rw [h5]; simp [els]
    exact this
  refine ⟨a, b, { a with tab := c.1 }, ha, hb, by simp [LooseSets.alloc, LooseSets.put], rfl, rfl, rfl,
    ⟨order.reverse, by rw [h5']; exact h6, (List.reverse_perm _).trans h1⟩, ?_, ?_, ?_⟩
  · intro e he
    rw [h5'] at he
    exact h7 e he
  · intro e he hs
    exact h8 e (h1.mem_iff.2 he) hs
  · intro k hk
    simp only [LooseSets.alloc, LooseSets.put, if_neg hk]
    split
    · rename_i hkj
      subst hkj
      rw [hb]
      simp only [Option.map_some, LooseSet.elems, h4]
    · rfl

/-- C91: what `set_diff` may do: a new set of elements of the first set that are not sure to be found in the second; an element of the first set to
which no element of the second compares equal is in the result, or left out because it compares equal to one there. -/
theorem C91_diff (h : S.may hash cmp (.diff i j) (.ok (S', x))) :
    ∃ a b c, S.objs i = some a ∧ S.objs j = some b ∧ S'.objs S.next = some c ∧ x = S.next ∧
      c.hashFn = a.hashFn ∧ c.cmpFn = a.cmpFn ∧ (∃ order, c.elems.Sublist order ∧ order.Perm a.elems) ∧
      (∀ e ∈ c.elems, ¬ Spec.Sure ⟨hash a.hashFn, cmp a.cmpFn⟩ b.tab.pairs e) ∧
      (∀ e ∈ a.elems, (¬ ∃ y ∈ b.elems, cmp a.cmpFn y e = 0) → e ∈ c.elems ∨ ∃ y ∈ c.elems, cmp a.cmpFn y e = 0) ∧
      ∀ k, k ≠ S.next → (S'.objs k).map LooseSet.elems = (S.objs k).map LooseSet.elems := by
  obtain ⟨a, b, ha, hb, -, -, order, c, h1, h2, h3⟩ := get2_ok h
  cases h3
  obtain ⟨h4, ⟨new, h5, h6, h7⟩, h8⟩ := select_els false order h2
  have h5' : ({ a with tab := c.1 } : LooseSet K).elems = new := by
    have : els c.1 = new := by rw [h5]; simp [els]
    exact this
  refine ⟨a, b, { a with tab := c.1 }, ha, hb, by simp [LooseSets.alloc, LooseSets.put], rfl, rfl, rfl,
    ⟨order.reverse, by rw [h5']; exact h6, (List.reverse_perm _).trans h1⟩, ?_, ?_, ?_⟩
  · intro e he
    rw [h5'] at he
    exact h7 e he
  · intro e he hs
    exact h8 e (h1.mem_iff.2 he) hs
  · intro k hk
    simp only [LooseSets.alloc, LooseSets.put, if_neg hk]
    split
    · rename_i hkj
      subst hkj
      rw [hb]
      simp only [Option.map_some, LooseSet.elems, h4]
    · rfl

/-- C91: what `set_equal` may answer: 1 only for sets of the same size, with every element of the first comparing equal to one of the second; 0 only
if the sizes differ, or some element of the first is not sure to be found in the second.  No set's elements change. -/
theorem C91_equal (h : S.may hash cmp (.equal i j) (.ok (S', x))) :
    ∃ a b, S.objs i = some a ∧ S.objs j = some b ∧ (∀ k, (S'.objs k).map LooseSet.elems = (S.objs k).map LooseSet.elems) ∧
      ((x = 1 ∧ a.elems.length = b.elems.length ∧ ∀ e ∈ a.elems, ∃ y ∈ b.elems, cmp a.cmpFn y e = 0) ∨
       (x = 0 ∧ (a.elems.length ≠ b.elems.length ∨ ∃ e ∈ a.elems, ¬ Spec.Sure ⟨hash a.hashFn, cmp a.cmpFn⟩ b.tab.pairs e))) := by
  obtain ⟨a, b, ha, hb, -, -, h⟩ := get2_ok h
  by_cases hl : a.tab.pairs.length ≠ b.tab.pairs.length
  · rw [if_pos hl] at h
    cases h
    exact ⟨a, b, ha, hb, fun _ => rfl, Or.inr ⟨rfl, Or.inl (by simpa [LooseSet.elems] using hl)⟩⟩
  · rw [if_neg hl] at h
    obtain ⟨order, c, h1, h2, h3⟩ := h
    cases h3
    obtain ⟨h4, h5⟩ := findAll_els order h2
    refine ⟨a, b, ha, hb, fun k => ?_, h5.imp (fun h5 => ⟨h5.1, ?_, fun e he => h5.2 e (h1.mem_iff.2 he)⟩) fun h5 => ⟨h5.1, Or.inr ?_⟩⟩
    · simp only [LooseSets.put]
      split
      · rename_i hkj
        subst hkj
        rw [hb]
        simp only [Option.map_some, LooseSet.elems, h4]
      · rfl
    · simpa [LooseSet.elems] using hl
    · obtain ⟨e, he, hs⟩ := h5.2
      exact ⟨e, h1.mem_iff.1 he, hs⟩

/-! ## Examples -/

/-- Numbers; the hash function is the identity. -/
def proper : FnEnv Nat := { hash := fun _ k => k, cmp := fun _ a b => (a : Int) - b }

/-- The comparison never says that two elements are equal. -/
def neverEqual : FnEnv Nat := { hash := fun _ k => k, cmp := fun _ _ _ => 1 }

/-- The comparison always says that two elements are equal; the hash function has changed as well. -/
def alwaysEqual : FnEnv Nat := { hash := fun _ k => k + 1, cmp := fun _ _ _ => 0 }

/-- Four elements are inserted into a set; the functions may then change. -/
def four (env : FnEnv Nat) : List (FnEnv Nat × SetOp Nat) :=
  [(proper, .create 0 0), (proper, .insert 0 1), (proper, .insert 0 2), (proper, .insert 0 3), (proper, .insert 0 4), (env, .add 0 0), (env, .count 0)]

/-- C91, why two different sets are asked for: where adding a set to itself is harmless with proper functions, it uses freed memory with a comparison
function that never finds an element equal to itself. -/
theorem C91_add_self_refuted :
    Spec.observe (Spec.run looseStep (HStore.empty (K := Nat)) (four proper)) = .ok [0, 0, 0, 0, 0, 0, 4] ∧
    Spec.run looseStep (HStore.empty (K := Nat)) (four neverEqual) = .ub :=
  ⟨by decide +kernel, Res.eq_ub_of (by decide +kernel)⟩

/-- Non-vacuity for `C91_sets`, `C91_state`: two sets with elements in common, their union, intersection and difference, and a comparison of equal
sets, while the functions change: the union has the common element twice, the intersection is empty, and a set is not equal to itself. -/
def changing : List (FnEnv Nat × SetOp Nat) :=
  [(proper, .create 0 0), (proper, .insert 0 1), (proper, .insert 0 2), (proper, .create 0 0), (proper, .insert 1 2), (proper, .insert 1 3),
   (neverEqual, .union 0 1), (neverEqual, .count 2), (neverEqual, .inter 0 1), (neverEqual, .count 3), (neverEqual, .diff 0 1), (neverEqual, .count 4),
   (neverEqual, .equal 0 0), (neverEqual, .del 0 1), (neverEqual, .add 0 1), (proper, .count 0), (alwaysEqual, .union 0 1), (alwaysEqual, .count 5)]

example : Spec.observe (Spec.run looseStep (HStore.empty (K := Nat)) changing) = .ok [0, 0, 0, 1, 0, 0, 2, 4, 3, 0, 4, 2, 0, 0, 0, 4, 5, 3] ∧
    ∀ o ∈ changing, o.2.NoAlias := by
  refine ⟨by decide +kernel, ?_⟩
  intro o ho
  simp only [changing, List.mem_cons, List.not_mem_nil, or_false] at ho
  rcases ho with h | h | h | h | h | h | h | h | h | h | h | h | h | h | h | h | h | h <;> subst h <;> simp [Spec.SetOp.NoAlias]

/-- Non-vacuity for `C91_safe`: a set is used after it has been destroyed. -/
example : Spec.run looseStep (HStore.empty (K := Nat)) [(neverEqual, .create 0 0), (neverEqual, .destroy 0), (alwaysEqual, .member 0 1)] = .ub :=
  Res.eq_ub_of (by decide +kernel)

end Maa.SetsLoose
