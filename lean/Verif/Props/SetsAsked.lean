import Verif.Model.SetsAsked
import Verif.Lemmas.Set
import Verif.Props.Set
import Verif.Props.Asked

/-! # Property C97: which calls to the hash and compare functions the operations on several sets make -/

namespace Maa.Set

open Tab (Entry Rep)
open Spec (Asked SearchAsks LooksFor AddAsks RemoveAsks SelectAsks AllThereAsks hashCalls)
open HashHeap (okb)

variable {K : Type} {env : FnEnv K}

theorem bindA {α β γ : Type} (x : Res α) (f : α → Res β) (g : β → Res γ) : (x.bind f).bind g = x.bind fun a => (f a).bind g := by
  cases x <;> rfl

/-! the record changes nothing -/

theorem findA_any (ops : KeyOps K) (key : K) (l : List (Entry K Unit)) : (findA ops key l).1 = l.any fun pt => ops.cmp pt.key key == 0 := by
  induction l with
  | nil => rfl
  | cons e l ih =>
    simp only [findA, List.any_cons]
    split
    · rename_i h; simp [h]
    · rename_i h; simp [h, ih]

theorem setInsertA_erase (s : SetObj K) (e : K) : ((setInsertA env s e).bind fun r => Res.ok r.1) = setInsert env s e := by
  unfold setInsertA setInsert Tab.insert
  simp only [findA_any]
  split
  · rfl
  · rw [bindA, bindA]
    congr 1
    funext t
    split
    · rfl
    · split <;> rfl

theorem setDeleteA_erase (s : SetObj K) (e : K) : ((setDeleteA env s e).bind fun r => Res.ok r.1) = setDelete env s e := by
  unfold setDeleteA setDelete Tab.delete
  simp only [findA_any]
  split
  · rfl
  · split
    · rfl
    · split <;> rfl

theorem retrieve_any (ops : KeyOps K) (t : Tab.Tab K Unit) (e : K) {t' d} (h : Tab.retrieve ops t e = .ok (t', d)) :
    ((t.buckets (ops.hash e % t.prime)).any fun pt => ops.cmp pt.key e == 0) = d.isSome := by
  unfold Tab.retrieve at h
  split at h
  · cases h
  · simp only at h
    split at h
    · rename_i hb
      cases h
      rw [hb]; rfl
    · rename_i pt rest hb
      rw [hb, List.any_cons]
      split at h
      · rename_i hp
        cases h
        simp [hp]
      · rename_i hp
        split at h
        · rename_i q hq
          have : (rest.any fun pt => ops.cmp pt.key e == 0) = true := by
            rw [List.any_eq_true]
            exact ⟨q, List.mem_of_find?_eq_some hq, by simpa using List.find?_some hq⟩
          split at h <;> (cases h; simp [this])
        · rename_i hq
          cases h
          rw [List.find?_eq_none] at hq
          simp only [hp, Bool.false_or, Option.isSome_none, List.any_eq_false]
          exact hq

theorem setMemberA_erase (s : SetObj K) (e : K) : ((setMemberA env s e).bind fun r => Res.ok r.1) = setMember env s e := by
  unfold setMemberA
  split
  · rename_i h
    simp [setMember, Tab.retrieve, h, Res.bind]
  · simp only [findA_any, bindA, okb, setMember]
    cases hr : Tab.retrieve (s.ops env) s.tab e <;> try rfl
    rename_i r
    rw [retrieve_any (s.ops env) s.tab e (t' := r.1) (d := r.2) hr]
    simp only [Res.bind]
    cases r.2 <;> rfl

theorem insertAllA_erase (l : List K) : ∀ s : SetObj K, ((insertAllA env s l).bind fun r => Res.ok r.1) = insertAll env s l := by
  induction l with
  | nil => intro s; rfl
  | cons e l ih =>
    intro s
    simp only [insertAllA, insertAll, bindA, okb, ← setInsertA_erase]
    congr 1; funext r
    exact ih r.1.1

theorem deleteAllA_erase (l : List K) : ∀ s : SetObj K, ((deleteAllA env s l).bind fun r => Res.ok r.1) = deleteAll env s l := by
  induction l with
  | nil => intro s; rfl
  | cons e l ih =>
    intro s
    simp only [deleteAllA, deleteAll, bindA, okb, ← setDeleteA_erase]
    congr 1; funext r
    exact ih r.1.1

theorem selectLoopA_erase (keep : Bool) (l : List K) : ∀ s s2 : SetObj K,
    ((selectLoopA env keep s s2 l).bind fun r => Res.ok r.1) = selectLoop env keep s s2 l := by
  induction l with
  | nil => intro s s2; rfl
  | cons e l ih =>
    intro s s2
    simp only [selectLoopA, selectLoop, bindA, okb, ← setMemberA_erase, ← setInsertA_erase]
    congr 1; funext r
    split
    · simp only [bindA, okb]
      congr 1; funext q
      exact ih _ _
    · simp only [bindA, okb]
      exact ih _ _

theorem equalLoopA_erase (l : List K) : ∀ s2 : SetObj K, ((equalLoopA env s2 l).bind fun r => Res.ok r.1) = equalLoop env s2 l := by
  induction l with
  | nil => intro s2; rfl
  | cons e l ih =>
    intro s2
    simp only [equalLoopA, equalLoop, bindA, okb, ← setMemberA_erase]
    congr 1; funext r
    split
    · rfl
    · simp only [bindA, okb]
      exact ih _

/-- C97: the record does not change what the call does. -/
theorem C97_same_call (env : FnEnv K) (σ : Store K) (o : Spec.SetOp K) :
    ((setStepA env σ o).bind fun r => Res.ok r.1) = setStep env σ o := by
  cases o with
  | insert i e =>
    simp only [setStepA, setStep, bindA, okb, ← setInsertA_erase]
  | delete i e =>
    simp only [setStepA, setStep, bindA, okb, ← setDeleteA_erase]
  | member i e =>
    simp only [setStepA, setStep, bindA, okb, ← setMemberA_erase]
  | add i j =>
    simp only [setStepA, setStep, bindA, okb]
    congr 1; funext s1; congr 1; funext s2
    unfold setAddA setAdd
    split
    · rw [← insertAllA_erase, bindA]; rfl
    · rfl
  | del i j =>
    simp only [setStepA, setStep, bindA, okb]
    congr 1; funext s1; congr 1; funext s2
    unfold setDelA setDel
    split
    · rw [← deleteAllA_erase, bindA]; rfl
    · rfl
  | union i j =>
    simp only [setStepA, setStep, bindA, okb]
    congr 1; funext s1; congr 1; funext s2
    unfold setUnionA setUnion
    split
    · simp only [bindA, okb, ← insertAllA_erase]
    · rfl
  | inter i j =>
    simp only [setStepA, setStep, bindA, okb, setInter]
    congr 1; funext s1; congr 1; funext s2
    unfold setSelectA setSelect
    split
    · simp only [bindA, okb, ← selectLoopA_erase]
    · rfl
  | diff i j =>
    simp only [setStepA, setStep, bindA, okb, setDiff]
    congr 1; funext s1; congr 1; funext s2
    unfold setSelectA setSelect
    split
    · simp only [bindA, okb, ← selectLoopA_erase]
    · rfl
  | equal i j =>
    simp only [setStepA, setStep, bindA, okb]
    congr 1; funext s1; congr 1; funext s2
    unfold setEqualA setEqual
    split
    · split
      · rfl
      · simp only [bindA, okb, ← equalLoopA_erase]
    · rfl
  | create h c => simp only [setStepA, setStep, bindA, okb]
  | readonly i f => simp only [setStepA, setStep, bindA, okb]
  | destroy i => simp only [setStepA, setStep, bindA, okb]
  | count i => simp only [setStepA, setStep, bindA, okb]
  | stats i => simp only [setStepA, setStep, bindA, okb]

/-! what one search asks -/

theorem findA_ok (ops : KeyOps K) (key : K) (l : List (Entry K Unit)) :
    ∃ rest, l.map Entry.key = (findA ops key l).2 ++ rest ∧ (∀ k ∈ (findA ops key l).2.dropLast, ops.cmp k key ≠ 0) ∧
      ((∃ k, (findA ops key l).2.getLast? = some k ∧ ops.cmp k key = 0) ∨ rest = [] ∧ ∀ k ∈ (findA ops key l).2, ops.cmp k key ≠ 0) := by
  induction l with
  | nil => exact ⟨[], rfl, by simp [findA], Or.inr ⟨rfl, by simp [findA]⟩⟩
  | cons c l ih =>
    obtain ⟨rest, h1, h2, h3⟩ := ih
    by_cases hm : (ops.cmp c.key key == 0) = true
    · refine ⟨l.map Entry.key, by simp [findA, hm], by simp [findA, hm], Or.inl ⟨c.key, by simp [findA, hm], by simpa using hm⟩⟩
    · have hm' : ops.cmp c.key key ≠ 0 := by simpa using hm
      simp only [findA, if_neg hm]
      refine ⟨rest, by simp [h1], ?_, ?_⟩
      · intro k hk
        cases hs : (findA ops key l).2 with
        | nil => rw [hs] at hk; simp at hk
        | cons a s =>
          rw [hs, List.dropLast_cons_of_ne_nil (by simp)] at hk
          rcases List.mem_cons.1 hk with rfl | hk
          · exact hm'
          · exact h2 k (by rw [hs]; exact hk)
      · rcases h3 with ⟨k, e1, e2⟩ | ⟨e1, e2⟩
        · left
          exact ⟨k, by rw [List.getLast?_cons, e1]; rfl, e2⟩
        · right
          refine ⟨e1, ?_⟩
          intro k hk
          rcases List.mem_cons.1 hk with rfl | hk
          · exact hm'
          · exact e2 k hk

theorem search_looks {ops : KeyOps K} {t : Tab.Tab K Unit} {m : List (K × Unit)} (rep : Rep ops t m) (key : K) :
    LooksFor ops.hash ops.cmp (m.map Prod.fst) key (recordA key (findA ops key (t.buckets (ops.hash key % t.prime))).2) := by
  have hs : ops.hash key % t.prime < t.prime := Nat.mod_lt _ rep.inv.pos
  obtain ⟨rest, h1, h2, h3⟩ := findA_ok ops key (t.buckets (ops.hash key % t.prime))
  refine ⟨t.prime, rep.inv.pos, _, rest, rfl, ?_, h2, h3⟩
  rw [← h1, ← HashHeap.slot_eq rep.inv hs]
  have e2 : ((Tab.all t).map Entry.key).Perm (m.map Prod.fst) := by
    have := rep.perm.map Prod.fst
    simpa [Tab.pairsOf, List.map_map, Function.comp_def] using this
  refine List.Perm.trans ?_ (e2.filter _)
  rw [List.filter_map]
  exact List.Perm.refl _

theorem fst_unit (l : List K) : (l.map fun k => (k, ())).map Prod.fst = l := by
  simp [List.map_map, Function.comp_def]

/-- asks of the functions of one set -/
abbrev Looks (env : FnEnv K) (a : Spec.ASet K) : List K → K → List (Asked K) → Prop := LooksFor (env.hash a.hashFn) (env.cmp a.cmpFn)

theorem SRep.opsEq {s : SetObj K} {a : Spec.ASet K} (h : SRep env s a) : s.ops env = env.ops a.hashFn a.cmpFn := by
  simp [SetObj.ops, h.hfn, h.cfn]

theorem same_eqv {s : SetObj K} {a : Spec.ASet K} (h : SRep env s a) : eqv (s.ops env) = Spec.same (env.cmp a.cmpFn) := by
  rw [h.opsEq]; rfl

/-- of an outcome of the recorded call, what the plain call did -/
theorem erase_ok {α β : Type} {x : Res (α × β)} {y : Res α} (h : (x.bind fun r => Res.ok r.1) = y) {r} (hx : x = .ok r) : y = .ok r.1 := by
  rw [← h, hx]; rfl

theorem insertA_looks {s : SetObj K} {a : Spec.ASet K} (h : SRep env s a) (e : K) {r} (hr : setInsertA env s e = .ok r) :
    Looks env a a.elems e r.2 ∧ SRep env r.1.1 { a with elems := Spec.sinsert (Spec.same (env.cmp a.cmpFn)) a.elems e } := by
  have hro : a.readonly = 0 := by
    by_contra hc
    have := erase_ok (setInsertA_erase s e) hr
    rw [insert_ro h hc] at this
    cases this
  constructor
  · unfold setInsertA at hr
    simp only at hr
    split at hr
    · cases hr
    · cases hg : Tab.grow s.tab <;> rw [hg] at hr <;> simp only [Res.bind, reduceCtorEq] at hr
      rename_i t
      have := search_looks (HashHeap.grow_rep h.law h.rep hg) e
      rw [fst_unit, h.opsEq] at this
      rw [h.opsEq] at hr
      split at hr
      · cases hr
      · split at hr <;> (cases hr; exact this)
  · obtain ⟨s', h1, h2, -⟩ := insert_srep h hro e
    rw [erase_ok (setInsertA_erase s e) hr] at h1
    obtain ⟨⟨x, y⟩, z⟩ := r
    cases h1
    rw [same_eqv h] at h2
    exact h2

theorem deleteA_looks {s : SetObj K} {a : Spec.ASet K} (h : SRep env s a) (e : K) {r} (hr : setDeleteA env s e = .ok r) :
    Looks env a a.elems e r.2 ∧ SRep env r.1.1 { a with elems := Spec.sdelete (Spec.same (env.cmp a.cmpFn)) a.elems e } := by
  have hro : a.readonly = 0 := by
    by_contra hc
    have := erase_ok (setDeleteA_erase s e) hr
    rw [delete_ro h hc] at this
    cases this
  constructor
  · unfold setDeleteA at hr
    have := search_looks h.rep e
    rw [fst_unit, h.opsEq] at this
    rw [h.opsEq] at hr
    simp only at hr
    split at hr
    · cases hr
    · split at hr
      · cases hr
      · split at hr <;> (cases hr; exact this)
  · obtain ⟨s', h1, h2, -⟩ := delete_srep h hro e
    rw [erase_ok (setDeleteA_erase s e) hr] at h1
    obtain ⟨⟨x, y⟩, z⟩ := r
    cases h1
    rw [same_eqv h] at h2
    exact h2

theorem memberA_looks {s : SetObj K} {a : Spec.ASet K} (h : SRep env s a) (e : K) {r} (hr : setMemberA env s e = .ok r) :
    Looks env a a.elems e r.2 ∧ SRep env r.1.1 a ∧ r.1.2 = if Spec.mem (Spec.same (env.cmp a.cmpFn)) a.elems e then 1 else 0 := by
  constructor
  · unfold setMemberA at hr
    have := search_looks h.rep e
    rw [fst_unit, h.opsEq] at this
    rw [h.opsEq] at hr
    simp only at hr
    split at hr
    · cases hr
    · cases hm : setMember env s e <;> rw [hm] at hr <;> simp only [Res.bind, reduceCtorEq] at hr
      cases hr
      exact this
  · obtain ⟨s', h1, h2, -⟩ := member_srep h e
    rw [erase_ok (setMemberA_erase s e) hr] at h1
    rw [same_eqv h] at h1
    obtain ⟨⟨x, y⟩, z⟩ := r
    cases h1
    exact ⟨h2, rfl⟩

/-! the loops -/

theorem insertAllA_asks (l : List K) : ∀ {s : SetObj K} {a : Spec.ASet K}, SRep env s a → ∀ {r}, insertAllA env s l = .ok r →
    AddAsks (env.hash a.hashFn) (env.cmp a.cmpFn) a.elems l r.2 ∧
      SRep env r.1 { a with elems := l.foldl (Spec.sinsert (Spec.same (env.cmp a.cmpFn))) a.elems } := by
  induction l with
  | nil =>
    intro s a h r hr
    cases hr
    exact ⟨rfl, h⟩
  | cons e l ih =>
    intro s a h r hr
    simp only [insertAllA] at hr
    cases h1 : setInsertA env s e <;> rw [h1] at hr <;> simp only [Res.bind, reduceCtorEq] at hr
    rename_i x
    cases h2 : insertAllA env x.1.1 l <;> rw [h2] at hr <;> simp only [reduceCtorEq, Res.ok.injEq] at hr
    rename_i q
    subst hr
    obtain ⟨k1, k2⟩ := insertA_looks h e h1
    obtain ⟨k3, k4⟩ := ih k2 h2
    exact ⟨⟨x.2, q.2, rfl, k1, k3⟩, k4⟩

theorem AddAsks.append {hash : K → Nat} {cmp : K → K → Int} (l1 l2 : List K) : ∀ {keys : List K} {a b : List (Asked K)},
    AddAsks hash cmp keys l1 a → AddAsks hash cmp (l1.foldl (Spec.sinsert (Spec.same cmp)) keys) l2 b → AddAsks hash cmp keys (l1 ++ l2) (a ++ b) := by
  induction l1 with
  | nil =>
    intro keys a b h1 h2
    have : a = [] := h1
    subst this
    exact h2
  | cons e l1 ih =>
    rintro keys a b ⟨x, rest, rfl, h1, h2⟩ h3
    exact ⟨x, rest ++ b, List.append_assoc .., h1, ih h2 h3⟩

theorem deleteAllA_asks (l : List K) : ∀ {s : SetObj K} {a : Spec.ASet K}, SRep env s a → ∀ {r}, deleteAllA env s l = .ok r →
    RemoveAsks (env.hash a.hashFn) (env.cmp a.cmpFn) a.elems l r.2 := by
  induction l with
  | nil =>
    intro s a h r hr
    cases hr
    rfl
  | cons e l ih =>
    intro s a h r hr
    simp only [deleteAllA] at hr
    cases h1 : setDeleteA env s e <;> rw [h1] at hr <;> simp only [Res.bind, reduceCtorEq] at hr
    rename_i x
    cases h2 : deleteAllA env x.1.1 l <;> rw [h2] at hr <;> simp only [reduceCtorEq, Res.ok.injEq] at hr
    rename_i q
    subst hr
    obtain ⟨k1, k2⟩ := deleteA_looks h e h1
    exact ⟨x.2, q.2, rfl, k1, ih k2 h2⟩

theorem ite_ne (b : Bool) : (if b then (1 : Int) else 0) ≠ 0 ↔ b = true := by cases b <;> simp

theorem selectLoopA_asks (keep : Bool) (l : List K) : ∀ {s s2 : SetObj K} {n a : Spec.ASet K}, SRep env s n → SRep env s2 a →
    n.hashFn = a.hashFn → n.cmpFn = a.cmpFn → ∀ {r}, selectLoopA env keep s s2 l = .ok r →
    SelectAsks (env.hash a.hashFn) (env.cmp a.cmpFn) keep a.elems n.elems l r.2 := by
  induction l with
  | nil =>
    intro s s2 n a hn ha e1 e2 r hr
    cases hr
    rfl
  | cons e l ih =>
    intro s s2 n a hn ha e1 e2 r hr
    simp only [selectLoopA] at hr
    cases h1 : setMemberA env s2 e <;> rw [h1] at hr <;> simp only [Res.bind, reduceCtorEq] at hr
    rename_i x
    obtain ⟨k1, k2, k3⟩ := memberA_looks ha e h1
    have cond : ((x.1.2 ≠ 0) = (keep = true)) ↔ Spec.mem (Spec.same (env.cmp a.cmpFn)) a.elems e = keep := by
      rw [k3, propext (ite_ne _), eq_iff_iff, ← Bool.eq_iff_iff]
    split at hr
    · rename_i hc
      cases h2 : setInsertA env s e <;> rw [h2] at hr <;> simp only [reduceCtorEq] at hr
      rename_i q
      cases h3 : selectLoopA env keep q.1.1 x.1.1 l <;> rw [h3] at hr <;> simp only [reduceCtorEq, Res.ok.injEq] at hr
      rename_i p
      subst hr
      obtain ⟨j1, j2⟩ := insertA_looks hn e h2
      have j3 := ih j2 k2 e1 e2 h3
      refine ⟨x.2, q.2 ++ p.2, rfl, k1, ?_⟩
      rw [if_pos (cond.1 hc)]
      refine ⟨q.2, p.2, rfl, ?_, ?_⟩
      · rw [← e1, ← e2]; exact j1
      · rw [← e2] at j3 ⊢; exact j3
    · rename_i hc
      cases h3 : selectLoopA env keep s x.1.1 l <;> rw [h3] at hr <;> simp only [reduceCtorEq, Res.ok.injEq] at hr
      rename_i p
      subst hr
      refine ⟨x.2, p.2, rfl, k1, ?_⟩
      rw [if_neg (fun h => hc (cond.2 h))]
      exact ih hn k2 e1 e2 h3

theorem equalLoopA_asks (l : List K) : ∀ {s2 : SetObj K} {a : Spec.ASet K}, SRep env s2 a → ∀ {r}, equalLoopA env s2 l = .ok r →
    AllThereAsks (env.hash a.hashFn) (env.cmp a.cmpFn) a.elems l r.2 := by
  induction l with
  | nil =>
    intro s2 a ha r hr
    cases hr
    rfl
  | cons e l ih =>
    intro s2 a ha r hr
    simp only [equalLoopA] at hr
    cases h1 : setMemberA env s2 e <;> rw [h1] at hr <;> simp only [Res.bind, reduceCtorEq] at hr
    rename_i x
    obtain ⟨k1, k2, k3⟩ := memberA_looks ha e h1
    rw [k3] at hr
    by_cases hm : Spec.mem (Spec.same (env.cmp a.cmpFn)) a.elems e = true
    · simp only [hm, if_true, one_ne_zero, if_false] at hr
      cases h3 : equalLoopA env x.1.1 l <;> rw [h3] at hr <;> simp only [reduceCtorEq, Res.ok.injEq] at hr
      rename_i p
      subst hr
      exact ⟨x.2, p.2, rfl, k1, by rw [if_pos hm]; exact ih k2 h3⟩
    · simp only [hm, Bool.false_eq_true, if_false, if_true, Res.ok.injEq] at hr
      subst hr
      exact ⟨x.2, [], by simp, k1, by rw [if_neg hm]⟩

/-! one call -/

theorem get_both {σ : Store K} {S : Spec.AStore K} (h : StRep env σ S) {i : Nat} {s : SetObj K} (hs : σ.get i = .ok s) :
    ∃ a, S.objs i = some a ∧ SRep env s a := by
  have := h.objs i
  unfold Store.get at hs
  cases h1 : σ.objs i <;> rw [h1] at hs <;> cases hs
  cases h2 : S.objs i <;> rw [h1, h2] at this <;> simp only at this
  exact ⟨_, rfl, this⟩

theorem created {s1 : SetObj K} {a : Spec.ASet K} (h : SRep env s1 a) {s : SetObj K} (hc : setCreate s1.hashFn s1.cmpFn = .ok s) :
    SRep env s { elems := [], readonly := 0, hashFn := a.hashFn, cmpFn := a.cmpFn } := by
  obtain ⟨s', c1, c2⟩ := create_srep (K := K) (env := env) s1.hashFn s1.cmpFn h.law
  rw [hc] at c1
  cases c1
  rw [h.hfn, h.cfn] at c2
  exact c2

theorem same_fns {s1 s2 : SetObj K} {a b : Spec.ASet K} (h1 : SRep env s1 a) (h2 : SRep env s2 b) (hs : sameFns s1 s2 = true) :
    a.hashFn = b.hashFn ∧ a.cmpFn = b.cmpFn := (same_iff h1 h2).1 hs

theorem step_asks {σ : Store K} {S : Spec.AStore K} (h : StRep env σ S) (o : Spec.SetOp K) {σ' : Store K} {out : Int} {asked : List (Asked K)}
    (hr : setStepA env σ o = .ok ((σ', out), asked)) : o.asks env.hash env.cmp S asked := by
  have two : ∀ {i j : Nat} {γ : Type} {f : SetObj K → SetObj K → Res γ} {r : γ}, ((σ.get i).bind fun s1 => (σ.get j).bind fun s2 => f s1 s2) = .ok r →
      ∃ s1 s2 a b, S.objs i = some a ∧ S.objs j = some b ∧ SRep env s1 a ∧ SRep env s2 b ∧ f s1 s2 = .ok r := by
    intro i j γ f r hr
    cases h1 : σ.get i <;> rw [h1] at hr <;> simp only [Res.bind, reduceCtorEq] at hr
    cases h2 : σ.get j <;> rw [h2] at hr <;> simp only [reduceCtorEq] at hr
    obtain ⟨a, a1, a2⟩ := get_both h h1
    obtain ⟨b, b1, b2⟩ := get_both h h2
    exact ⟨_, _, a, b, a1, b1, a2, b2, hr⟩
  have one : ∀ {i : Nat} {γ : Type} {f : SetObj K → Res γ} {r : γ}, (σ.get i).bind f = .ok r →
      ∃ s a, S.objs i = some a ∧ SRep env s a ∧ f s = .ok r := by
    intro i γ f r hr
    cases h1 : σ.get i <;> rw [h1] at hr <;> simp only [Res.bind, reduceCtorEq] at hr
    obtain ⟨a, a1, a2⟩ := get_both h h1
    exact ⟨_, a, a1, a2, hr⟩
  have last : ∀ {α β : Type} {x : Res (α × List (Asked K))} {f : α → β} {q : β}, (x.bind fun r => Res.ok (f r.1, r.2)) = .ok (q, asked) →
      ∃ r, x = .ok r ∧ r.2 = asked := by
    intro α β x f q hx
    cases x <;> simp only [Res.bind, reduceCtorEq, Res.ok.injEq, Prod.mk.injEq] at hx
    exact ⟨_, rfl, hx.2⟩
  cases o with
  | insert i e =>
    obtain ⟨s, a, a1, a2, hf⟩ := one hr
    obtain ⟨r, r1, rfl⟩ := last (f := fun r : SetObj K × Int => (σ.put i r.1, r.2)) hf
    exact ⟨a, a1, (insertA_looks a2 e r1).1⟩
  | delete i e =>
    obtain ⟨s, a, a1, a2, hf⟩ := one hr
    obtain ⟨r, r1, rfl⟩ := last (f := fun r : SetObj K × Int => (σ.put i r.1, r.2)) hf
    exact ⟨a, a1, (deleteA_looks a2 e r1).1⟩
  | member i e =>
    obtain ⟨s, a, a1, a2, hf⟩ := one hr
    obtain ⟨r, r1, rfl⟩ := last (f := fun r : SetObj K × Int => (σ.put i r.1, r.2)) hf
    exact ⟨a, a1, (memberA_looks a2 e r1).1⟩
  | add i j =>
    obtain ⟨s1, s2, a, b, a1, b1, a2, b2, hf⟩ := two hr
    obtain ⟨r, r1, rfl⟩ := last (f := fun r : SetObj K => (σ.put i r, (i : Int))) hf
    unfold setAddA at r1
    split at r1
    · exact ⟨a, b, elems s2, a1, b1, b2.perm, (insertAllA_asks _ a2 r1).1⟩
    · cases r1
  | del i j =>
    obtain ⟨s1, s2, a, b, a1, b1, a2, b2, hf⟩ := two hr
    obtain ⟨r, r1, rfl⟩ := last (f := fun r : SetObj K => (σ.put i r, (i : Int))) hf
    unfold setDelA at r1
    split at r1
    · exact ⟨a, b, elems s2, a1, b1, b2.perm, deleteAllA_asks _ a2 r1⟩
    · cases r1
  | union i j =>
    obtain ⟨s1, s2, a, b, a1, b1, a2, b2, hf⟩ := two hr
    obtain ⟨r, r1, rfl⟩ := last (f := fun r : SetObj K => (σ.alloc r, (σ.next : Int))) hf
    unfold setUnionA at r1
    split at r1
    · cases hc : setCreate (K := K) s1.hashFn s1.cmpFn <;> rw [hc] at r1 <;> simp only [Res.bind, reduceCtorEq] at r1
      rename_i s
      cases h1 : insertAllA env s (elems s1) <;> rw [h1] at r1 <;> simp only [reduceCtorEq] at r1
      rename_i q
      cases h2 : insertAllA env q.1 (elems s2) <;> rw [h2] at r1 <;> simp only [reduceCtorEq, Res.ok.injEq] at r1
      subst r1
      obtain ⟨k1, k2⟩ := insertAllA_asks _ (created a2 hc) h1
      obtain ⟨k3, -⟩ := insertAllA_asks _ k2 h2
      exact ⟨a, b, elems s1, elems s2, a1, b1, a2.perm, b2.perm, AddAsks.append _ _ k1 k3⟩
    · cases r1
  | inter i j =>
    obtain ⟨s1, s2, a, b, a1, b1, a2, b2, hf⟩ := two hr
    obtain ⟨r, r1, rfl⟩ := last (f := fun r : SetObj K × SetObj K => ((σ.put j r.2).alloc r.1, (σ.next : Int))) hf
    unfold setSelectA at r1
    split at r1
    · rename_i hs
      cases hc : setCreate (K := K) s1.hashFn s1.cmpFn <;> rw [hc] at r1 <;> simp only [Res.bind, reduceCtorEq] at r1
      rename_i s
      cases h1 : selectLoopA env true s { s2 with tab := { s2.tab with readonly := 1 } } (elems s1) <;> rw [h1] at r1 <;>
        simp only [reduceCtorEq, Res.ok.injEq] at r1
      rename_i q
      subst r1
      obtain ⟨f1, f2⟩ := same_fns a2 b2 hs
      have := selectLoopA_asks true _ (created a2 hc) (b2.withRo 1) f1 f2 h1
      simp only at this
      rw [← f1, ← f2] at this
      exact ⟨a, b, elems s1, a1, b1, a2.perm, this⟩
    · cases r1
  | diff i j =>
    obtain ⟨s1, s2, a, b, a1, b1, a2, b2, hf⟩ := two hr
    obtain ⟨r, r1, rfl⟩ := last (f := fun r : SetObj K × SetObj K => ((σ.put j r.2).alloc r.1, (σ.next : Int))) hf
    unfold setSelectA at r1
    split at r1
    · rename_i hs
      cases hc : setCreate (K := K) s1.hashFn s1.cmpFn <;> rw [hc] at r1 <;> simp only [Res.bind, reduceCtorEq] at r1
      rename_i s
      cases h1 : selectLoopA env false s { s2 with tab := { s2.tab with readonly := 1 } } (elems s1) <;> rw [h1] at r1 <;>
        simp only [reduceCtorEq, Res.ok.injEq] at r1
      rename_i q
      subst r1
      obtain ⟨f1, f2⟩ := same_fns a2 b2 hs
      have := selectLoopA_asks false _ (created a2 hc) (b2.withRo 1) f1 f2 h1
      simp only at this
      rw [← f1, ← f2] at this
      exact ⟨a, b, elems s1, a1, b1, a2.perm, this⟩
    · cases r1
  | equal i j =>
    obtain ⟨s1, s2, a, b, a1, b1, a2, b2, hf⟩ := two hr
    obtain ⟨r, r1, rfl⟩ := last (f := fun r : SetObj K × Int => (σ.put j r.1, r.2)) hf
    unfold setEqualA at r1
    split at r1
    · rename_i hs
      rw [a2.count, b2.count] at r1
      refine ⟨a, b, elems s1, a1, b1, a2.perm, ?_⟩
      split at r1
      · rename_i hne
        rw [if_neg hne]
        cases r1
        rfl
      · rename_i he
        rw [if_pos (by simpa using he)]
        simp only at r1
        cases h1 : equalLoopA env { s2 with tab := { s2.tab with readonly := 1 } } (elems s1) <;> rw [h1] at r1 <;>
          simp only [Res.bind, reduceCtorEq, Res.ok.injEq] at r1
        subst r1
        obtain ⟨f1, f2⟩ := same_fns a2 b2 hs
        have := equalLoopA_asks _ (b2.withRo 1) h1
        simp only at this
        rw [← f1, ← f2] at this
        exact this
    · cases r1
  | create h c =>
    simp only [setStepA] at hr
    cases hc : setCreate (K := K) h c <;> rw [hc] at hr <;> cases hr
    rfl
  | readonly i f =>
    obtain ⟨s, a, -, -, hf⟩ := one hr
    cases hf
    rfl
  | destroy i =>
    obtain ⟨s, a, -, -, hf⟩ := one hr
    cases hd : setDestroy s <;> rw [hd] at hf <;> cases hf
    rfl
  | count i =>
    obtain ⟨s, a, -, -, hf⟩ := one hr
    cases hf
    rfl
  | stats i =>
    obtain ⟨s, a, -, -, hf⟩ := one hr
    cases hd : setGetStats s <;> rw [hd] at hf <;> cases hf
    rfl

/-- C97: after any history of calls on any number of sets, a call asks the functions of the sets what `SetOp.asks` says. -/
theorem C97_asked (env : FnEnv K) (hist : List (Spec.SetOp K)) (ok : ∀ o ∈ hist, OkOp env o) (σ : Store K) (outs : List Int)
    (hr : Spec.run (setStep env) Store.empty hist = .ok (σ, outs)) (o : Spec.SetOp K) (σ' : Store K) (out : Int) (asked : List (Asked K))
    (ho : setStepA env σ o = .ok ((σ', out), asked)) :
    ∃ S, Spec.run (Spec.setStep (eqOf env)) Spec.AStore.empty hist = .ok (S, outs) ∧ o.asks env.hash env.cmp S asked := by
  have := history_sim hist ok
  rw [hr] at this
  cases hm : Spec.run (Spec.setStep (eqOf env)) Spec.AStore.empty hist <;> rw [hm] at this <;> simp only [Spec.ResRel] at this
  rename_i b
  obtain ⟨S, ms⟩ := b
  obtain ⟨e1, e2⟩ := this
  simp only at e1
  subst e1
  exact ⟨S, rfl, step_asks e2 o ho⟩

/-! ### How often the hash function is called -/

theorem hashCalls_append (a b : List (Asked K)) : hashCalls (a ++ b) = hashCalls a + hashCalls b := by
  induction a with
  | nil => simp [hashCalls]
  | cons x a ih => cases x <;> simp [hashCalls, ih, Nat.add_right_comm]

theorem hashCalls_looks {hash : K → Nat} {cmp : K → K → Int} {keys : List K} {e : K} {asked : List (Asked K)} (h : LooksFor hash cmp keys e asked) :
    hashCalls asked = 1 := by
  obtain ⟨size, -, seen, rest, rfl, -⟩ := h
  have : ∀ l : List K, hashCalls (l.map (Asked.compare · e)) = 0 := by
    intro l
    induction l with
    | nil => rfl
    | cons x l ih => exact ih
  rw [hashCalls, this]

theorem hashCalls_add {hash : K → Nat} {cmp : K → K → Int} (l : List K) : ∀ {keys : List K} {asked : List (Asked K)},
    AddAsks hash cmp keys l asked → hashCalls asked = l.length := by
  induction l with
  | nil => intro keys asked h; cases h; rfl
  | cons e l ih =>
    rintro keys asked ⟨a, rest, rfl, h1, h2⟩
    rw [hashCalls_append, hashCalls_looks h1, ih h2, List.length_cons, Nat.add_comm]

theorem hashCalls_remove {hash : K → Nat} {cmp : K → K → Int} (l : List K) : ∀ {keys : List K} {asked : List (Asked K)},
    RemoveAsks hash cmp keys l asked → hashCalls asked = l.length := by
  induction l with
  | nil => intro keys asked h; cases h; rfl
  | cons e l ih =>
    rintro keys asked ⟨a, rest, rfl, h1, h2⟩
    rw [hashCalls_append, hashCalls_looks h1, ih h2, List.length_cons, Nat.add_comm]

theorem hashCalls_select {hash : K → Nat} {cmp : K → K → Int} {keep : Bool} {keys : List K} (l : List K) : ∀ {new : List K} {asked : List (Asked K)},
    SelectAsks hash cmp keep keys new l asked → hashCalls asked = l.length + (l.filter fun e => Spec.mem (Spec.same cmp) keys e == keep).length := by
  induction l with
  | nil => intro new asked h; cases h; rfl
  | cons e l ih =>
    rintro new asked ⟨a, rest, rfl, h1, h2⟩
    rw [hashCalls_append, hashCalls_looks h1, List.filter_cons]
    by_cases hm : Spec.mem (Spec.same cmp) keys e = keep
    · rw [if_pos hm] at h2
      obtain ⟨b, rest', rfl, h3, h4⟩ := h2
      rw [hashCalls_append, hashCalls_looks h3, ih h4, if_pos (by simpa using hm)]
      simp only [List.length_cons]
      omega
    · rw [if_neg hm] at h2
      rw [ih h2, if_neg (by simpa using hm), List.length_cons]
      omega

theorem hashCalls_all {hash : K → Nat} {cmp : K → K → Int} {keys : List K} (l : List K) : ∀ {asked : List (Asked K)},
    AllThereAsks hash cmp keys l asked → hashCalls asked ≤ l.length ∧ ((∀ e ∈ l, Spec.mem (Spec.same cmp) keys e = true) → hashCalls asked = l.length) := by
  induction l with
  | nil => intro asked h; cases h; exact ⟨Nat.le_refl _, fun _ => rfl⟩
  | cons e l ih =>
    rintro asked ⟨a, rest, rfl, h1, h2⟩
    rw [hashCalls_append, hashCalls_looks h1, List.length_cons]
    by_cases hm : Spec.mem (Spec.same cmp) keys e = true
    · rw [if_pos hm] at h2
      obtain ⟨j1, j2⟩ := ih h2
      exact ⟨by omega, fun h => by rw [j2 (fun x hx => h x (List.mem_cons_of_mem _ hx)), Nat.add_comm]⟩
    · rw [if_neg hm] at h2
      subst h2
      refine ⟨by simp [hashCalls], fun h => absurd (h e (by simp)) hm⟩

/-- C97: so the hash function is called once for each element that is looked for: `set_union` calls it for every element of both sets, `set_inter` and
`set_diff` for every element of the first set and once more for every element of the result, `set_equal` not at all if the numbers of elements differ. -/
theorem C97_hash_calls (hash : Nat → K → Nat) (cmp : Nat → K → K → Int) (S : Spec.AStore K) (o : Spec.SetOp K) (asked : List (Asked K))
    (h : o.asks hash cmp S asked) :
    match o with
    | .insert _ _ | .delete _ _ | .member _ _ => hashCalls asked = 1
    | .add _ j | .del _ j => ∃ b, S.objs j = some b ∧ hashCalls asked = b.elems.length
    | .union i j => ∃ a b, S.objs i = some a ∧ S.objs j = some b ∧ hashCalls asked = a.elems.length + b.elems.length
    | .inter i j => ∃ a b, S.objs i = some a ∧ S.objs j = some b ∧
        hashCalls asked = a.elems.length + (Spec.inter (Spec.same (cmp a.cmpFn)) a.elems b.elems).length
    | .diff i j => ∃ a b, S.objs i = some a ∧ S.objs j = some b ∧
        hashCalls asked = a.elems.length + (Spec.diff (Spec.same (cmp a.cmpFn)) a.elems b.elems).length
    | .equal i j => ∃ a b, S.objs i = some a ∧ S.objs j = some b ∧ hashCalls asked ≤ a.elems.length ∧
        (a.elems.length ≠ b.elems.length → asked = []) ∧
        (Spec.equal (Spec.same (cmp a.cmpFn)) a.elems b.elems = true → a.elems.length = b.elems.length → hashCalls asked = a.elems.length)
    | .create _ _ | .readonly _ _ | .destroy _ | .count _ | .stats _ => asked = [] := by
  cases o with
  | insert i e => obtain ⟨a, -, h⟩ := h; exact hashCalls_looks h
  | delete i e => obtain ⟨a, -, h⟩ := h; exact hashCalls_looks h
  | member i e => obtain ⟨a, -, h⟩ := h; exact hashCalls_looks h
  | add i j =>
    obtain ⟨a, b, order, -, h2, h3, h4⟩ := h
    exact ⟨b, h2, by rw [hashCalls_add _ h4, h3.length_eq]⟩
  | del i j =>
    obtain ⟨a, b, order, -, h2, h3, h4⟩ := h
    exact ⟨b, h2, by rw [hashCalls_remove _ h4, h3.length_eq]⟩
  | union i j =>
    obtain ⟨a, b, o1, o2, h1, h2, h3, h4, h5⟩ := h
    exact ⟨a, b, h1, h2, by rw [hashCalls_add _ h5, List.length_append, h3.length_eq, h4.length_eq]⟩
  | inter i j =>
    obtain ⟨a, b, order, h1, h2, h3, h4⟩ := h
    exact ⟨a, b, h1, h2, by rw [hashCalls_select _ h4, h3.length_eq, (h3.filter _).length_eq, inter_eq]⟩
  | diff i j =>
    obtain ⟨a, b, order, h1, h2, h3, h4⟩ := h
    exact ⟨a, b, h1, h2, by rw [hashCalls_select _ h4, h3.length_eq, (h3.filter _).length_eq, diff_eq]⟩
  | equal i j =>
    obtain ⟨a, b, order, h1, h2, h3, h4⟩ := h
    refine ⟨a, b, h1, h2, ?_⟩
    split at h4
    · rename_i he
      obtain ⟨j1, j2⟩ := hashCalls_all _ h4
      refine ⟨by rw [← h3.length_eq]; exact j1, fun hne => absurd he hne, fun heq _ => ?_⟩
      rw [← h3.length_eq]
      refine j2 fun e hin => ?_
      simp only [Spec.equal, Bool.and_eq_true, List.all_eq_true] at heq
      exact heq.1 e (h3.mem_iff.1 hin)
    · rename_i hne
      subst h4
      exact ⟨Nat.zero_le _, fun _ => rfl, fun _ he => absurd he hne⟩
  | create f c => exact h
  | readonly i f => exact h
  | destroy i => exact h
  | count i => exact h
  | stats i => exact h

/-- hash values modulo 3, numbers compared by subtraction -/
def env3 : FnEnv Nat := { hash := fun _ => HashHeap.mod3.hash, cmp := fun _ => HashHeap.mod3.cmp }

/-- two sets, {4, 1, 2} and {7, 4}, then one call -/
def prog3 (o : Spec.SetOp Nat) : Res ((Int × List (Asked Nat))) :=
  (Spec.run (setStep env3) Store.empty [.create 0 0, .create 0 0, .insert 0 2, .insert 0 1, .insert 0 4, .insert 1 4, .insert 1 7]).bind fun r =>
    (setStepA env3 r.1 o).bind fun q => .ok (q.1.2, q.2)

/-- the hypotheses are met: the sets {4, 1, 2} and {7, 4}, where 1, 4 and 7 share a slot; the result of `set_inter` is the third set -/
example : prog3 (.inter 0 1) = .ok (2, [.hash 4, .compare 7 4, .compare 4 4, .hash 4, .hash 1, .compare 7 1, .compare 4 1, .hash 2]) := by
  decide +kernel

example : prog3 (.del 0 1) = .ok (0, [.hash 7, .compare 4 7, .compare 1 7, .hash 4, .compare 4 4]) := by decide +kernel

/-- `set_equal` of sets of different sizes asks nothing -/
example : prog3 (.equal 0 1) = .ok (0, []) := by decide +kernel

theorem env3_lawful : (env3.ops 0 0).Lawful := HashHeap.mod3_lawful

end Maa.Set
