import Verif.Model.Set
import Verif.Spec.Sets
import Verif.Spec.Table
import Verif.Lemmas.Set
import Verif.Lemmas.Load
import Verif.Lemmas.Iter

/-! # Properties C10 (sets), C11, C12, C13, C14, C15, C16: maa/set.c

`Reachable env s`: a program holds `s` after some history of set calls (creation with lawful
functions, any interleaving over any number of sets).  `MemberIs env s x v`: `set_member(s,x)`
returns `v`.  The statements about single calls speak only of return values and of `set_member` on
the sets before and after. -/

namespace Maa.Set

variable {K : Type} {env : FnEnv K}

/-! ## Concrete instance used by the examples -/

/-- Function number 0: numbers hashed modulo 3 (collisions); any other number: the identity hash. -/
def exEnv : FnEnv Nat :=
  { hash := fun f n => if f = 0 then n % 3 else n, cmp := fun _ a b => (a : Int) - b }

theorem exEnv_lawful (h c : Nat) : (exEnv.ops h c).Lawful := by
  constructor <;> simp only [exEnv, FnEnv.ops] <;> intros
  · omega
  · omega
  · omega
  · rename_i a b hab
    have : a = b := by omega
    rw [this]

/-- A history over three sets with a union, used by the examples. -/
def exHist : List (Spec.SetOp Nat) :=
  [.create 0 0, .insert 0 1, .insert 0 4, .insert 0 2, .create 0 0, .insert 1 4, .insert 1 7]

theorem exHist_ok : ∀ o ∈ exHist, OkOp exEnv o := by
  intro o ho
  refine ⟨?_, fun h c _ => exEnv_lawful h c⟩
  simp only [exHist, List.mem_cons, List.not_mem_nil, or_false] at ho
  rcases ho with rfl | rfl | rfl | rfl | rfl | rfl | rfl <;> trivial

/-! ## Histories -/

theorem empty_rep : StRep env (Store.empty (K := K)) Spec.AStore.empty :=
  ⟨rfl, fun _ => trivial⟩

theorem history_sim (hist : List (Spec.SetOp K)) (ok : ∀ o ∈ hist, OkOp env o) :
    Spec.ResRel (fun c b => c.2 = b.2 ∧ StRep env c.1 b.1)
      (Spec.run (setStep env) Store.empty hist)
      (Spec.run (Spec.setStep (eqOf env)) Spec.AStore.empty hist) :=
  Spec.run_sim_of (OkOp env) (StRep env) _ _ (fun σ α o ho h => step_sim σ α o ho h) _ _ hist ok
    empty_rep

/-- C11 (and, through the specification, C12–C15 for whole histories): for every history of set calls
over any number of sets — create, insert, delete, member, read-only, destroy, count, stats, add,
del, union, inter, diff, equal in any order — every returned value, and whether and where the
program ends, is that of mathematical sets (Spec/Sets.lean). -/
theorem C11_sets_are_mathematical_sets (env : FnEnv K) (hist : List (Spec.SetOp K))
    (ok : ∀ o ∈ hist, OkOp env o) :
    Spec.observe (Spec.run (setStep env) Store.empty hist) =
      Spec.observe (Spec.run (Spec.setStep (eqOf env)) Spec.AStore.empty hist) :=
  (history_sim hist ok).observe

/-- What the mathematical sets of the specification mean: membership after insert, delete, union,
intersection, difference; `equal` is having the same members. -/
theorem C11_spec_is_set (ops : KeyOps K) (law : ops.Lawful) (a b : List K) (e x : K) :
    (Spec.mem (eqv ops) (Spec.sinsert (eqv ops) a e) x = (eqv ops e x || Spec.mem (eqv ops) a x)) ∧
    (Spec.mem (eqv ops) (Spec.sdelete (eqv ops) a e) x = (!eqv ops e x && Spec.mem (eqv ops) a x)) ∧
    (Spec.mem (eqv ops) (Spec.union (eqv ops) a b) x =
      (Spec.mem (eqv ops) a x || Spec.mem (eqv ops) b x)) ∧
    (Spec.mem (eqv ops) (Spec.inter (eqv ops) a b) x =
      (Spec.mem (eqv ops) a x && Spec.mem (eqv ops) b x)) ∧
    (Spec.mem (eqv ops) (Spec.diff (eqv ops) a b) x =
      (Spec.mem (eqv ops) a x && !Spec.mem (eqv ops) b x)) ∧
    (Spec.equal (eqv ops) a b = true ↔ ∀ y, Spec.mem (eqv ops) a y = Spec.mem (eqv ops) b y) := by
  have hrefl : ∀ x, eqv ops x x = true := fun x => by simp [eqv, law.refl]
  refine ⟨?_, ?_, ?_, ?_, ?_, ?_⟩
  · unfold Spec.sinsert
    by_cases h : Spec.mem (eqv ops) a e = true
    · rw [if_pos h]
      by_cases hx : eqv ops e x = true
      · rw [hx, ← mem_congr law a hx, h]; rfl
      · simp only [Bool.not_eq_true] at hx; rw [hx]; rfl
    · rw [if_neg h]; simp [Spec.mem]
  · rw [Bool.eq_iff_iff, mem_iff]
    simp only [Spec.sdelete, List.mem_filter, Bool.and_eq_true, Bool.not_eq_true', mem_iff]
    constructor
    · rintro ⟨y, ⟨h1, h2⟩, h3⟩
      refine ⟨?_, y, h1, h3⟩
      by_contra hc
      have hc : eqv ops e x = true := by simpa using hc
      rw [Tab.eqv_trans law h3 (by rw [Tab.eqv_symm law]; exact hc)] at h2
      simp at h2
    · rintro ⟨h0, y, h1, h3⟩
      refine ⟨y, ⟨h1, ?_⟩, h3⟩
      by_contra hc
      have hc : eqv ops y e = true := by simpa using hc
      rw [Tab.eqv_trans law (by rw [Tab.eqv_symm law]; exact hc) h3] at h0
      simp at h0
  · rw [Bool.eq_iff_iff]
    simp only [Bool.or_eq_true, mem_iff, Spec.union, List.mem_append, List.mem_filter,
      Bool.not_eq_true']
    constructor
    · rintro ⟨y, h1 | ⟨h1, -⟩, h2⟩
      · exact Or.inl ⟨y, h1, h2⟩
      · exact Or.inr ⟨y, h1, h2⟩
    · rintro (⟨y, h1, h2⟩ | ⟨y, h1, h2⟩)
      · exact ⟨y, Or.inl h1, h2⟩
      · by_cases hm : Spec.mem (eqv ops) a y = true
        · obtain ⟨z, h3, h4⟩ := (mem_iff _ _ _).1 hm
          exact ⟨z, Or.inl h3, Tab.eqv_trans law h4 h2⟩
        · exact ⟨y, Or.inr ⟨h1, by simpa using hm⟩, h2⟩
  · rw [Bool.eq_iff_iff]
    simp only [Bool.and_eq_true, mem_iff, Spec.inter, List.mem_filter]
    constructor
    · rintro ⟨y, ⟨h1, z, h2, h3⟩, h4⟩
      exact ⟨⟨y, h1, h4⟩, z, h2, Tab.eqv_trans law h3 h4⟩
    · rintro ⟨⟨y, h1, h4⟩, z, h2, h3⟩
      exact ⟨y, ⟨h1, z, h2, Tab.eqv_trans law h3 (by rw [Tab.eqv_symm law]; exact h4)⟩, h4⟩
  · have hc : ∀ y, eqv ops y x = true → Spec.mem (eqv ops) b y = Spec.mem (eqv ops) b x :=
      fun y h => mem_congr law b h
    rw [Bool.eq_iff_iff]
    simp only [Bool.and_eq_true, Spec.diff]
    rw [mem_iff, mem_iff]
    simp only [List.mem_filter]
    constructor
    · rintro ⟨y, ⟨h1, h2⟩, h4⟩
      exact ⟨⟨y, h1, h4⟩, by rw [← hc y h4]; exact h2⟩
    · rintro ⟨⟨y, h1, h4⟩, h2⟩
      exact ⟨y, ⟨h1, by rw [hc y h4]; exact h2⟩, h4⟩
  · simp only [Spec.equal, Bool.and_eq_true, List.all_eq_true]
    constructor
    · rintro ⟨h1, h2⟩ y
      rw [Bool.eq_iff_iff, mem_iff, mem_iff]
      constructor
      · rintro ⟨z, h3, h4⟩
        have := h1 z h3
        rw [mem_congr law b h4] at this
        exact (mem_iff _ _ _).1 this
      · rintro ⟨z, h3, h4⟩
        have := h2 z h3
        rw [mem_congr law a h4] at this
        exact (mem_iff _ _ _).1 this
    · intro h
      constructor
      · intro y hy
        rw [← h y, mem_iff]; exact ⟨y, hy, hrefl y⟩
      · intro y hy
        rw [h y, mem_iff]; exact ⟨y, hy, hrefl y⟩

/-- Non-vacuity: the example history covers colliding elements and two sets and runs to its end. -/
example : Spec.observe (Spec.run (setStep exEnv) Store.empty
      (exHist ++ [.union 0 1, .member 2 7, .member 2 5, .count 2, .equal 0 1, .diff 0 1, .count 3])) =
    .ok [0, 0, 0, 0, 1, 0, 0, 2, 1, 0, 4, 0, 3, 2] := by
  rw [C11_sets_are_mathematical_sets]
  · rfl
  · intro o ho
    rcases List.mem_append.1 ho with ho | ho
    · exact exHist_ok o ho
    · refine ⟨?_, fun h c _ => exEnv_lawful h c⟩
      simp only [List.mem_cons, List.not_mem_nil, or_false] at ho
      rcases ho with rfl | rfl | rfl | rfl | rfl | rfl | rfl <;> trivial

/-! ## Single calls in any reachable state -/

theorem Reachable.srep {s : SetObj K} (h : Reachable env s) : ∃ a, SRep env s a := by
  obtain ⟨hist, σ, outs, i, ok, hr, hi⟩ := h
  have hs := history_sim hist ok
  rw [hr] at hs
  cases ha : Spec.run (Spec.setStep (eqOf env)) Spec.AStore.empty hist <;> rw [ha] at hs <;>
    simp only [Spec.ResRel] at hs
  rename_i b
  have := hs.2.objs i
  rw [hi] at this
  cases hb : b.1.objs i with
  | none => rw [hb] at this; exact this.elim
  | some a => rw [hb] at this; exact ⟨a, this⟩

theorem memberIs_iff {s : SetObj K} {a : Spec.ASet K} (h : SRep env s a) (x : K) (v : Int) :
    MemberIs env s x v ↔ v = if Spec.mem (eqv (s.ops env)) a.elems x then 1 else 0 := by
  obtain ⟨s', h1, -⟩ := member_srep h x
  constructor
  · rintro ⟨s'', h2⟩
    rw [h1] at h2
    simp only [Res.ok.injEq, Prod.mk.injEq] at h2
    exact h2.2.symm
  · rintro rfl; exact ⟨s', h1⟩

theorem memberIs_one {s : SetObj K} {a : Spec.ASet K} (h : SRep env s a) (x : K) :
    MemberIs env s x 1 ↔ Spec.mem (eqv (s.ops env)) a.elems x = true := by
  rw [memberIs_iff h]
  cases Spec.mem (eqv (s.ops env)) a.elems x <;> simp

/-- `set_member` answers 0 or 1 in every reachable state, never both and never anything else. -/
theorem C11_member_total (s : SetObj K) (h : Reachable env s) (x : K) :
    (MemberIs env s x 1 ∧ ∀ v, MemberIs env s x v → v = 1) ∨
    (MemberIs env s x 0 ∧ ∀ v, MemberIs env s x v → v = 0) := by
  obtain ⟨a, ha⟩ := h.srep
  simp only [memberIs_iff ha]
  cases Spec.mem (eqv (s.ops env)) a.elems x <;> simp

theorem ops_of {s s' : SetObj K} {a a' : Spec.ASet K} (h : SRep env s a) (h' : SRep env s' a')
    (e1 : a'.hashFn = a.hashFn) (e2 : a'.cmpFn = a.cmpFn) : s'.ops env = s.ops env := by
  simp [SetObj.ops, h.hfn, h.cfn, h'.hfn, h'.cfn, e1, e2]

/-- C12, union: the result exists, is writable, and its members are the members of either operand; the
operands are only read (the model of `set_union` cannot change them). -/
theorem C12_union (s1 s2 : SetObj K) (h1 : Reachable env s1) (h2 : Reachable env s2)
    (hf : s1.hashFn = s2.hashFn) (hc : s1.cmpFn = s2.cmpFn) :
    ∃ r, setUnion env s1 s2 = .ok r ∧ r.tab.readonly = 0 ∧
      ∀ x, MemberIs env r x 1 ↔ MemberIs env s1 x 1 ∨ MemberIs env s2 x 1 := by
  obtain ⟨a, ha⟩ := h1.srep
  obtain ⟨b, hb⟩ := h2.srep
  have hs : sameFns s1 s2 = true := by simp [sameFns, hf, hc]
  obtain ⟨r, e1, e2⟩ := union_srep ha hb hs
  refine ⟨r, e1, e2.ro, fun x => ?_⟩
  rw [memberIs_one ha, memberIs_one hb, memberIs_one e2, ops_of ha e2 rfl rfl, ← ops_eq hs,
    (C11_spec_is_set _ ha.law a.elems b.elems x x).2.2.1, Bool.or_eq_true]

/-- C12, intersection; the second operand keeps its members and its flag (its counters change, so it
is threaded); the first is only read. -/
theorem C12_inter (s1 s2 : SetObj K) (h1 : Reachable env s1) (h2 : Reachable env s2)
    (hf : s1.hashFn = s2.hashFn) (hc : s1.cmpFn = s2.cmpFn) :
    ∃ r s2', setInter env s1 s2 = .ok (r, s2') ∧ r.tab.readonly = 0 ∧
      (∀ x, MemberIs env r x 1 ↔ MemberIs env s1 x 1 ∧ MemberIs env s2 x 1) ∧
      s2'.tab.readonly = s2.tab.readonly ∧
      (∀ x v, MemberIs env s2' x v ↔ MemberIs env s2 x v) := by
  obtain ⟨a, ha⟩ := h1.srep
  obtain ⟨b, hb⟩ := h2.srep
  have hs : sameFns s1 s2 = true := by simp [sameFns, hf, hc]
  obtain ⟨r, s2', e1, e2, e3⟩ := select_srep true ha hb hs
  rw [← inter_eq] at e2
  refine ⟨r, s2', e1, e2.ro, fun x => ?_, e3.ro.trans hb.ro.symm, fun x v => ?_⟩
  · rw [memberIs_one ha, memberIs_one hb, memberIs_one e2, ops_of ha e2 rfl rfl, ← ops_eq hs,
      (C11_spec_is_set _ ha.law a.elems b.elems x x).2.2.2.1, Bool.and_eq_true]
  · rw [memberIs_iff hb, memberIs_iff e3, ops_of hb e3 rfl rfl]

/-- C12, difference. -/
theorem C12_diff (s1 s2 : SetObj K) (h1 : Reachable env s1) (h2 : Reachable env s2)
    (hf : s1.hashFn = s2.hashFn) (hc : s1.cmpFn = s2.cmpFn) :
    ∃ r s2', setDiff env s1 s2 = .ok (r, s2') ∧ r.tab.readonly = 0 ∧
      (∀ x, MemberIs env r x 1 ↔ MemberIs env s1 x 1 ∧ ¬ MemberIs env s2 x 1) ∧
      s2'.tab.readonly = s2.tab.readonly ∧
      (∀ x v, MemberIs env s2' x v ↔ MemberIs env s2 x v) := by
  obtain ⟨a, ha⟩ := h1.srep
  obtain ⟨b, hb⟩ := h2.srep
  have hs : sameFns s1 s2 = true := by simp [sameFns, hf, hc]
  obtain ⟨r, s2', e1, e2, e3⟩ := select_srep false ha hb hs
  rw [← diff_eq] at e2
  refine ⟨r, s2', e1, e2.ro, fun x => ?_, e3.ro.trans hb.ro.symm, fun x v => ?_⟩
  · rw [memberIs_one ha, memberIs_one hb, memberIs_one e2, ops_of ha e2 rfl rfl, ← ops_eq hs,
      (C11_spec_is_set _ ha.law a.elems b.elems x x).2.2.2.2.1, Bool.and_eq_true, Bool.not_eq_true',
      Bool.not_eq_true]
  · rw [memberIs_iff hb, memberIs_iff e3, ops_of hb e3 rfl rfl]

/-- C12: with different hash or compare functions every binary operation ends the program. -/
theorem C12_different_functions (s1 s2 : SetObj K)
    (h : s1.hashFn ≠ s2.hashFn ∨ s1.cmpFn ≠ s2.cmpFn) :
    setUnion env s1 s2 = .fatal ∧ setInter env s1 s2 = .fatal ∧ setDiff env s1 s2 = .fatal ∧
    setAdd env s1 s2 = .fatal ∧ setDel env s1 s2 = .fatal ∧ setEqual env s1 s2 = .fatal := by
  have hs : sameFns s1 s2 = false := by
    simp only [sameFns, Bool.and_eq_false_iff, beq_eq_false_iff_ne]; exact h
  simp [setUnion, setInter, setDiff, setSelect, setAdd, setDel, setEqual, hs]

/-- C13, add, for two different sets (`s2` is only read by the model).  Missing from the full
property: `set_add(s,s)`, where the loop walks chains that insert's resizing frees; see
Props/HashHeap.lean. -/
theorem C13_add_partial (s1 s2 : SetObj K) (h1 : Reachable env s1) (h2 : Reachable env s2)
    (hf : s1.hashFn = s2.hashFn) (hc : s1.cmpFn = s2.cmpFn) (hro : s1.tab.readonly = 0) :
    ∃ r, setAdd env s1 s2 = .ok r ∧ r.tab.readonly = 0 ∧
      ∀ x, MemberIs env r x 1 ↔ MemberIs env s1 x 1 ∨ MemberIs env s2 x 1 := by
  obtain ⟨a, ha⟩ := h1.srep
  obtain ⟨b, hb⟩ := h2.srep
  have hs : sameFns s1 s2 = true := by simp [sameFns, hf, hc]
  have h0 : a.readonly = 0 := ha.ro.symm.trans hro
  obtain ⟨r, e1, e2⟩ := (add_srep ha hb hs).2 (fun hh => hh.1 h0)
  refine ⟨r, e1, e2.ro.trans h0, fun x => ?_⟩
  rw [memberIs_one ha, memberIs_one hb, memberIs_one e2, ops_of ha e2 rfl rfl, ← ops_eq hs,
    (C11_spec_is_set _ ha.law a.elems b.elems x x).2.2.1, Bool.or_eq_true]

/-- C13, del, for two different sets. -/
theorem C13_del_partial (s1 s2 : SetObj K) (h1 : Reachable env s1) (h2 : Reachable env s2)
    (hf : s1.hashFn = s2.hashFn) (hc : s1.cmpFn = s2.cmpFn) (hro : s1.tab.readonly = 0) :
    ∃ r, setDel env s1 s2 = .ok r ∧ r.tab.readonly = 0 ∧
      ∀ x, MemberIs env r x 1 ↔ MemberIs env s1 x 1 ∧ ¬ MemberIs env s2 x 1 := by
  obtain ⟨a, ha⟩ := h1.srep
  obtain ⟨b, hb⟩ := h2.srep
  have hs : sameFns s1 s2 = true := by simp [sameFns, hf, hc]
  have h0 : a.readonly = 0 := ha.ro.symm.trans hro
  obtain ⟨r, e1, e2⟩ := (del_srep ha hb hs).2 (fun hh => hh.1 h0)
  refine ⟨r, e1, e2.ro.trans h0, fun x => ?_⟩
  rw [memberIs_one ha, memberIs_one hb, memberIs_one e2, ops_of ha e2 rfl rfl, ← ops_eq hs,
    (C11_spec_is_set _ ha.law a.elems b.elems x x).2.2.2.2.1, Bool.and_eq_true, Bool.not_eq_true',
    Bool.not_eq_true]

/-- C14: `set_equal` answers 1 exactly when the two sets have the same members, 0 otherwise, and
changes neither set's members nor flags (the first set is only read). -/
theorem C14_equal (s1 s2 : SetObj K) (h1 : Reachable env s1) (h2 : Reachable env s2)
    (hf : s1.hashFn = s2.hashFn) (hc : s1.cmpFn = s2.cmpFn) :
    ∃ s2' v, setEqual env s1 s2 = .ok (s2', v) ∧ (v = 1 ∨ v = 0) ∧
      (v = 1 ↔ ∀ x, MemberIs env s1 x 1 ↔ MemberIs env s2 x 1) ∧
      s2'.tab.readonly = s2.tab.readonly ∧
      (∀ x w, MemberIs env s2' x w ↔ MemberIs env s2 x w) := by
  obtain ⟨a, ha⟩ := h1.srep
  obtain ⟨b, hb⟩ := h2.srep
  have hs : sameFns s1 s2 = true := by simp [sameFns, hf, hc]
  obtain ⟨s2', e1, e3⟩ := equal_srep ha hb hs
  refine ⟨s2', _, e1, ?_, ?_, e3.ro.trans hb.ro.symm, fun x v => ?_⟩
  · split <;> simp
  · have := (C11_spec_is_set _ ha.law a.elems b.elems)
    simp only [memberIs_one ha, memberIs_one hb, ← ops_eq hs]
    by_cases he : Spec.equal (eqv (s1.ops env)) a.elems b.elems = true
    · rw [if_pos he]
      simp only [true_iff]
      intro x
      rw [(this x x).2.2.2.2.2.1 he x]
    · rw [if_neg he]
      simp only [Int.zero_ne_one, false_iff]
      intro hall
      refine he ?_
      by_cases hne : Nonempty K
      · obtain ⟨x⟩ := hne
        rw [(this x x).2.2.2.2.2]
        intro y
        rw [Bool.eq_iff_iff]; exact hall y
      · simp only [Spec.equal, Bool.and_eq_true, List.all_eq_true]
        exact ⟨fun y _ => absurd ⟨y⟩ hne, fun y _ => absurd ⟨y⟩ hne⟩
  · rw [memberIs_iff hb, memberIs_iff e3, ops_of hb e3 rfl rfl]

/-- `l` lists the members of `s`, each exactly once up to the set's comparison. -/
def Lists (env : FnEnv K) (s : SetObj K) (l : List K) : Prop :=
  l.Pairwise (fun x y => env.cmp s.cmpFn x y ≠ 0) ∧
  ∀ x, MemberIs env s x 1 ↔ ∃ e ∈ l, env.cmp s.cmpFn e x = 0

theorem lists_of_srep {s : SetObj K} {a : Spec.ASet K} (h : SRep env s a) : Lists env s a.elems := by
  constructor
  · have := h.distinct
    refine this.imp ?_
    intro x y hxy
    simpa [eqv, SetObj.ops, FnEnv.ops] using hxy
  · intro x
    rw [memberIs_one h, mem_iff]
    simp [eqv, SetObj.ops, FnEnv.ops]

/-- C15: in every reachable state `set_count` is the number of members; `set_get_stats` does not abort
and reports the same number. -/
theorem C15_count (s : SetObj K) (h : Reachable env s) :
    ∃ l, Lists env s l ∧ setCount s = l.length ∧
      ∃ r, setGetStats s = .ok r ∧ r.entries = l.length := by
  obtain ⟨a, ha⟩ := h.srep
  obtain ⟨r, h1, h2, -⟩ := stats_srep ha
  exact ⟨a.elems, lists_of_srep ha, by simp [setCount, ha.count], r, h1, h2⟩

/-- Any two listings of the members have the same length, so C15 determines the count. -/
theorem C15_count_determined (s : SetObj K) (h : Reachable env s) (l : List K)
    (hl : Lists env s l) : setCount s = l.length := by
  obtain ⟨a, ha⟩ := h.srep
  have hd := lists_of_srep ha
  have conv : ∀ m : List K, m.Pairwise (fun x y => env.cmp s.cmpFn x y ≠ 0) →
      SDistinct (s.ops env) m := by
    intro m hm
    refine hm.imp ?_
    intro x y hxy
    simpa [eqv, SetObj.ops, FnEnv.ops] using hxy
  have sub : ∀ m m' : List K, Lists env s m → Lists env s m' →
      ∀ x ∈ m, Spec.mem (eqv (s.ops env)) m' x = true := by
    intro m m' h1 h2 x hx
    have : MemberIs env s x 1 := (h1.2 x).2 ⟨x, hx, ha.law.refl x⟩
    obtain ⟨e, he, h3⟩ := (h2.2 x).1 this
    rw [mem_iff]
    exact ⟨e, he, by simpa [eqv, SetObj.ops, FnEnv.ops] using h3⟩
  have l1 := length_le_of_mem ha.law l a.elems (conv l hl.1) (sub l _ hl hd)
  have l2 := length_le_of_mem ha.law a.elems l (conv _ hd.1) (sub _ l hd hl)
  rw [setCount, ha.count]
  have : a.elems.length = l.length := by omega
  rw [this]

/-- C16: `set_iterate` / `set_iterate_arg` with any callback is a correct iteration over the members
(each exactly once until the callback stops it, result telling whether it stopped) and leaves the
whole set, read-only flag included, as it was. -/
theorem C16_iterate (s : SetObj K) (h : Reachable env s) {σ : Type} (f : σ → K → σ × Int) (st : σ) :
    ∃ l, Lists env s l ∧
      let r := setIterate s (Spec.recorder f) (st, [])
      Spec.IterationOf l r.2.1.2 r.2.2 ∧ setIterate s f st = (s, r.2.1.1, r.2.2) := by
  obtain ⟨a, ha⟩ := h.srep
  refine ⟨a.elems, lists_of_srep ha, ?_⟩
  unfold setIterate
  simp only
  rw [Tab.iterLoop_eq_loop (fun e => e.key) (Spec.recorder f), Tab.iterLoop_eq_loop (fun e => e.key) f]
  have hp : (elems s).Perm a.elems := ha.perm
  refine ⟨Tab.loop_iteration f st _ _ hp, ?_⟩
  rw [← Tab.loop_recorder_fst f st [] _]

/-- Non-vacuity of the single-call theorems: two reachable sets with the same functions, sharing the
element 4 and each with an element the other lacks. -/
example : ∃ s1 s2, Reachable exEnv s1 ∧ Reachable exEnv s2 ∧ s1.hashFn = s2.hashFn ∧
    s1.cmpFn = s2.cmpFn ∧ s1.tab.readonly = 0 ∧ setCount s1 = 3 ∧ setCount s2 = 2 ∧
    MemberIs exEnv s1 4 1 ∧ MemberIs exEnv s2 4 1 ∧ MemberIs exEnv s1 1 1 ∧ MemberIs exEnv s2 1 0 := by
  have hs := history_sim exHist exHist_ok
  have e : Spec.run (Spec.setStep (eqOf exEnv)) Spec.AStore.empty exHist =
    .ok (_, [0, 0, 0, 0, 1, 0, 0]) := rfl
  rw [e] at hs
  cases hr : Spec.run (setStep exEnv) Store.empty exHist <;> rw [hr] at hs <;>
    simp only [Spec.ResRel] at hs
  rename_i r
  obtain ⟨-, hst⟩ := hs
  have h0 := hst.objs 0
  have h1 := hst.objs 1
  cases hr0 : r.1.objs 0 <;> rw [hr0] at h0
  · exact h0.elim
  cases hr1 : r.1.objs 1 <;> rw [hr1] at h1
  · exact h1.elim
  rename_i s1 s2
  refine ⟨s1, s2, ⟨exHist, r.1, r.2, 0, exHist_ok, hr, hr0⟩, ⟨exHist, r.1, r.2, 1, exHist_ok, hr, hr1⟩,
    h0.hfn.trans h1.hfn.symm, h0.cfn.trans h1.cfn.symm, h0.ro, ?_, ?_, ?_, ?_, ?_, ?_⟩
  · rw [setCount, h0.count]; rfl
  · rw [setCount, h1.count]; rfl
  · rw [memberIs_iff h0, eqv_ops h0]; rfl
  · rw [memberIs_iff h1, eqv_ops h1]; rfl
  · rw [memberIs_iff h0, eqv_ops h0]; rfl
  · rw [memberIs_iff h1, eqv_ops h1]; rfl

/-! ## Load -/

open Tab (Load)

/-- every set of the store is loaded at most so far -/
def StoreLoad (σ : Store K) : Prop := ∀ i s, σ.objs i = some s → Load s.tab

theorem StoreLoad.put {σ : Store K} (h : StoreLoad σ) (i : Nat) (s : SetObj K)
    (hs : Load s.tab) : StoreLoad (σ.put i (some s)) := by
  intro j s' hj
  simp only [Store.put] at hj
  split at hj
  · simp only [Option.some.injEq] at hj; rw [← hj]; exact hs
  · exact h j s' hj

theorem StoreLoad.alloc {σ : Store K} (h : StoreLoad σ) (s : SetObj K)
    (hs : Load s.tab) : StoreLoad (σ.alloc s) := by
  intro j s' hj
  simp only [Store.alloc] at hj
  split at hj
  · simp only [Option.some.injEq] at hj; rw [← hj]; exact hs
  · exact h j s' hj

/-- no set of the store is too big -/
def Few (σ : Store K) : Prop := ∀ i s, σ.objs i = some s → s.tab.entries ≤ 715827880

theorem insertAll_mono : ∀ (l : List K) (s s' : SetObj K), insertAll env s l = .ok s' → s.tab.entries ≤ s'.tab.entries := by
  intro l
  induction l with
  | nil => intro s s' h; simp only [insertAll, Res.ok.injEq] at h; rw [h]
  | cons e l ih =>
    intro s s' h
    simp only [insertAll, setInsert] at h
    cases hi : Tab.insert (s.ops env) s.tab e () <;> rw [hi] at h <;> simp [Res.bind] at h
    rename_i r
    have e1 := Tab.insert_mono (r := r.2) hi
    have e2 := ih _ _ h
    simp only at e2
    omega

theorem insertAll_load : ∀ (l : List K) (s s' : SetObj K), Load s.tab → insertAll env s l = .ok s' → s'.tab.entries ≤ 715827880 →
    Load s'.tab := by
  intro l
  induction l with
  | nil => intro s s' hl h _; simp only [insertAll, Res.ok.injEq] at h; rw [← h]; exact hl
  | cons e l ih =>
    intro s s' hl h hm
    simp only [insertAll, setInsert] at h
    cases hi : Tab.insert (s.ops env) s.tab e () <;> rw [hi] at h <;> simp [Res.bind] at h
    rename_i r
    have e2 := insertAll_mono l _ _ h
    exact ih _ s' (Tab.insert_load hl (le_trans e2 hm) (r := r.2) hi).1 h hm

theorem deleteAll_load : ∀ (l : List K) (s s' : SetObj K), Load s.tab → deleteAll env s l = .ok s' → Load s'.tab := by
  intro l
  induction l with
  | nil => intro s s' hl h; simp only [deleteAll, Res.ok.injEq] at h; rw [← h]; exact hl
  | cons e l ih =>
    intro s s' hl h
    simp only [deleteAll, setDelete] at h
    cases hi : Tab.delete (s.ops env) s.tab e <;> rw [hi] at h <;> simp [Res.bind] at h
    rename_i r
    exact ih _ s' (Tab.delete_load hl (r := r.2) hi) h

theorem member_load {s : SetObj K} {e : K} {r : SetObj K × Int} (hl : Load s.tab) (h : setMember env s e = .ok r) : Load r.1.tab := by
  simp only [setMember] at h
  cases hr : Tab.retrieve (s.ops env) s.tab e <;> rw [hr] at h <;> simp [Res.bind] at h
  rename_i q
  rw [← h]
  exact Tab.retrieve_load hl (r := q.2) hr

theorem selectLoop_load (keep : Bool) : ∀ (l : List K) (s s2 s' s2' : SetObj K), selectLoop env keep s s2 l = .ok (s', s2') →
    s.tab.entries ≤ s'.tab.entries ∧ (Load s2.tab → Load s2'.tab) ∧ (Load s.tab → s'.tab.entries ≤ 715827880 → Load s'.tab) := by
  intro l
  induction l with
  | nil =>
    intro s s2 s' s2' h
    simp only [selectLoop, Res.ok.injEq, Prod.mk.injEq] at h
    rw [← h.1, ← h.2]
    exact ⟨le_refl _, id, fun h _ => h⟩
  | cons e l ih =>
    intro s s2 s' s2' h
    simp only [selectLoop] at h
    cases hr : setMember env s2 e <;> rw [hr] at h <;> simp only [Res.bind] at h
    case abort => simp at h
    case fatal => simp at h
    case ub => simp at h
    rename_i r
    split at h
    · simp only [setInsert] at h
      cases hi : Tab.insert (s.ops env) s.tab e () <;> rw [hi] at h <;> simp [Res.bind] at h
      rename_i q
      obtain ⟨i1, i2, i3⟩ := ih _ _ _ _ h
      have e1 := Tab.insert_mono (r := q.2) hi
      refine ⟨le_trans e1 i1, fun hl => i2 (member_load hl hr), fun hl hm => ?_⟩
      exact i3 (Tab.insert_load hl (le_trans i1 hm) (r := q.2) hi).1 hm
    · obtain ⟨i1, i2, i3⟩ := ih _ _ _ _ h
      exact ⟨i1, fun hl => i2 (member_load hl hr), i3⟩

theorem equalLoop_load : ∀ (l : List K) (s2 s2' : SetObj K) (x : Int), equalLoop env s2 l = .ok (s2', x) → Load s2.tab → Load s2'.tab := by
  intro l
  induction l with
  | nil =>
    intro s2 s2' x h hl
    simp only [equalLoop, Res.ok.injEq, Prod.mk.injEq] at h
    rw [← h.1]; exact hl
  | cons e l ih =>
    intro s2 s2' x h hl
    simp only [equalLoop] at h
    cases hr : setMember env s2 e <;> rw [hr] at h <;> simp only [Res.bind] at h
    case abort => simp at h
    case fatal => simp at h
    case ub => simp at h
    rename_i r
    have hl' := member_load hl hr
    split at h
    · simp only [Res.ok.injEq, Prod.mk.injEq] at h
      rw [← h.1]; exact hl'
    · exact ih _ _ _ h hl'

theorem create_load' {hf cf : Nat} {s : SetObj K} (h : setCreate hf cf = .ok s) : Load s.tab := by
  simp only [setCreate] at h
  cases hc : Tab.create (K := K) (D := Unit) 0 <;> rw [hc] at h <;> simp [Res.bind] at h
  rw [← h]
  exact Tab.create_load hc

theorem select_load (keep : Bool) {s1 s2 : SetObj K} {r : SetObj K × SetObj K} (hl2 : Load s2.tab)
    (h : setSelect env keep s1 s2 = .ok r) (hm : r.1.tab.entries ≤ 715827880) : Load r.1.tab ∧ Load r.2.tab := by
  unfold setSelect at h
  split at h
  · cases hc : setCreate (K := K) s1.hashFn s1.cmpFn <;> rw [hc] at h <;> simp only [Res.bind] at h <;> try simp at h
    rename_i s
    cases hs : selectLoop env keep s { s2 with tab := { s2.tab with readonly := 1 } } (elems s1) <;> rw [hs] at h <;>
      simp only [Res.bind] at h <;> try simp at h
    rename_i q
    rw [← h] at hm ⊢
    obtain ⟨-, i2, i3⟩ := selectLoop_load keep _ _ _ q.1 q.2 hs
    have l2 := i2 ⟨hl2.half, hl2.pos⟩
    exact ⟨i3 (create_load' hc) hm, ⟨l2.half, l2.pos⟩⟩
  · simp at h

theorem get_ok {σ : Store K} {i : Nat} {s : SetObj K} (h : σ.get i = .ok s) : σ.objs i = some s := by
  unfold Store.get at h
  cases ho : σ.objs i <;> rw [ho] at h <;> simp at h
  rw [h]

theorem Few.at_put {σ : Store K} {i : Nat} {s : SetObj K} (h : Few (σ.put i (some s))) : s.tab.entries ≤ 715827880 :=
  h i s (by simp [Store.put])

theorem Few.at_alloc {σ : Store K} {s : SetObj K} (h : Few (σ.alloc s)) : s.tab.entries ≤ 715827880 :=
  h σ.next s (by simp [Store.alloc])

theorem step_load (σ σ' : Store K) (o : Spec.SetOp K) (x : Int)
    (h : StoreLoad σ) (hn : Few σ') (hs : setStep env σ o = .ok (σ', x)) : StoreLoad σ' := by
  have hget : ∀ i s, σ.get i = .ok s → Load s.tab := fun i s hi => h i s (get_ok hi)
  cases o with
  | create hf cf =>
    simp only [setStep] at hs
    cases hc : setCreate (K := K) hf cf <;> rw [hc] at hs <;> simp [Res.bind] at hs
    rw [← hs.1]
    exact h.alloc _ (create_load' hc)
  | insert i e =>
    simp only [setStep] at hs
    cases hg : σ.get i <;> rw [hg] at hs <;> simp [Res.bind] at hs
    rename_i s
    simp only [setInsert] at hs
    cases hi : Tab.insert (s.ops env) s.tab e () <;> rw [hi] at hs <;> simp [Res.bind] at hs
    rename_i r
    rw [← hs.1] at hn ⊢
    exact h.put i _ (Tab.insert_load (hget i s hg) hn.at_put (r := r.2) hi).1
  | delete i e =>
    simp only [setStep] at hs
    cases hg : σ.get i <;> rw [hg] at hs <;> simp [Res.bind] at hs
    rename_i s
    simp only [setDelete] at hs
    cases hi : Tab.delete (s.ops env) s.tab e <;> rw [hi] at hs <;> simp [Res.bind] at hs
    rename_i r
    rw [← hs.1]
    exact h.put i _ (Tab.delete_load (hget i s hg) (r := r.2) hi)
  | member i e =>
    simp only [setStep] at hs
    cases hg : σ.get i <;> rw [hg] at hs <;> simp [Res.bind] at hs
    rename_i s
    simp only [setMember] at hs
    cases hi : Tab.retrieve (s.ops env) s.tab e <;> rw [hi] at hs <;> simp [Res.bind] at hs
    rename_i r
    rw [← hs.1]
    exact h.put i _ (Tab.retrieve_load (hget i s hg) (r := r.2) hi)
  | readonly i f =>
    simp only [setStep] at hs
    cases hg : σ.get i <;> rw [hg] at hs <;> simp [Res.bind] at hs
    rename_i s
    rw [← hs.1]
    have l := hget i s hg
    exact h.put i _ ⟨l.half, l.pos⟩
  | destroy i =>
    simp only [setStep] at hs
    cases hg : σ.get i <;> rw [hg] at hs <;> simp [Res.bind] at hs
    rename_i s
    cases hd : setDestroy s <;> rw [hd] at hs <;> simp at hs
    rw [← hs.1]
    intro j s' hj
    simp only [Store.put] at hj
    split at hj
    · simp at hj
    · exact h j s' hj
  | count i =>
    simp only [setStep] at hs
    cases hg : σ.get i <;> rw [hg] at hs <;> simp [Res.bind] at hs
    rw [← hs.1]; exact h
  | stats i =>
    simp only [setStep] at hs
    cases hg : σ.get i <;> rw [hg] at hs <;> simp [Res.bind] at hs
    rename_i s
    cases hd : setGetStats s <;> rw [hd] at hs <;> simp at hs
    rw [← hs.1]; exact h
  | add i j =>
    simp only [setStep] at hs
    cases hg : σ.get i <;> rw [hg] at hs <;> simp only [Res.bind] at hs <;> try simp at hs
    rename_i s1
    cases hg2 : σ.get j <;> rw [hg2] at hs <;> simp only [Res.bind] at hs <;> try simp at hs
    rename_i s2
    cases hd : setAdd env s1 s2 <;> rw [hd] at hs <;> simp at hs
    rename_i r
    rw [← hs.1] at hn ⊢
    refine h.put i _ ?_
    unfold setAdd at hd
    split at hd
    · exact insertAll_load _ _ _ (hget i s1 hg) hd hn.at_put
    · simp at hd
  | del i j =>
    simp only [setStep] at hs
    cases hg : σ.get i <;> rw [hg] at hs <;> simp only [Res.bind] at hs <;> try simp at hs
    rename_i s1
    cases hg2 : σ.get j <;> rw [hg2] at hs <;> simp only [Res.bind] at hs <;> try simp at hs
    rename_i s2
    cases hd : setDel env s1 s2 <;> rw [hd] at hs <;> simp at hs
    rename_i r
    rw [← hs.1]
    refine h.put i _ ?_
    unfold setDel at hd
    split at hd
    · exact deleteAll_load _ _ _ (hget i s1 hg) hd
    · simp at hd
  | union i j =>
    simp only [setStep] at hs
    cases hg : σ.get i <;> rw [hg] at hs <;> simp only [Res.bind] at hs <;> try simp at hs
    rename_i s1
    cases hg2 : σ.get j <;> rw [hg2] at hs <;> simp only [Res.bind] at hs <;> try simp at hs
    rename_i s2
    cases hd : setUnion env s1 s2 <;> rw [hd] at hs <;> simp at hs
    rename_i r
    rw [← hs.1] at hn ⊢
    refine h.alloc _ ?_
    unfold setUnion at hd
    split at hd
    · cases hc : setCreate (K := K) s1.hashFn s1.cmpFn <;> rw [hc] at hd <;> simp only [Res.bind] at hd <;> try simp at hd
      rename_i s
      cases h1 : insertAll env s (elems s1) <;> rw [h1] at hd <;> simp only [Res.bind] at hd <;> try simp at hd
      rename_i s'
      have e := insertAll_mono _ _ _ hd
      exact insertAll_load _ _ _ (insertAll_load _ _ _ (create_load' hc) h1 (le_trans e hn.at_alloc)) hd hn.at_alloc
    · simp at hd
  | inter i j =>
    simp only [setStep] at hs
    cases hg : σ.get i <;> rw [hg] at hs <;> simp only [Res.bind] at hs <;> try simp at hs
    rename_i s1
    cases hg2 : σ.get j <;> rw [hg2] at hs <;> simp only [Res.bind] at hs <;> try simp at hs
    rename_i s2
    cases hd : setInter env s1 s2 <;> rw [hd] at hs <;> simp at hs
    rename_i r
    rw [← hs.1] at hn ⊢
    obtain ⟨l1, l2⟩ := select_load true (hget j s2 hg2) hd hn.at_alloc
    exact (h.put j _ l2).alloc _ l1
  | diff i j =>
    simp only [setStep] at hs
    cases hg : σ.get i <;> rw [hg] at hs <;> simp only [Res.bind] at hs <;> try simp at hs
    rename_i s1
    cases hg2 : σ.get j <;> rw [hg2] at hs <;> simp only [Res.bind] at hs <;> try simp at hs
    rename_i s2
    cases hd : setDiff env s1 s2 <;> rw [hd] at hs <;> simp at hs
    rename_i r
    rw [← hs.1] at hn ⊢
    obtain ⟨l1, l2⟩ := select_load false (hget j s2 hg2) hd hn.at_alloc
    exact (h.put j _ l2).alloc _ l1
  | equal i j =>
    simp only [setStep] at hs
    cases hg : σ.get i <;> rw [hg] at hs <;> simp only [Res.bind] at hs <;> try simp at hs
    rename_i s1
    cases hg2 : σ.get j <;> rw [hg2] at hs <;> simp only [Res.bind] at hs <;> try simp at hs
    rename_i s2
    cases hd : setEqual env s1 s2 <;> rw [hd] at hs <;> simp at hs
    rename_i r
    rw [← hs.1]
    refine h.put j _ ?_
    have hl2 := hget j s2 hg2
    unfold setEqual at hd
    split at hd
    · split at hd
      · simp only [Res.ok.injEq] at hd
        rw [← hd]; exact hl2
      · simp only at hd
        cases hq : equalLoop env { s2 with tab := { s2.tab with readonly := 1 } } (elems s1) <;> rw [hq] at hd <;>
          simp only [Res.bind] at hd <;> try simp at hd
        rename_i q
        have l := equalLoop_load _ _ q.1 q.2 hq ⟨hl2.half, hl2.pos⟩
        rw [← hd]
        exact ⟨l.half, l.pos⟩
    · simp at hd

/-- C10 for sets: after any history of calls over any number of sets, during which no set had more than 715 827 880 elements,
every set has at most half its size plus one entries, and size at least 1. -/
theorem C10_set_load_bounded (env : FnEnv K) (hist : List (Spec.SetOp K)) (σ : Store K) (outs : List Int)
    (hr : Spec.run (setStep env) Store.empty hist = .ok (σ, outs))
    (few : ∀ pre, pre <+: hist → ∀ σ' outs', Spec.run (setStep env) Store.empty pre = .ok (σ', outs') →
      ∀ i s, σ'.objs i = some s → setCount s ≤ 715827880)
    (i : Nat) (s : SetObj K) (hi : σ.objs i = some s) : s.tab.entries ≤ s.tab.prime / 2 + 1 ∧ 1 ≤ s.tab.prime := by
  have hl := Spec.run_prefix_inv (setStep env) StoreLoad Few
    (fun s o s' x hP hQ hs => step_load s s' o x hP hQ hs) hist Store.empty σ outs
    (fun i s h => by simp [Store.empty] at h) hr (fun pre hp σ' outs' h j s' hj => by
      have := few pre hp σ' outs' h j s' hj
      simp only [setCount] at this
      omega) i s hi
  have a := hl.half
  have b := hl.pos
  exact ⟨by omega, b⟩

/-- Non-vacuity: two insertions and a union; no set ever has more than two elements. -/
example : (∃ σ outs, Spec.run (setStep exEnv) Store.empty [.create 0 0, .insert 0 1, .insert 0 4, .union 0 0] = .ok (σ, outs)) ∧
    ∀ pre, pre <+: [.create 0 0, .insert 0 1, .insert 0 4, .union 0 0] → ∀ σ' outs', Spec.run (setStep exEnv) Store.empty pre = .ok (σ', outs') →
      ∀ i s, σ'.objs i = some s → setCount s ≤ 715827880 := by
  have ok : ∀ o ∈ [Spec.SetOp.create 0 0, .insert 0 1, .insert 0 4, .union 0 0], OkOp exEnv o := by
    intro o ho
    refine ⟨?_, fun h c _ => exEnv_lawful h c⟩
    simp only [List.mem_cons, List.not_mem_nil, or_false] at ho
    rcases ho with rfl | rfl | rfl | rfl <;> trivial
  have spec : ∀ pre, pre <+: [Spec.SetOp.create 0 0, .insert 0 1, .insert 0 4, .union 0 0] →
      ∃ q, Spec.run (Spec.setStep (eqOf exEnv)) Spec.AStore.empty pre = .ok q ∧ ∀ i a, q.1.objs i = some a → a.elems.length ≤ 2 := by
    intro pre hp
    have : pre = [] ∨ pre = [.create 0 0] ∨ pre = [.create 0 0, .insert 0 1] ∨ pre = [.create 0 0, .insert 0 1, .insert 0 4] ∨
        pre = [.create 0 0, .insert 0 1, .insert 0 4, .union 0 0] := by
      have := (List.mem_inits _ _).2 hp
      simpa [List.inits] using this
    rcases this with rfl | rfl | rfl | rfl | rfl
    all_goals
      refine ⟨_, rfl, fun i a h => ?_⟩
      have ha : i = 0 ∨ i = 1 ∨ ∃ j, i = j + 2 := by
        rcases i with _ | _ | j
        · exact .inl rfl
        · exact .inr (.inl rfl)
        · exact .inr (.inr ⟨j, rfl⟩)
      simp only [Spec.AStore.put, Spec.AStore.alloc, Spec.AStore.empty] at h
      rcases ha with rfl | rfl | ⟨j, rfl⟩ <;> simp at h <;> (try rw [← h]; decide)
  constructor
  · have hs := history_sim _ ok
    obtain ⟨q, hq, -⟩ := spec _ (List.prefix_refl _)
    rw [hq] at hs
    cases hr : Spec.run (setStep exEnv) Store.empty [.create 0 0, .insert 0 1, .insert 0 4, .union 0 0] with
    | ok r => exact ⟨r.1, r.2, rfl⟩
    | _ => rw [hr] at hs; exact absurd hs (by simp [Spec.ResRel])
  · intro pre hp σ' outs' hr i s hi
    have hs := history_sim pre (fun o ho => ok o (hp.subset ho))
    obtain ⟨q, hq, hl⟩ := spec pre hp
    rw [hr, hq] at hs
    have h2 := hs.2.2 i
    rw [hi] at h2
    cases ho : q.1.objs i with
    | none => rw [ho] at h2; exact absurd h2 (by simp)
    | some a =>
      rw [ho] at h2
      have h3 : SRep exEnv s a := h2
      have e0 := h3.rep.inv.count
      have e1 := h3.rep.perm.length_eq
      have e2 := hl i a ho
      simp only [Tab.pairsOf, List.length_map] at e1
      simp only [setCount]
      omega

end Maa.Set
