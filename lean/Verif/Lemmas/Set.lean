import Verif.Model.Set
import Verif.Spec.Sets
import Verif.Spec.Run
import Verif.Lemmas.Tab

namespace Maa.Set

variable {K : Type}

open Tab (Rep Inv)

/-- Elements of a list pairwise inequivalent. -/
def SDistinct (ops : KeyOps K) (l : List K) : Prop := l.Pairwise (fun a b => eqv ops a b = false)

/-- A set object represents an abstract set. -/
structure SRep (env : FnEnv K) (s : SetObj K) (a : Spec.ASet K) : Prop where
  law : (s.ops env).Lawful
  rep : Rep (s.ops env) s.tab (a.elems.map fun k => (k, ()))
  ro : s.tab.readonly = a.readonly
  hfn : s.hashFn = a.hashFn
  cfn : s.cmpFn = a.cmpFn

section lists
variable {ops : KeyOps K}

theorem mem_find (eq : K → K → Bool) (l : List K) (x : K) :
    Spec.mem eq l x = (Spec.find eq (l.map fun k => (k, ())) x).isSome := by
  rw [Tab.find_isSome, List.any_map]; rfl

theorem mem_perm (eq : K → K → Bool) {l l' : List K} (h : l.Perm l') (x : K) :
    Spec.mem eq l x = Spec.mem eq l' x := h.any_eq

theorem mem_iff (eq : K → K → Bool) (l : List K) (x : K) :
    Spec.mem eq l x = true ↔ ∃ e ∈ l, eq e x = true := by simp [Spec.mem]

theorem mem_congr (law : ops.Lawful) (l : List K) {x y : K} (h : eqv ops x y = true) :
    Spec.mem (eqv ops) l x = Spec.mem (eqv ops) l y := by
  rw [Bool.eq_iff_iff, mem_iff, mem_iff]
  constructor
  · rintro ⟨e, h1, h2⟩; exact ⟨e, h1, Tab.eqv_trans law h2 h⟩
  · rintro ⟨e, h1, h2⟩
    exact ⟨e, h1, Tab.eqv_trans law h2 (by rw [Tab.eqv_symm law]; exact h)⟩

theorem insert_map (eq : K → K → Bool) (l : List K) (x : K) :
    Spec.insert eq (l.map fun k => (k, ())) x () =
      ((Spec.sinsert eq l x).map fun k => (k, ()), if Spec.mem eq l x then 1 else 0) := by
  unfold Spec.insert Spec.sinsert
  have := mem_find eq l x
  cases hf : Spec.find eq (l.map fun k => (k, ())) x <;> rw [hf] at this <;> simp at this <;>
    simp [this]

theorem delete_map (eq : K → K → Bool) (l : List K) (x : K) :
    Spec.delete eq (l.map fun k => (k, ())) x =
      ((Spec.sdelete eq l x).map fun k => (k, ()), if Spec.mem eq l x then 0 else 1) := by
  unfold Spec.delete Spec.sdelete
  have hm := mem_find eq l x
  cases hf : Spec.find eq (l.map fun k => (k, ())) x with
  | some u =>
    rw [hf] at hm
    simp at hm
    rw [List.filter_map]
    simp [hm, Function.comp_def]
  | none =>
    rw [hf] at hm
    simp at hm
    have : l.filter (fun e => !eq e x) = l := by
      rw [List.filter_eq_self]
      intro e he
      simp only [Spec.mem, List.any_eq_false] at hm
      simpa using hm e he
    simp [hm, this]

theorem sdistinct_perm (law : ops.Lawful) {l l' : List K} (h : l.Perm l') :
    SDistinct ops l ↔ SDistinct ops l' :=
  h.pairwise_iff (fun {a b} hab => by rw [Tab.eqv_symm law]; exact hab)

theorem foldl_sinsert (_law : ops.Lawful) (l a : List K) (hl : SDistinct ops l) :
    (l.foldl (Spec.sinsert (eqv ops)) a).Perm (a ++ l.filter (fun e => !Spec.mem (eqv ops) a e)) := by
  induction l generalizing a with
  | nil => simp
  | cons x l ih =>
    rw [SDistinct, List.pairwise_cons] at hl
    simp only [List.foldl_cons]
    refine (ih _ hl.2).trans ?_
    unfold Spec.sinsert
    by_cases hx : Spec.mem (eqv ops) a x = true
    · simp [hx]
    · simp only [Bool.not_eq_true] at hx
      have hf : l.filter (fun e => !Spec.mem (eqv ops) (x :: a) e) =
          l.filter (fun e => !Spec.mem (eqv ops) a e) := by
        apply List.filter_congr
        intro y hy
        simp [Spec.mem, hl.1 y hy]
      simp only [hx, Bool.false_eq_true, if_false, hf, List.filter_cons, Bool.not_false, if_true]
      simp only [List.cons_append]
      exact List.perm_middle.symm

theorem foldl_sdelete (law : ops.Lawful) (l a : List K) :
    l.foldl (Spec.sdelete (eqv ops)) a = a.filter (fun e => !Spec.mem (eqv ops) l e) := by
  induction l generalizing a with
  | nil => simp [Spec.mem]
  | cons x l ih =>
    simp only [List.foldl_cons, ih, Spec.sdelete, List.filter_filter]
    apply List.filter_congr
    intro e _
    simp only [Spec.mem, List.any_cons, Bool.not_or]
    rw [Tab.eqv_symm law e x]
    rw [Bool.and_comm]

theorem length_le_of_mem (law : ops.Lawful) (a b : List K) (ha : SDistinct ops a)
    (h : ∀ x ∈ a, Spec.mem (eqv ops) b x = true) : a.length ≤ b.length := by
  induction a generalizing b with
  | nil => simp
  | cons x a ih =>
    rw [SDistinct, List.pairwise_cons] at ha
    have hlt : (Spec.sdelete (eqv ops) b x).length < b.length := by
      obtain ⟨e, h1, h2⟩ := (mem_iff _ _ _).1 (h x (by simp))
      unfold Spec.sdelete
      by_contra hc
      have := List.length_filter_le (fun e => !eqv ops e x) b
      have heq : b.filter (fun e => !eqv ops e x) = b :=
        (List.filter_sublist).eq_of_length (by omega)
      rw [List.filter_eq_self] at heq
      have := heq e h1
      simp [h2] at this
    have := ih (Spec.sdelete (eqv ops) b x) ha.2 (by
      intro y hy
      obtain ⟨e, h1, h2⟩ := (mem_iff _ _ _).1 (h y (by simp [hy]))
      rw [mem_iff]
      refine ⟨e, ?_, h2⟩
      simp only [Spec.sdelete, List.mem_filter]
      refine ⟨h1, ?_⟩
      by_contra hc
      have hc : eqv ops e x = true := by simpa using hc
      have h3 := ha.1 y hy
      rw [Tab.eqv_trans law (by rw [Tab.eqv_symm law]; exact hc) h2] at h3
      simp at h3)
    simp only [List.length_cons]
    omega

/-- pigeonhole: same size and inclusion give the converse inclusion -/
theorem equal_of_length (law : ops.Lawful) (a b : List K) (ha : SDistinct ops a)
    (hlen : a.length = b.length) (h : ∀ x ∈ a, Spec.mem (eqv ops) b x = true) :
    ∀ y ∈ b, Spec.mem (eqv ops) a y = true := by
  intro y hy
  by_contra hc
  have hd : SDistinct ops (y :: a) := by
    rw [SDistinct, List.pairwise_cons]
    refine ⟨?_, ha⟩
    intro x hx
    rw [Tab.eqv_symm law]
    simp only [Bool.not_eq_true] at hc
    simp only [Spec.mem, List.any_eq_false] at hc
    simpa using hc x hx
  have := length_le_of_mem law (y :: a) b hd (by
    intro x hx
    rcases List.mem_cons.1 hx with rfl | hx
    · rw [mem_iff]; exact ⟨x, hy, by simp [eqv, law.refl]⟩
    · exact h x hx)
  simp at this
  omega

end lists

variable {env : FnEnv K}

theorem SRep.perm {s : SetObj K} {a : Spec.ASet K} (h : SRep env s a) : (elems s).Perm a.elems := by
  have := h.rep.perm.map Prod.fst
  simp only [Tab.pairsOf, List.map_map, Function.comp_def] at this
  simpa [elems] using this

theorem SRep.distinct {s : SetObj K} {a : Spec.ASet K} (h : SRep env s a) :
    SDistinct (s.ops env) a.elems := by
  have := h.rep.spec_distinct h.law
  rw [Spec.Distinct, List.pairwise_map] at this
  exact this

theorem SRep.elems_distinct {s : SetObj K} {a : Spec.ASet K} (h : SRep env s a) :
    SDistinct (s.ops env) (elems s) := (sdistinct_perm h.law h.perm).2 h.distinct

/-- replace the abstract list by a permutation of it -/
theorem SRep.of_perm {s : SetObj K} {a : Spec.ASet K} (h : SRep env s a) {l : List K}
    (hp : a.elems.Perm l) : SRep env s { a with elems := l } :=
  ⟨h.law, ⟨h.rep.inv, h.rep.perm.trans (hp.map _)⟩, h.ro, h.hfn, h.cfn⟩

theorem SRep.count {s : SetObj K} {a : Spec.ASet K} (h : SRep env s a) :
    s.tab.entries = a.elems.length := by
  have := h.perm.length_eq
  rw [h.rep.inv.count, ← this]
  simp [elems]

theorem create_srep (h c : Nat) (law : (env.ops h c).Lawful) :
    ∃ s, setCreate (K := K) h c = .ok s ∧
      SRep env s { elems := [], readonly := 0, hashFn := h, cmpFn := c } := by
  obtain ⟨t, h1, h2, -, h3, h4, h5, -⟩ := Tab.create_ok (K := K) (D := Unit) 0
  refine ⟨{ tab := t, hashFn := h, cmpFn := c }, by simp [setCreate, h1, Res.bind], ?_⟩
  exact ⟨law, Tab.create_rep _ t h2 h4 h3, h5, rfl, rfl⟩

theorem insert_srep {s : SetObj K} {a : Spec.ASet K} (h : SRep env s a) (hro : a.readonly = 0)
    (e : K) : ∃ s', setInsert env s e = .ok (s', if Spec.mem (eqv (s.ops env)) a.elems e then 1 else 0) ∧
      SRep env s' { a with elems := Spec.sinsert (eqv (s.ops env)) a.elems e } ∧
      s'.ops env = s.ops env := by
  obtain ⟨t', h1, h2, h3, -⟩ := Tab.insert_rep h.law h.rep (h.ro.trans hro) e ()
  rw [insert_map] at h1 h2
  refine ⟨{ s with tab := t' }, by simp [setInsert, h1, Res.bind], ?_, rfl⟩
  exact ⟨h.law, h2, h3.trans h.ro, h.hfn, h.cfn⟩

theorem insert_ro {s : SetObj K} {a : Spec.ASet K} (h : SRep env s a) (hro : a.readonly ≠ 0)
    (e : K) : setInsert env s e = .abort := by
  have : s.tab.readonly ≠ 0 := by rw [h.ro]; exact hro
  simp [setInsert, Tab.insert, this, Res.bind]

theorem delete_srep {s : SetObj K} {a : Spec.ASet K} (h : SRep env s a) (hro : a.readonly = 0)
    (e : K) : ∃ s', setDelete env s e = .ok (s', if Spec.mem (eqv (s.ops env)) a.elems e then 0 else 1) ∧
      SRep env s' { a with elems := Spec.sdelete (eqv (s.ops env)) a.elems e } ∧
      s'.ops env = s.ops env := by
  obtain ⟨t', h1, h2, h3, -⟩ := Tab.delete_rep h.law h.rep (h.ro.trans hro) e
  rw [delete_map] at h1 h2
  refine ⟨{ s with tab := t' }, by simp [setDelete, h1, Res.bind], ?_, rfl⟩
  exact ⟨h.law, h2, h3.trans h.ro, h.hfn, h.cfn⟩

theorem delete_ro {s : SetObj K} {a : Spec.ASet K} (h : SRep env s a) (hro : a.readonly ≠ 0)
    (e : K) : setDelete env s e = .abort := by
  have : s.tab.readonly ≠ 0 := by rw [h.ro]; exact hro
  have hp : s.tab.prime ≠ 0 := by have := h.rep.inv.pos; omega
  simp [setDelete, Tab.delete, this, hp, Res.bind]

theorem member_srep {s : SetObj K} {a : Spec.ASet K} (h : SRep env s a) (e : K) :
    ∃ s', setMember env s e = .ok (s', if Spec.mem (eqv (s.ops env)) a.elems e then 1 else 0) ∧
      SRep env s' a ∧ s'.ops env = s.ops env ∧ (s.tab.readonly ≠ 0 → elems s' = elems s) := by
  obtain ⟨t', h1, h2, h3⟩ := Tab.retrieve_rep h.law h.rep e
  refine ⟨{ s with tab := t' }, ?_, ⟨h.law, h2, h3.readonly.trans h.ro, h.hfn, h.cfn⟩, rfl, ?_⟩
  · rw [setMember, h1, mem_find]
    cases Spec.find (eqv (s.ops env)) (a.elems.map fun k => (k, ())) e <;> simp [Res.bind]
  · intro hro
    simp [elems, Tab.all, h3.prime, h3.ro_buckets hro]

theorem insertAll_srep {s : SetObj K} {a : Spec.ASet K} (h : SRep env s a) (hro : a.readonly = 0)
    (l : List K) : ∃ s', insertAll env s l = .ok s' ∧
      SRep env s' { a with elems := l.foldl (Spec.sinsert (eqv (s.ops env))) a.elems } ∧
      s'.ops env = s.ops env := by
  induction l generalizing s a with
  | nil => exact ⟨s, rfl, h, rfl⟩
  | cons x l ih =>
    obtain ⟨s1, h1, h2, h3⟩ := insert_srep h hro x
    obtain ⟨s2, h4, h5, h6⟩ := ih h2 hro
    refine ⟨s2, by simp [insertAll, h1, Res.bind, h4], ?_, h6.trans h3⟩
    rw [h3] at h5
    exact h5

theorem deleteAll_srep {s : SetObj K} {a : Spec.ASet K} (h : SRep env s a) (hro : a.readonly = 0)
    (l : List K) : ∃ s', deleteAll env s l = .ok s' ∧
      SRep env s' { a with elems := l.foldl (Spec.sdelete (eqv (s.ops env))) a.elems } ∧
      s'.ops env = s.ops env := by
  induction l generalizing s a with
  | nil => exact ⟨s, rfl, h, rfl⟩
  | cons x l ih =>
    obtain ⟨s1, h1, h2, h3⟩ := delete_srep h hro x
    obtain ⟨s2, h4, h5, h6⟩ := ih h2 hro
    refine ⟨s2, by simp [deleteAll, h1, Res.bind, h4], ?_, h6.trans h3⟩
    rw [h3] at h5
    exact h5

theorem ops_eq {s1 s2 : SetObj K} (h : sameFns s1 s2 = true) : s1.ops env = s2.ops env := by
  simp only [sameFns, Bool.and_eq_true, beq_iff_eq] at h
  simp [SetObj.ops, h.1, h.2]

theorem same_iff {s1 s2 : SetObj K} {a b : Spec.ASet K} (h1 : SRep env s1 a) (h2 : SRep env s2 b) :
    sameFns s1 s2 = true ↔ (a.hashFn = b.hashFn ∧ a.cmpFn = b.cmpFn) := by
  simp [sameFns, h1.hfn, h1.cfn, h2.hfn, h2.cfn]

theorem elems_nil {s : SetObj K} {a : Spec.ASet K} (h : SRep env s a) :
    elems s = [] ↔ a.elems = [] := by
  constructor
  · intro he; have := h.perm; rw [he] at this; exact this.symm.eq_nil
  · intro he; have := h.perm; rw [he] at this; exact this.eq_nil

/-- `set_add` on two different sets -/
theorem add_srep {s1 s2 : SetObj K} {a b : Spec.ASet K} (h1 : SRep env s1 a) (h2 : SRep env s2 b)
    (hs : sameFns s1 s2 = true) :
    (a.readonly ≠ 0 ∧ b.elems ≠ [] → setAdd env s1 s2 = .abort) ∧
    (¬ (a.readonly ≠ 0 ∧ b.elems ≠ []) → ∃ s', setAdd env s1 s2 = .ok s' ∧
      SRep env s' { a with elems := Spec.union (eqv (s1.ops env)) a.elems b.elems }) := by
  simp only [setAdd, hs, if_true]
  constructor
  · rintro ⟨hro, hne⟩
    cases hl : elems s2 with
    | nil => exact absurd ((elems_nil h2).1 hl) hne
    | cons x l => simp [insertAll, insert_ro h1 hro, Res.bind]
  · intro hc
    by_cases hro : a.readonly = 0
    · obtain ⟨s', h3, h4, -⟩ := insertAll_srep h1 hro (elems s2)
      refine ⟨s', h3, ?_⟩
      have hd : SDistinct (s1.ops env) (elems s2) := by
        rw [ops_eq hs]; exact h2.elems_distinct
      have hp := foldl_sinsert h1.law (elems s2) a.elems hd
      exact h4.of_perm (hp.trans (List.Perm.append_left _ (h2.perm.filter _)))
    · have hb : b.elems = [] := by
        by_contra hb; exact hc ⟨hro, hb⟩
      rw [(elems_nil h2).2 hb]
      refine ⟨s1, rfl, ?_⟩
      have : Spec.union (eqv (s1.ops env)) a.elems b.elems = a.elems := by simp [Spec.union, hb]
      rw [this]; exact h1

/-- `set_del` on two different sets -/
theorem del_srep {s1 s2 : SetObj K} {a b : Spec.ASet K} (h1 : SRep env s1 a) (h2 : SRep env s2 b)
    (hs : sameFns s1 s2 = true) :
    (a.readonly ≠ 0 ∧ b.elems ≠ [] → setDel env s1 s2 = .abort) ∧
    (¬ (a.readonly ≠ 0 ∧ b.elems ≠ []) → ∃ s', setDel env s1 s2 = .ok s' ∧
      SRep env s' { a with elems := Spec.diff (eqv (s1.ops env)) a.elems b.elems }) := by
  simp only [setDel, hs, if_true]
  constructor
  · rintro ⟨hro, hne⟩
    cases hl : elems s2 with
    | nil => exact absurd ((elems_nil h2).1 hl) hne
    | cons x l => simp [deleteAll, delete_ro h1 hro, Res.bind]
  · intro hc
    by_cases hro : a.readonly = 0
    · obtain ⟨s', h3, h4, -⟩ := deleteAll_srep h1 hro (elems s2)
      refine ⟨s', h3, ?_⟩
      rw [foldl_sdelete h1.law] at h4
      have : a.elems.filter (fun e => !Spec.mem (eqv (s1.ops env)) (elems s2) e) =
          Spec.diff (eqv (s1.ops env)) a.elems b.elems := by
        unfold Spec.diff
        apply List.filter_congr
        intro e _
        rw [mem_perm _ h2.perm]
      rw [this] at h4
      exact h4
    · have hb : b.elems = [] := by
        by_contra hb; exact hc ⟨hro, hb⟩
      rw [(elems_nil h2).2 hb]
      refine ⟨s1, rfl, ?_⟩
      have : Spec.diff (eqv (s1.ops env)) a.elems b.elems = a.elems := by
        simp [Spec.diff, hb, Spec.mem]
      rw [this]; exact h1

theorem union_srep {s1 s2 : SetObj K} {a b : Spec.ASet K} (h1 : SRep env s1 a) (h2 : SRep env s2 b)
    (hs : sameFns s1 s2 = true) : ∃ s', setUnion env s1 s2 = .ok s' ∧
      SRep env s' { a with elems := Spec.union (eqv (s1.ops env)) a.elems b.elems, readonly := 0 } := by
  obtain ⟨s, c1, c2⟩ := create_srep (K := K) (env := env) s1.hashFn s1.cmpFn h1.law
  obtain ⟨s', i1, i2, i3⟩ := insertAll_srep c2 rfl (elems s1)
  obtain ⟨s'', j1, j2, -⟩ := insertAll_srep i2 rfl (elems s2)
  have hops : s.ops env = s1.ops env := by
    have := c2.hfn; have := c2.cfn; simp_all [SetObj.ops]
  refine ⟨s'', by simp [setUnion, hs, c1, i1, j1, Res.bind], ?_⟩
  rw [i3, hops] at j2
  simp only at j2
  have hd1 := h1.elems_distinct
  have hd2 : SDistinct (s1.ops env) (elems s2) := by rw [ops_eq hs]; exact h2.elems_distinct
  have p1 := foldl_sinsert h1.law (elems s1) [] hd1
  have e1 : (elems s1).filter (fun e => !Spec.mem (eqv (s1.ops env)) [] e) = elems s1 := by
    rw [List.filter_eq_self]; intro x _; simp [Spec.mem]
  rw [e1, List.nil_append] at p1
  have p1' := p1.trans h1.perm
  have p2 := foldl_sinsert h1.law (elems s2)
    ((elems s1).foldl (Spec.sinsert (eqv (s1.ops env))) []) hd2
  have e2 : (elems s2).filter (fun e => !Spec.mem (eqv (s1.ops env))
      ((elems s1).foldl (Spec.sinsert (eqv (s1.ops env))) []) e) =
      (elems s2).filter (fun e => !Spec.mem (eqv (s1.ops env)) a.elems e) := by
    apply List.filter_congr
    intro x _
    rw [mem_perm _ p1']
  rw [e2] at p2
  have p3 : (List.foldl (Spec.sinsert (eqv (s1.ops env)))
      (List.foldl (Spec.sinsert (eqv (s1.ops env))) [] (elems s1)) (elems s2)).Perm
      (Spec.union (eqv (s1.ops env)) a.elems b.elems) :=
    p2.trans (List.Perm.append p1' (h2.perm.filter _))
  have := j2.of_perm p3
  exact ⟨this.law, this.rep, this.ro, this.hfn.trans h1.hfn, this.cfn.trans h1.cfn⟩

theorem selectLoop_srep (keep : Bool) (l : List K) {s s2 : SetObj K} {c b : Spec.ASet K}
    (h : SRep env s c) (hro : c.readonly = 0) (h2 : SRep env s2 b) (hs : s.ops env = s2.ops env) :
    ∃ s' s2', selectLoop env keep s s2 l = .ok (s', s2') ∧
      SRep env s' { c with
        elems := (l.filter (fun e => Spec.mem (eqv (s.ops env)) b.elems e == keep)).foldl
          (Spec.sinsert (eqv (s.ops env))) c.elems } ∧
      SRep env s2' b := by
  induction l generalizing s s2 c with
  | nil => exact ⟨s, s2, rfl, h, h2⟩
  | cons x l ih =>
    obtain ⟨s2', m1, m2, m3, -⟩ := member_srep h2 x
    simp only [selectLoop, m1, Res.bind, List.filter_cons]
    rw [hs]
    by_cases hk : (Spec.mem (eqv (s2.ops env)) b.elems x == keep) = true
    · obtain ⟨s1, i1, i2, i3⟩ := insert_srep h hro x
      obtain ⟨s', s2'', j1, j2, j3⟩ := ih i2 hro m2 (by rw [i3, m3, hs])
      have hcond : (((if Spec.mem (eqv (s2.ops env)) b.elems x = true then (1 : Int) else 0) ≠ 0) = (keep = true)) := by
        cases hm : Spec.mem (eqv (s2.ops env)) b.elems x <;> cases keep <;> simp_all
      rw [if_pos hcond]
      simp only [i1, hk, if_true]
      refine ⟨s', s2'', j1, ?_, j3⟩
      rw [i3, hs] at j2
      exact j2
    · obtain ⟨s', s2'', j1, j2, j3⟩ := ih h hro m2 (by rw [m3, hs])
      have hcond : ¬ (((if Spec.mem (eqv (s2.ops env)) b.elems x = true then (1 : Int) else 0) ≠ 0) = (keep = true)) := by
        cases hm : Spec.mem (eqv (s2.ops env)) b.elems x <;> cases keep <;> simp_all
      rw [if_neg hcond]
      simp only [hk, Bool.false_eq_true, if_false]
      refine ⟨s', s2'', j1, ?_, j3⟩
      rw [hs] at j2
      exact j2

theorem SRep.withRo {s : SetObj K} {a : Spec.ASet K} (h : SRep env s a) (f : Int) :
    SRep env { s with tab := { s.tab with readonly := f } } { a with readonly := f } :=
  ⟨h.law, h.rep.congr rfl rfl rfl, rfl, h.hfn, h.cfn⟩

theorem select_srep (keep : Bool) {s1 s2 : SetObj K} {a b : Spec.ASet K} (h1 : SRep env s1 a)
    (h2 : SRep env s2 b) (hs : sameFns s1 s2 = true) :
    ∃ s' s2', setSelect env keep s1 s2 = .ok (s', s2') ∧
      SRep env s' { a with
        elems := a.elems.filter (fun e => Spec.mem (eqv (s1.ops env)) b.elems e == keep), readonly := 0 } ∧
      SRep env s2' b := by
  obtain ⟨s, c1, c2⟩ := create_srep (K := K) (env := env) s1.hashFn s1.cmpFn h1.law
  have hops : s.ops env = s1.ops env := by
    have := c2.hfn; have := c2.cfn; simp_all [SetObj.ops]
  obtain ⟨s', s2', i1, i2, i3⟩ := selectLoop_srep keep (elems s1) c2 rfl (h2.withRo 1)
    (by rw [hops, ops_eq hs]; rfl)
  refine ⟨s', { s2' with tab := { s2'.tab with readonly := s2.tab.readonly } },
    by simp [setSelect, hs, c1, i1, Res.bind], ?_, ?_⟩
  · rw [hops] at i2
    simp only at i2
    have hd : SDistinct (s1.ops env) ((elems s1).filter
        (fun e => Spec.mem (eqv (s1.ops env)) b.elems e == keep)) :=
      List.Pairwise.filter _ h1.elems_distinct
    have p := foldl_sinsert h1.law _ [] hd
    have e1 : ∀ l : List K, l.filter (fun e => !Spec.mem (eqv (s1.ops env)) [] e) = l := by
      intro l; rw [List.filter_eq_self]; intro x _; simp [Spec.mem]
    rw [e1, List.nil_append] at p
    have := i2.of_perm (p.trans (h1.perm.filter _))
    exact ⟨this.law, this.rep, this.ro, this.hfn.trans h1.hfn, this.cfn.trans h1.cfn⟩
  · have := i3.withRo s2.tab.readonly
    exact ⟨this.law, this.rep, this.ro.trans h2.ro, this.hfn, this.cfn⟩

theorem equalLoop_srep (l : List K) {s2 : SetObj K} {b : Spec.ASet K} (h2 : SRep env s2 b) :
    ∃ s2', equalLoop env s2 l = .ok (s2', if l.all (fun e => Spec.mem (eqv (s2.ops env)) b.elems e)
        then 1 else 0) ∧ SRep env s2' b := by
  induction l generalizing s2 with
  | nil => exact ⟨s2, rfl, h2⟩
  | cons x l ih =>
    obtain ⟨s2', m1, m2, m3, -⟩ := member_srep h2 x
    simp only [equalLoop, m1, Res.bind, List.all_cons]
    by_cases hm : Spec.mem (eqv (s2.ops env)) b.elems x = true
    · obtain ⟨s', i1, i2⟩ := ih m2
      rw [m3] at i1
      refine ⟨s', by simp [hm, i1], i2⟩
    · simp only [Bool.not_eq_true] at hm
      exact ⟨s2', by simp [hm], m2⟩

theorem equal_srep {s1 s2 : SetObj K} {a b : Spec.ASet K} (h1 : SRep env s1 a)
    (h2 : SRep env s2 b) (hs : sameFns s1 s2 = true) :
    ∃ s2', setEqual env s1 s2 = .ok (s2', if Spec.equal (eqv (s1.ops env)) a.elems b.elems then 1 else 0) ∧
      SRep env s2' b := by
  unfold setEqual
  rw [if_pos hs]
  by_cases hc : s1.tab.entries ≠ s2.tab.entries
  · rw [if_pos hc]
    refine ⟨s2, ?_, h2⟩
    have : Spec.equal (eqv (s1.ops env)) a.elems b.elems = false := by
      by_contra he
      have he : Spec.equal (eqv (s1.ops env)) a.elems b.elems = true := by simpa using he
      simp only [Spec.equal, Bool.and_eq_true, List.all_eq_true] at he
      have l1 := length_le_of_mem h1.law a.elems b.elems h1.distinct he.1
      have hd2 : SDistinct (s1.ops env) b.elems := by rw [ops_eq hs]; exact h2.distinct
      have l2 := length_le_of_mem h1.law b.elems a.elems hd2 he.2
      rw [h1.count, h2.count] at hc
      omega
    simp [this]
  · rw [if_neg hc]
    push Not at hc
    obtain ⟨s', i1, i2⟩ := equalLoop_srep (elems s1) (h2.withRo 1)
    refine ⟨{ s' with tab := { s'.tab with readonly := s2.tab.readonly } }, ?_, ?_⟩
    · simp only [i1, Res.bind]
      have hops : SetObj.ops env { s2 with tab := { s2.tab with readonly := 1 } } = s1.ops env := by
        rw [ops_eq hs]; rfl
      rw [hops]
      have hall : (elems s1).all (fun e => Spec.mem (eqv (s1.ops env)) b.elems e) =
          Spec.equal (eqv (s1.ops env)) a.elems b.elems := by
        have hp : (elems s1).all (fun e => Spec.mem (eqv (s1.ops env)) b.elems e) =
            a.elems.all (fun e => Spec.mem (eqv (s1.ops env)) b.elems e) := h1.perm.all_eq
        rw [hp, Bool.eq_iff_iff]
        simp only [Spec.equal, Bool.and_eq_true, List.all_eq_true]
        constructor
        · intro h
          refine ⟨h, equal_of_length h1.law a.elems b.elems h1.distinct ?_ h⟩
          rw [h1.count, h2.count] at hc
          exact hc
        · exact fun h => h.1
      rw [hall]
    · have := i2.withRo s2.tab.readonly
      exact ⟨this.law, this.rep, this.ro.trans h2.ro, this.hfn, this.cfn⟩

theorem stats_srep {s : SetObj K} {a : Spec.ASet K} (h : SRep env s a) :
    ∃ r, setGetStats s = .ok r ∧ r.entries = a.elems.length ∧ r.retrievals = s.tab.retrievals ∧
      r.misses = s.tab.misses ∧ r.size = s.tab.prime := by
  obtain ⟨e1, -, e2, -, e4, e5, -⟩ := Tab.stats_fold s.tab (List.range s.tab.prime)
    { size := s.tab.prime, resizings := s.tab.resizings, entries := 0, buckets_used := 0, singletons := 0,
      maximum_length := 0, retrievals := s.tab.retrievals, hits := s.tab.hits, misses := s.tab.misses }
  unfold setGetStats Tab.getStats
  simp only at e1 e2 e4 e5 ⊢
  rw [Nat.zero_add] at e5
  have hcnt := h.rep.inv.count
  unfold Tab.all at hcnt
  rw [if_neg (by rw [e5, ← hcnt]; simp)]
  exact ⟨_, rfl, by rw [e5, ← hcnt, h.count], e2, e4, e1⟩

/-! stores -/

/-- Stores agree handle by handle. -/
structure StRep (env : FnEnv K) (σ : Store K) (α : Spec.AStore K) : Prop where
  next : σ.next = α.next
  objs : ∀ i, match σ.objs i, α.objs i with
    | some s, some a => SRep env s a
    | none, none => True
    | _, _ => False

theorem StRep.get {σ : Store K} {α : Spec.AStore K} (h : StRep env σ α) (i : Nat) :
    Spec.ResRel (SRep env) (σ.get i) (α.get i) := by
  have := h.objs i
  unfold Store.get Spec.AStore.get
  cases h1 : σ.objs i <;> cases h2 : α.objs i <;> rw [h1, h2] at this <;> simp_all [Spec.ResRel]

theorem StRep.put {σ : Store K} {α : Spec.AStore K} (h : StRep env σ α) (i : Nat)
    {s : SetObj K} {a : Spec.ASet K} (hs : SRep env s a) :
    StRep env (σ.put i (some s)) (α.put i (some a)) := by
  refine ⟨h.next, fun j => ?_⟩
  simp only [Store.put, Spec.AStore.put]
  by_cases hj : j = i
  · simp [hj, hs]
  · simp only [hj, if_false]; exact h.objs j

theorem StRep.putNone {σ : Store K} {α : Spec.AStore K} (h : StRep env σ α) (i : Nat) :
    StRep env (σ.put i none) (α.put i none) := by
  refine ⟨h.next, fun j => ?_⟩
  simp only [Store.put, Spec.AStore.put]
  by_cases hj : j = i
  · simp [hj]
  · simp only [hj, if_false]; exact h.objs j

/-- updating a set without changing what it represents -/
theorem StRep.putSame {σ : Store K} {α : Spec.AStore K} (h : StRep env σ α) (i : Nat)
    {s : SetObj K} {a : Spec.ASet K} (hs : SRep env s a) (hi : α.objs i = some a) :
    StRep env (σ.put i (some s)) α := by
  refine ⟨h.next, fun j => ?_⟩
  simp only [Store.put]
  by_cases hj : j = i
  · subst hj; simp [hi, hs]
  · simp only [hj, if_false]; exact h.objs j

theorem StRep.alloc {σ : Store K} {α : Spec.AStore K} (h : StRep env σ α)
    {s : SetObj K} {a : Spec.ASet K} (hs : SRep env s a) : StRep env (σ.alloc s) (α.alloc a) := by
  refine ⟨by simp [Store.alloc, Spec.AStore.alloc, h.next], fun j => ?_⟩
  simp only [Store.alloc, Spec.AStore.alloc, h.next]
  by_cases hj : j = α.next
  · simp [hj, hs]
  · simp only [hj, if_false]; exact h.objs j

theorem eqv_ops {s : SetObj K} {a : Spec.ASet K} (h : SRep env s a) :
    eqv (s.ops env) = eqOf env a.cmpFn := by
  funext x y
  simp [eqv, eqOf, SetObj.ops, FnEnv.ops, h.cfn]

theorem get2_cases {σ : Store K} {α : Spec.AStore K} (h : StRep env σ α) (i j : Nat)
    {γ δ : Type} {Q : γ → δ → Prop}
    (f : SetObj K → SetObj K → Res γ) (g : Spec.ASet K × Spec.ASet K → Res δ)
    (hf : ∀ s1 s2, sameFns s1 s2 = false → f s1 s2 = .fatal)
    (hok : ∀ s1 s2 a b, SRep env s1 a → SRep env s2 b → sameFns s1 s2 = true →
      α.objs i = some a → α.objs j = some b → σ.objs i = some s1 → σ.objs j = some s2 →
      Spec.ResRel Q (f s1 s2) (g (a, b))) :
    Spec.ResRel Q ((σ.get i).bind fun s1 => (σ.get j).bind fun s2 => f s1 s2)
      ((α.get2 i j).bind g) := by
  have hi := h.objs i
  have hj := h.objs j
  unfold Spec.AStore.get2 Spec.AStore.get Store.get
  cases h1 : σ.objs i <;> cases h2 : α.objs i <;> rw [h1, h2] at hi <;> simp only at hi
  · simp [Res.bind, Spec.ResRel]
  · cases h3 : σ.objs j <;> cases h4 : α.objs j <;> rw [h3, h4] at hj <;> simp only at hj
    · simp [Res.bind, Spec.ResRel]
    · rename_i s1 a s2 b
      simp only [Res.bind]
      by_cases hs : sameFns s1 s2 = true
      · rw [if_pos ((same_iff hi hj).1 hs)]
        exact hok s1 s2 a b hi hj hs h2 h4 h1 h3
      · rw [if_neg (fun hc => hs ((same_iff hi hj).2 hc)), hf s1 s2 (by simpa using hs)]
        simp [Spec.ResRel]

theorem inter_eq (eq : K → K → Bool) (a b : List K) :
    Spec.inter eq a b = a.filter (fun e => Spec.mem eq b e == true) := by
  simp [Spec.inter]

theorem diff_eq (eq : K → K → Bool) (a b : List K) :
    Spec.diff eq a b = a.filter (fun e => Spec.mem eq b e == false) := by
  unfold Spec.diff
  apply List.filter_congr
  intro e _
  cases Spec.mem eq b e <;> rfl

theorem step_sim (σ : Store K) (α : Spec.AStore K) (o : Spec.SetOp K) (ho : OkOp env o)
    (h : StRep env σ α) :
    Spec.ResRel (fun c b => c.2 = b.2 ∧ StRep env c.1 b.1) (setStep env σ o)
      (Spec.setStep (eqOf env) α o) := by
  cases o with
  | create hf cf =>
    obtain ⟨s, h1, h2⟩ := create_srep (K := K) (env := env) hf cf (ho.2 hf cf rfl)
    simp only [setStep, Spec.setStep, h1, Res.bind]
    exact ⟨by simp [h.next], h.alloc h2⟩
  | insert i e =>
    simp only [setStep, Spec.setStep]
    refine (h.get i).bind fun s a hs => ?_
    by_cases hro : a.readonly = 0
    · obtain ⟨s', h1, h2, -⟩ := insert_srep hs hro e
      rw [eqv_ops hs] at h1 h2
      rw [h1, if_neg (show ¬ a.readonly ≠ 0 by simp [hro])]
      exact ⟨rfl, h.put i h2⟩
    · rw [insert_ro hs hro, if_pos hro]; simp [Res.bind, Spec.ResRel]
  | delete i e =>
    simp only [setStep, Spec.setStep]
    refine (h.get i).bind fun s a hs => ?_
    by_cases hro : a.readonly = 0
    · obtain ⟨s', h1, h2, -⟩ := delete_srep hs hro e
      rw [eqv_ops hs] at h1 h2
      rw [h1, if_neg (show ¬ a.readonly ≠ 0 by simp [hro])]
      exact ⟨rfl, h.put i h2⟩
    · rw [delete_ro hs hro, if_pos hro]; simp [Res.bind, Spec.ResRel]
  | member i e =>
    simp only [setStep, Spec.setStep]
    have hi := h.objs i
    unfold Spec.AStore.get Store.get
    cases h1 : σ.objs i <;> cases h2 : α.objs i <;> rw [h1, h2] at hi <;> simp only at hi
    · simp [Res.bind, Spec.ResRel]
    · rename_i s a
      obtain ⟨s', m1, m2, -⟩ := member_srep hi e
      simp only [Res.bind, m1]
      rw [eqv_ops hi]
      exact ⟨rfl, h.putSame i m2 h2⟩
  | readonly i f =>
    simp only [setStep, Spec.setStep]
    refine (h.get i).bind fun s a hs => ?_
    exact ⟨hs.ro, h.put i (hs.withRo f)⟩
  | destroy i =>
    simp only [setStep, Spec.setStep]
    refine (h.get i).bind fun s a hs => ?_
    simp only [setDestroy, Tab.destroy, hs.ro]
    by_cases hro : a.readonly = 0
    · simp only [hro, ne_eq, not_true_eq_false, if_false, Res.bind]
      exact ⟨rfl, h.putNone i⟩
    · simp [hro, Res.bind, Spec.ResRel]
  | count i =>
    simp only [setStep, Spec.setStep]
    refine (h.get i).bind fun s a hs => ?_
    exact ⟨by simp [setCount, hs.count], h⟩
  | stats i =>
    simp only [setStep, Spec.setStep]
    refine (h.get i).bind fun s a hs => ?_
    obtain ⟨r, h1, h2, -⟩ := stats_srep hs
    rw [h1]
    exact ⟨by simp [h2], h⟩
  | add i j =>
    simp only [setStep, Spec.setStep]
    refine get2_cases h i j _ _ (fun s1 s2 hs => by simp [setAdd, hs, Res.bind]) ?_
    intro s1 s2 a b h1 h2 hs _ _ _ _
    obtain ⟨k1, k2⟩ := add_srep h1 h2 hs
    rw [eqv_ops h1] at k2
    simp only
    by_cases hc : a.readonly ≠ 0 ∧ b.elems ≠ []
    · rw [k1 hc, if_pos hc]; simp [Res.bind, Spec.ResRel]
    · obtain ⟨s', k3, k4⟩ := k2 hc
      rw [k3, if_neg hc]
      exact ⟨rfl, h.put i k4⟩
  | del i j =>
    simp only [setStep, Spec.setStep]
    refine get2_cases h i j _ _ (fun s1 s2 hs => by simp [setDel, hs, Res.bind]) ?_
    intro s1 s2 a b h1 h2 hs _ _ _ _
    obtain ⟨k1, k2⟩ := del_srep h1 h2 hs
    rw [eqv_ops h1] at k2
    simp only
    by_cases hc : a.readonly ≠ 0 ∧ b.elems ≠ []
    · rw [k1 hc, if_pos hc]; simp [Res.bind, Spec.ResRel]
    · obtain ⟨s', k3, k4⟩ := k2 hc
      rw [k3, if_neg hc]
      exact ⟨rfl, h.put i k4⟩
  | union i j =>
    simp only [setStep, Spec.setStep]
    refine get2_cases h i j _ _ (fun s1 s2 hs => by simp [setUnion, hs, Res.bind]) ?_
    intro s1 s2 a b h1 h2 hs _ _ _ _
    obtain ⟨s', k1, k2⟩ := union_srep h1 h2 hs
    rw [eqv_ops h1] at k2
    rw [k1]
    exact ⟨by simp [h.next], h.alloc k2⟩
  | inter i j =>
    simp only [setStep, Spec.setStep]
    refine get2_cases h i j _ _ (fun s1 s2 hs => by simp [setInter, setSelect, hs, Res.bind]) ?_
    intro s1 s2 a b h1 h2 hs _ hj _ _
    obtain ⟨s', s2', k1, k2, k3⟩ := select_srep true h1 h2 hs
    rw [eqv_ops h1] at k2
    rw [← inter_eq] at k2
    simp only [setInter, k1, Res.bind]
    exact ⟨by simp [h.next], (h.putSame j k3 hj).alloc k2⟩
  | diff i j =>
    simp only [setStep, Spec.setStep]
    refine get2_cases h i j _ _ (fun s1 s2 hs => by simp [setDiff, setSelect, hs, Res.bind]) ?_
    intro s1 s2 a b h1 h2 hs _ hj _ _
    obtain ⟨s', s2', k1, k2, k3⟩ := select_srep false h1 h2 hs
    rw [eqv_ops h1] at k2
    rw [← diff_eq] at k2
    simp only [setDiff, k1, Res.bind]
    exact ⟨by simp [h.next], (h.putSame j k3 hj).alloc k2⟩
  | equal i j =>
    simp only [setStep, Spec.setStep]
    refine get2_cases h i j _ _ (fun s1 s2 hs => by simp [setEqual, hs, Res.bind]) ?_
    intro s1 s2 a b h1 h2 hs _ hj _ _
    obtain ⟨s2', k1, k2⟩ := equal_srep h1 h2 hs
    rw [eqv_ops h1] at k1
    rw [k1]
    exact ⟨rfl, h.putSame j k2 hj⟩

end Maa.Set
