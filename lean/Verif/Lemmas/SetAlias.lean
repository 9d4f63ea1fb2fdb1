import Verif.Lemmas.SetHeap

/-! `set_add(s, s)` and `set_del(s, s)`. -/

namespace Maa.SetHeap

open HashHeap
open Tab (Entry Tab)
open Heap (Seg Chain)
open Set (FnEnv SetObj Store elems SRep StRep)

variable {K : Type} {env : FnEnv K}

/-- the first element decides -/
theorem walk_first {body : HStore K → K → Res (HStore K × Bool)} {s : HStore K} {i : Nat} {t : HSet} {tt : Tab K Unit}
    {B : Nat → List (Nat × Entry K Unit)} (hi : s.sets i = some t) (r : HRep s.heap t.tab tt B) :
    ∀ (n k : Nat), k ≤ tt.prime → tt.prime < k + n →
    ((∀ j, k ≤ j → j < tt.prime → B j = []) ∧ walk body i n k s = .ok (s, false)) ∨
    ∃ j pt e l, j < tt.prime ∧ B j = (pt, e) :: l ∧ (body s e.key = .abort → walk body i n k s = .abort) ∧
      ∀ s', body s e.key = .ok (s', false) → s'.heap.mem pt = none → walk body i n k s = .ub := by
  intro n
  induction n with
  | zero => intro k hk hn; omega
  | succ n ih =>
    intro k hk hn
    simp only [walk, HStore.get, hi]
    simp only [Res.bind]
    rw [r.prime]
    by_cases hk' : k < tt.prime
    · have hc := r.chain k hk'
      have hl := Heap.Chain.length_lt r.ok hc
      cases hB : B k with
      | nil =>
        rw [hB] at hc hl
        rw [if_pos hk', walkChain_quiet [] _ _ hl hc (by simp)]
        simp only [Bool.false_eq_true, if_false]
        rcases ih (k + 1) (by omega) (by omega) with ⟨h1, h2⟩ | h
        · refine Or.inl ⟨fun j hj hj' => ?_, h2⟩
          by_cases hjk : j = k
          · rw [hjk, hB]
          · exact h1 j (by omega) hj'
        · exact Or.inr h
      | cons c l =>
        right
        refine ⟨k, c.1, c.2, l, hk', hB, ?_⟩
        rw [hB] at hc hl
        obtain ⟨h1, h2, nx, h3, h4⟩ := hc
        obtain ⟨m, hm⟩ : ∃ m, s.heap.clock = m + 1 := ⟨s.heap.clock - 1, by omega⟩
        rw [if_pos hk', h1, hm]
        simp only [walkChain, if_neg h2, Heap.read_ok h3, Res.bind]
        refine ⟨fun hb => by rw [hb], fun s' hb hfree => ?_⟩
        rw [hb]
        simp [Heap.read, hfree]
    · rw [if_neg hk']
      exact Or.inl ⟨fun j _ _ => by omega, rfl⟩

variable {s : HStore K} {σ : Store K} {A : Nat → Nat → List (Nat × Entry K Unit)}

theorem upd_self {i : Nat} {t : HSet} (hi : s.sets i = some t) : s.upd i t (s.heap, t.tab) = s := by
  cases s with
  | mk heap sets next =>
    simp only [HStore.upd, HStore.put, HStore.mk.injEq, true_and, and_true]
    funext j
    split
    · rename_i h; rw [h]; exact hi.symm
    · rfl

/-- inserting an element that is there, without growing, changes nothing -/
theorem insert_present {i : Nat} {t : HSet} {x : SetObj K} {a : Spec.ASet K} (hi : s.sets i = some t)
    (r : HRep s.heap t.tab x.tab (A i)) (hf : t.hashFn = x.hashFn ∧ t.cmpFn = x.cmpFn) (q : SRep env x a) (hro : x.tab.readonly = 0)
    (hg : ¬ x.tab.entries * 2 > x.tab.prime) {j : Nat} (hj : j < x.tab.prime) {c : Nat × Entry K Unit} (hc : c ∈ A i j) :
    insertBody env i s c.2.key = .ok (s, false) := by
  have hm : c.2 ∈ x.tab.buckets j := by rw [← r.ents j hj]; exact List.mem_map_of_mem hc
  obtain ⟨e1, e2⟩ := q.rep.inv.slot j hj c.2 hm
  simp only [insertBody, setInsert, HStore.get, hi]
  simp only [Res.bind, hinsert, ops_eq' hf, r.ro, hro, ne_eq, not_true_eq_false, if_false, hgrow, r.entries, r.prime, if_neg hg]
  have hp := q.rep.inv.pos
  rw [if_neg (by omega : ¬ x.tab.prime = 0), ← e1, e2]
  rcases findLoop_ok (x.ops env) c.2.key s.heap (A i j) s.heap.clock 0 (t.tab.buckets j) (Heap.Chain.length_lt r.ok (r.chain j hj)) (r.chain j hj) with
    ⟨-, h⟩ | ⟨l1, b, e, l2, nx, -, -, -, h, -⟩
  · rw [List.all_eq_true] at h
    have := h c hc
    simp [q.law.refl] at this
  · rw [h]
    simp only [upd_self hi]

/-- inserting an element that is there into a full table frees the cell the loop stands on -/
theorem insert_frees {i : Nat} {t : HSet} {x : SetObj K} {a : Spec.ASet K} (hi : s.sets i = some t)
    (r : HRep s.heap t.tab x.tab (A i)) (hf : t.hashFn = x.hashFn ∧ t.cmpFn = x.cmpFn) (q : SRep env x a) (hro : x.tab.readonly = 0)
    (hg : x.tab.entries * 2 > x.tab.prime) {j : Nat} (hj : j < x.tab.prime) {c : Nat × Entry K Unit} (hc : c ∈ A i j) :
    ∃ s', insertBody env i s c.2.key = .ok (s', false) ∧ s'.heap.mem c.1 = none := by
  obtain ⟨h', ht', t', A', g1, g2, g3, g4, g5⟩ := hgrow_hrep_frees r
  have hfr := g5 hg c.1 ⟨j, hj, List.mem_map_of_mem hc⟩
  obtain ⟨inv', hperm⟩ : Tab.Inv (x.ops env) t' ∧ (Tab.all t').Perm (Tab.all x.tab) := by
    obtain ⟨t2, w1, w2, w3, -⟩ := Tab.resize_ok _ q.law x.tab q.rep.inv
    simp only [Tab.grow, if_pos hg, w1, Res.ok.injEq] at g2
    rw [← g2]; exact ⟨w2, w3⟩
  have hp' : 0 < t'.prime := inv'.pos
  have hm : c.2 ∈ Tab.all t' := by
    refine hperm.mem_iff.2 (List.mem_flatMap.2 ⟨j, List.mem_range.2 hj, ?_⟩)
    rw [← r.ents j hj]; exact List.mem_map_of_mem hc
  simp only [insertBody, setInsert, HStore.get, hi]
  simp only [Res.bind, hinsert, ops_eq' hf, r.ro, hro, ne_eq, not_true_eq_false, if_false, g1, g3.prime]
  rw [if_neg (by omega : ¬ t'.prime = 0)]
  generalize hs : (x.ops env).hash c.2.key % t'.prime = k
  have hk : k < t'.prime := by rw [← hs]; exact Nat.mod_lt _ hp'
  rcases findLoop_ok (x.ops env) c.2.key h' (A' k) h'.clock 0 (ht'.buckets k) (Heap.Chain.length_lt g3.ok (g3.chain k hk)) (g3.chain k hk) with
    ⟨-, h⟩ | ⟨l1, b, e', l2, nx, -, -, -, h, -⟩
  · exfalso
    obtain ⟨k', hk', hm'⟩ := List.mem_flatMap.1 hm
    have hk' := List.mem_range.1 hk'
    obtain ⟨e1, e2⟩ := inv'.slot k' hk' c.2 hm'
    have : k' = k := by rw [← e2, e1, hs]
    subst this
    rw [← g3.ents k' hk'] at hm'
    obtain ⟨d, hd, hde⟩ := List.mem_map.1 hm'
    rw [List.all_eq_true] at h
    have := h d hd
    rw [hde] at this
    simp [q.law.refl] at this
  · rw [h]
    exact ⟨_, rfl, hfr⟩

/-- deleting the head of a chain frees it -/
theorem delete_frees {i : Nat} {t : HSet} {x : SetObj K} {a : Spec.ASet K} (hi : s.sets i = some t)
    (r : HRep s.heap t.tab x.tab (A i)) (hf : t.hashFn = x.hashFn ∧ t.cmpFn = x.cmpFn) (q : SRep env x a) (hro : x.tab.readonly = 0)
    {j : Nat} (hj : j < x.tab.prime) {pt : Nat} {e : Entry K Unit} {l} (hc : A i j = (pt, e) :: l) :
    ∃ s', deleteBody env i s e.key = .ok (s', false) ∧ s'.heap.mem pt = none := by
  have hm : e ∈ x.tab.buckets j := by rw [← r.ents j hj, hc]; simp
  obtain ⟨e1, e2⟩ := q.rep.inv.slot j hj e hm
  have hp := q.rep.inv.pos
  have hch := r.chain j hj
  rw [hc] at hch
  obtain ⟨h1, h2, nx, h3, h4⟩ := hch
  obtain ⟨m, hfm⟩ : ∃ m, s.heap.clock = m + 1 := ⟨s.heap.clock - 1, by have := r.ok.pos; omega⟩
  have hfind : findLoop (x.ops env) e.key s.heap.clock s.heap 0 (t.tab.buckets j) = .ok (some (0, pt, e, nx)) := by
    rw [show t.tab.buckets j = pt from h1, hfm]
    simp only [findLoop, if_neg h2, Heap.read_ok h3, Res.bind, q.law.refl]
    rfl
  simp only [deleteBody, setDelete, HStore.get, hi]
  simp only [Res.bind, hdelete, ops_eq' hf, r.ro, hro, ne_eq, not_true_eq_false, if_false, r.prime]
  rw [if_neg (by omega : ¬ x.tab.prime = 0), ← e1, e2, hfind]
  simp only [if_true, Heap.free, h3]
  refine ⟨_, rfl, ?_⟩
  simp [HStore.upd]

/-- an empty set has empty chains and vice versa -/
theorem chains_nil {h : Heap (Entry K Unit)} {t : HTab} {x : SetObj K} {a : Spec.ASet K} {B} (r : HRep h t x.tab B) (q : SRep env x a) :
    (∀ j, j < x.tab.prime → B j = []) ↔ x.tab.entries = 0 := by
  rw [q.rep.inv.count, List.length_eq_zero_iff]
  constructor
  · intro h
    rw [List.eq_nil_iff_forall_not_mem]
    intro e he
    obtain ⟨j, hj, hm⟩ := (Tab.mem_all x.tab e).1 he
    rw [← r.ents j hj, h j hj] at hm
    simp at hm
  · intro h j hj
    rw [← List.map_eq_nil_iff (f := Prod.snd), r.ents j hj, List.eq_nil_iff_forall_not_mem]
    intro e he
    have := (Tab.mem_all x.tab e).2 ⟨j, hj, he⟩
    rw [h] at this
    simp at this

theorem check2_self {i : Nat} {t : HSet} (hi : s.sets i = some t) : check2 s i i = .ok (t, t) := by
  simp [check2, HStore.get, hi, Res.bind]

/-- `set_add(s, s)` -/
theorem add_self_cases {i : Nat} {t : HSet} {x : SetObj K} {a : Spec.ASet K} (hi : s.sets i = some t)
    (r : HRep s.heap t.tab x.tab (A i)) (hf : t.hashFn = x.hashFn ∧ t.cmpFn = x.cmpFn) (q : SRep env x a) :
    setAdd env s i i = if t.tab.entries = 0 then .ok (s, i) else if t.tab.readonly ≠ 0 then .abort
      else if t.tab.entries * 2 ≤ t.tab.prime then .ok (s, i) else .ub := by
  have hr : t.tab.prime + 1 = rounds t := rfl
  simp only [setAdd, check2_self hi, Res.bind, r.entries, r.ro, r.prime]
  have hfirst := walk_first (body := insertBody env i) hi r (rounds t) 0 (Nat.zero_le _) (by rw [← hr, r.prime]; omega)
  by_cases h0 : x.tab.entries = 0
  · rw [if_pos h0]
    rcases hfirst with ⟨-, h⟩ | ⟨j, pt, e, l, hj, hB, -⟩
    · rw [h]
    · rw [(chains_nil r q).2 h0 j hj] at hB; simp at hB
  rw [if_neg h0]
  rcases hfirst with ⟨h, -⟩ | ⟨j, pt, e, l, hj, hB, hab, hub⟩
  · exact absurd ((chains_nil r q).1 fun j hj => h j (Nat.zero_le _) hj) h0
  by_cases hro : x.tab.readonly ≠ 0
  · rw [if_pos hro, hab]
    simp only [insertBody, setInsert, HStore.get, hi]
    simp only [Res.bind, hinsert, r.ro, if_pos hro]
  rw [if_neg hro]
  push Not at hro
  by_cases hg : x.tab.entries * 2 ≤ x.tab.prime
  · rw [if_pos hg, walk_quiet hi r (rounds t) 0
      (fun j hj c hc => insert_present hi r hf q hro (by omega) hj hc) (Nat.zero_le _) (by rw [← hr, r.prime]; omega)]
  · rw [if_neg hg]
    obtain ⟨s', h1, h2⟩ := insert_frees hi r hf q hro (by omega) hj (c := (pt, e)) (by rw [hB]; simp)
    rw [hub s' h1 h2]

/-- `set_del(s, s)` -/
theorem del_self_cases {i : Nat} {t : HSet} {x : SetObj K} {a : Spec.ASet K} (hi : s.sets i = some t)
    (r : HRep s.heap t.tab x.tab (A i)) (hf : t.hashFn = x.hashFn ∧ t.cmpFn = x.cmpFn) (q : SRep env x a) :
    setDel env s i i = if t.tab.entries = 0 then .ok (s, i) else if t.tab.readonly ≠ 0 then .abort else .ub := by
  have hr : t.tab.prime + 1 = rounds t := rfl
  simp only [setDel, check2_self hi, Res.bind, r.entries, r.ro]
  have hfirst := walk_first (body := deleteBody env i) hi r (rounds t) 0 (Nat.zero_le _) (by rw [← hr, r.prime]; omega)
  by_cases h0 : x.tab.entries = 0
  · rw [if_pos h0]
    rcases hfirst with ⟨-, h⟩ | ⟨j, pt, e, l, hj, hB, -⟩
    · rw [h]
    · rw [(chains_nil r q).2 h0 j hj] at hB; simp at hB
  rw [if_neg h0]
  rcases hfirst with ⟨h, -⟩ | ⟨j, pt, e, l, hj, hB, hab, hub⟩
  · exact absurd ((chains_nil r q).1 fun j hj => h j (Nat.zero_le _) hj) h0
  by_cases hro : x.tab.readonly ≠ 0
  · rw [if_pos hro, hab]
    have hp := q.rep.inv.pos
    simp only [deleteBody, setDelete, HStore.get, hi]
    simp only [Res.bind, hdelete, r.ro, if_pos hro, r.prime, if_neg (by omega : ¬ x.tab.prime = 0)]
  rw [if_neg hro]
  push Not at hro
  obtain ⟨s', h1, h2⟩ := delete_frees hi r hf q hro hj hB
  rw [hub s' h1 h2]

/-- pointer-level store and mathematical sets agree -/
def Full (env : FnEnv K) (s : HStore K) (α : Spec.AStore K) : Prop := ∃ σ A, HSt s σ A ∧ StRep env σ α

theorem Full.empty {place : Policy} (hp : Heap.Allocator place) : Full env (HStore.empty place : HStore K) Spec.AStore.empty :=
  ⟨Store.empty, _, HSt.empty hp, ⟨rfl, fun _ => trivial⟩⟩

theorem Full.get {α : Spec.AStore K} (f : Full env s α) {i : Nat} {t : HSet} (hi : s.sets i = some t) :
    ∃ x a B, α.objs i = some a ∧ HRep s.heap t.tab x.tab B ∧ (t.hashFn = x.hashFn ∧ t.cmpFn = x.cmpFn) ∧ SRep env x a := by
  obtain ⟨σ, A, r, q⟩ := f
  obtain ⟨x, h1, h2, h3⟩ := r.obj hi
  have := q.objs i
  rw [h1] at this
  cases ha : α.objs i with
  | none => rw [ha] at this; exact absurd this id
  | some a => rw [ha] at this; exact ⟨x, a, A i, rfl, h2, h3, this⟩

theorem Full.none {α : Spec.AStore K} (f : Full env s α) {i : Nat} (hi : s.sets i = .none) : α.objs i = .none := by
  obtain ⟨σ, A, r, q⟩ := f
  have h1 : σ.objs i = .none := by simpa using (r.m.none_iff i).1 (by simp [hi])
  have := q.objs i
  rw [h1] at this
  cases ha : α.objs i with
  | none => rfl
  | some a => rw [ha] at this; exact absurd this id

theorem Full.step {α : Spec.AStore K} (f : Full env s α) (o : Spec.SetOp K) (ho : Set.OkOp env o) :
    Spec.ResRel (fun c b => c.2 = b.2 ∧ Full env c.1 b.1) (hsetStep env s o) (Spec.setStep (Set.eqOf env) α o) := by
  obtain ⟨σ, A, r, q⟩ := f
  have h1 := step_ref (env := env) r o ho.1
  have h2 := Set.step_sim σ α o ho q
  cases ha : hsetStep env s o <;> cases hb : Set.setStep env σ o <;> rw [ha, hb] at h1 <;> simp only [Spec.ResRel] at h1 <;>
    cases hc : Spec.setStep (Set.eqOf env) α o <;> rw [hb, hc] at h2 <;> simp only [Spec.ResRel] at h2 ⊢
  obtain ⟨e1, B, e2, -⟩ := h1
  exact ⟨e1.trans h2.1, _, B, e2, h2.2⟩

theorem put_same {α : Spec.AStore K} {i : Nat} {a : Spec.ASet K} (h : α.objs i = some a) : α.put i (some a) = α := by
  cases α with
  | mk objs next =>
    simp only [Spec.AStore.put, Spec.AStore.mk.injEq, and_true]
    funext j
    split
    · rename_i e; rw [e]; exact h.symm
    · rfl

theorem union_self {eq : K → K → Bool} (hr : ∀ x, eq x x = true) (l : List K) : Spec.union eq l l = l := by
  unfold Spec.union
  rw [List.append_right_eq_self, List.filter_eq_nil_iff]
  intro x hx
  simp only [Bool.not_eq_true', Bool.not_eq_false]
  exact (Set.mem_iff _ _ _).2 ⟨x, hx, hr x⟩

/-- a self-call either does what the specification says or uses freed memory -/
theorem Full.self {α : Spec.AStore K} (f : Full env s α) (o : Spec.SetOp K) (i : Nat) (ho : o = .add i i ∨ o = .del i i) :
    Spec.ResRel (fun c b => c.2 = b.2 ∧ Full env c.1 b.1) (hsetStep env s o) (Spec.setStep (Set.eqOf env) α o) ∨
    hsetStep env s o = .ub := by
  cases hi : s.sets i with
  | none =>
    right
    rcases ho with rfl | rfl
    · simp [hsetStep, setAdd, check2, HStore.get, hi, Res.bind]
    · simp [hsetStep, setDel, check2, HStore.get, hi, Res.bind]
  | some t =>
    obtain ⟨x, a, B, h1, h2, h3, h4⟩ := f.get hi
    have hen : t.tab.entries = a.elems.length := by rw [h2.entries]; exact h4.count
    have hro : t.tab.readonly = a.readonly := h2.ro.trans h4.ro
    have hrefl : ∀ y, Set.eqOf env a.cmpFn y y = true := by
      intro y
      have := h4.law.refl y
      simp only [Set.SetObj.ops, FnEnv.ops, h4.cfn] at this
      simp [Set.eqOf, this]
    rcases ho with rfl | rfl
    · simp only [hsetStep, add_self_cases (A := fun _ => B) hi h2 h3 h4, Spec.setStep, Spec.AStore.get2, Spec.AStore.get, h1]
      simp only [Res.bind, and_self, if_true, hen, hro, union_self hrefl, put_same h1]
      by_cases e0 : a.elems.length = 0
      · rw [if_pos e0]
        simp only [List.length_eq_zero_iff] at e0
        simp only [e0, ne_eq, not_true_eq_false, and_false, if_false]
        exact Or.inl ⟨rfl, f⟩
      rw [if_neg e0]
      have e1 : a.elems ≠ [] := by simpa [List.length_eq_zero_iff] using e0
      by_cases r0 : a.readonly ≠ 0
      · rw [if_pos r0, if_pos ⟨r0, e1⟩]
        exact Or.inl trivial
      have r1 : ¬ (a.readonly ≠ 0 ∧ a.elems ≠ []) := fun h => r0 h.1
      rw [if_neg r0, if_neg r1]
      by_cases hp : a.elems.length * 2 ≤ t.tab.prime
      · rw [if_pos hp]
        exact Or.inl ⟨rfl, f⟩
      · rw [if_neg hp]
        exact Or.inr rfl
    · simp only [hsetStep, del_self_cases (A := fun _ => B) hi h2 h3 h4, Spec.setStep, Spec.AStore.get2, Spec.AStore.get, h1]
      simp only [Res.bind, and_self, if_true, hen, hro]
      by_cases e0 : a.elems.length = 0
      · rw [if_pos e0]
        simp only [List.length_eq_zero_iff] at e0
        have : ({ a with elems := Spec.diff (Set.eqOf env a.cmpFn) a.elems a.elems } : Spec.ASet K) = a := by
          cases a; simp only at e0; subst e0; rfl
        rw [this, put_same h1]
        simp only [e0, ne_eq, not_true_eq_false, and_false, if_false]
        exact Or.inl ⟨rfl, f⟩
      rw [if_neg e0]
      have e1 : a.elems ≠ [] := by simpa [List.length_eq_zero_iff] using e0
      by_cases r0 : a.readonly ≠ 0
      · rw [if_pos r0, if_pos ⟨r0, e1⟩]
        exact Or.inl trivial
      rw [if_neg r0]
      exact Or.inr rfl

end Maa.SetHeap
