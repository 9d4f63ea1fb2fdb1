import Verif.Model.Objects
import Verif.Lemmas.Heap
import Mathlib.Data.List.Perm.Basic

namespace Maa.Objects

variable {α : Type}

/-- The pool's books are right: `held` are the objects in use. -/
structure PoolOk (h : Heap α) (i : Pool) (held : List Nat) : Prop where
  perm : (i.free ++ held).Perm i.allocated
  nodup : i.allocated.Nodup
  live : ∀ a ∈ i.allocated, (h.mem a).isSome ∧ a ≠ 0

theorem PoolOk.nodup' {h : Heap α} {i : Pool} {held} (p : PoolOk h i held) : (i.free ++ held).Nodup :=
  p.perm.nodup_iff.2 p.nodup

theorem PoolOk.mem {h : Heap α} {i : Pool} {held} (p : PoolOk h i held) {a : Nat} (ha : a ∈ i.free ++ held) :
    (h.mem a).isSome ∧ a ≠ 0 := p.live a (p.perm.subset ha)

/-- what `mem_get_object` does -/
theorem getObject_ok (junk : α × Nat) {h : Heap α} {i : Pool} {held} (ok : h.Ok) (p : PoolOk h i held) :
    let r := getObject junk h i
    r.1.Ok ∧ PoolOk r.1 r.2.1 (r.2.2 :: held) ∧ r.2.2 ∉ held ∧ r.2.2 ≠ 0 ∧ (r.1.mem r.2.2).isSome ∧
    h.clock ≤ r.1.clock ∧ r.2.1.used = i.used + 1 ∧ (∀ a, a ≠ r.2.2 → r.1.mem a = h.mem a) ∧
    ((i.free = [] ∧ r.2.1.total = i.total + 1 ∧ r.2.1.reused = i.reused ∧ r.2.2 = h.addr ∧
        r.2.1.allocated = h.addr :: i.allocated ∧ r.1 = (h.alloc junk).1) ∨
     (r.2.2 ∈ i.free ∧ r.2.1.total = i.total ∧ r.2.1.reused = i.reused + 1 ∧ r.2.1.allocated = i.allocated ∧ r.1 = h)) := by
  cases hf : i.free with
  | nil =>
    have hp := p.perm
    rw [hf, List.nil_append] at hp
    have hno : h.addr ∉ i.allocated := fun hin => ok.ne (p.live _ hin).1 rfl
    have hne : h.addr ≠ 0 := ok.addr.2
    simp only [getObject, hf, List.headD_nil, if_true]
    refine ⟨ok.alloc _, ⟨?_, ?_, ?_⟩, ?_, hne, ?_, ?_, trivial, ?_, Or.inl ?_⟩
    · simp only [List.tail_nil, List.nil_append]
      exact List.Perm.cons _ hp
    · exact List.nodup_cons.2 ⟨hno, p.nodup⟩
    · intro a ha
      rcases List.mem_cons.1 ha with rfl | ha
      · simp [Heap.alloc, hne]
      · have := p.live a ha
        refine ⟨?_, this.2⟩
        simp only [Heap.alloc]
        rw [if_neg (ok.ne this.1)]
        exact this.1
    · intro hin; exact hno (hp.subset hin)
    · simp [Heap.alloc]
    · simp [Heap.alloc]
    · intro a ha
      simp only [Heap.alloc] at ha ⊢
      rw [if_neg ha]
    · simp [Heap.alloc]
  | cons a l =>
    have h0 := p.mem (a := a) (by rw [hf]; simp)
    have hnd := p.nodup'
    rw [hf] at hnd
    simp only [getObject, hf, List.headD_cons, h0.2, if_false]
    simp only [List.cons_append, List.nodup_cons, List.mem_append, not_or] at hnd
    refine ⟨ok, ⟨?_, p.nodup, p.live⟩, hnd.1.2, h0.2, h0.1, Nat.le_refl _, trivial, fun _ _ => trivial,
      Or.inr ⟨by simp, trivial, trivial, trivial, trivial⟩⟩
    simp only [List.tail_cons]
    have hp := p.perm
    rw [hf] at hp
    exact List.perm_middle.trans hp

theorem freeObject_ok {h : Heap α} {i : Pool} {held} (p : PoolOk h i held) {a : Nat} (ha : a ∈ held) :
    PoolOk h (freeObject i a) (held.erase a) := by
  refine ⟨?_, p.nodup, p.live⟩
  simp only [freeObject]
  refine List.Perm.trans ?_ p.perm
  rw [List.cons_append]
  refine List.Perm.trans List.perm_middle.symm ?_
  exact List.Perm.append_left _ (List.perm_cons_erase ha).symm

theorem destroyLoop_ok (l : List Nat) : ∀ {h : Heap α}, l.Nodup → (∀ a ∈ l, (h.mem a).isSome) →
    ∃ h', destroyLoop l h = .ok h' ∧ (h'.clock = h.clock ∧ h'.place = h.place) ∧ ∀ a, h'.mem a = if a ∈ l then none else h.mem a := by
  induction l with
  | nil => intro h _ _; exact ⟨h, rfl, ⟨rfl, rfl⟩, by simp⟩
  | cons p l ih =>
    intro h hnd hl
    rw [List.nodup_cons] at hnd
    obtain ⟨c, hc⟩ := Option.isSome_iff_exists.1 (hl p (by simp))
    obtain ⟨h', i1, i2, i3⟩ := ih (h := { h with mem := fun a => if a = p then none else h.mem a }) hnd.2 (by
      intro a ha
      have : a ≠ p := by rintro rfl; exact hnd.1 ha
      simp only [this, if_false]
      exact hl a (by simp [ha]))
    refine ⟨h', by simp [destroyLoop, Heap.free_ok hc, Res.bind, i1], i2, ?_⟩
    intro a
    rw [i3 a]
    by_cases hap : a = p
    · simp [hap]
    · simp [hap]

/-- Everything known about a pool living in a memory that was `h0` when the pool was created. -/
structure Inv (h0 : Heap α) (s : Heap α × Pool) (c : Spec.Client) : Prop where
  ok : s.1.Ok
  pool : PoolOk s.1 s.2 c.held
  used : s.2.used = c.held.length
  total : s.2.total = s.2.allocated.length
  reused : s.2.total + s.2.reused = c.gets
  peak : c.peak = s.2.allocated.length
  mono : h0.clock ≤ s.1.clock
  old : ∀ a, (h0.mem a).isSome → s.1.mem a = h0.mem a
  new : ∀ a, h0.mem a = none → (s.1.mem a).isSome → a ∈ s.2.allocated
  above : ∀ a ∈ s.2.allocated, h0.mem a = none
  books : c.gets = c.frees + c.held.length

theorem get_inv {h0 : Heap α} {s : Heap α × Pool} {c : Spec.Client} (v : Inv h0 s c) (junk : α × Nat) :
    let r := getObject junk s.1 s.2
    Inv h0 (r.1, r.2.1)
      { c with held := r.2.2 :: c.held, gets := c.gets + 1, peak := max c.peak (c.held.length + 1) } ∧
    r.2.2 ∉ c.held ∧ r.2.2 ≠ 0 ∧ h0.mem r.2.2 = none ∧ (r.1.mem r.2.2).isSome := by
  obtain ⟨g1, g2, g3, g4, g5, g6, g7, g8, g9⟩ := getObject_ok junk v.ok v.pool
  have hu := v.used
  have ht := v.total
  have hr := v.reused
  have hp := v.peak
  have hlen := v.pool.perm.length_eq
  rw [List.length_append] at hlen
  have haddr : h0.mem s.1.addr = none := by
    by_contra hn
    have := v.old s.1.addr (Option.isSome_iff_ne_none.2 hn)
    rw [v.ok.addr.1] at this
    exact hn this.symm
  have hbase : h0.mem (getObject junk s.1 s.2).2.2 = none := by
    rcases g9 with ⟨-, -, -, e, -⟩ | ⟨e, -⟩
    · rw [e]; exact haddr
    · exact v.above _ (v.pool.perm.subset (by simp [e]))
  refine ⟨⟨g1, g2, ?_, ?_, ?_, ?_, Nat.le_trans v.mono g6, ?_, ?_, ?_, ?_⟩, g3, g4, hbase, g5⟩
  · simp only [List.length_cons]; rw [g7]; omega
  · rcases g9 with ⟨-, e2, -, -, e5, -⟩ | ⟨-, e2, -, e4, -⟩
    · simp only; rw [e2, e5, List.length_cons]; omega
    · simp only; rw [e2, e4]; omega
  · rcases g9 with ⟨-, e2, e3, -⟩ | ⟨-, e2, e3, -⟩ <;> simp only <;> omega
  · rcases g9 with ⟨e1, e2, e3, e4, e5, -⟩ | ⟨e1, e2, e3, e4, -⟩
    · simp only; rw [e5, List.length_cons, hp]
      rw [e1] at hlen
      simp only [List.length_nil] at hlen
      omega
    · simp only; rw [e4, hp]
      have := List.length_pos_of_mem e1
      omega
  · intro a ha
    simp only
    rw [g8 a (by rintro rfl; rw [hbase] at ha; simp at ha)]
    exact v.old a ha
  · intro a ha hs
    simp only at hs ⊢
    rcases g9 with ⟨e1, e2, e3, e4, e5, e6⟩ | ⟨e1, e2, e3, e4, e5⟩
    · rw [e5]
      by_cases hf : a = s.1.addr
      · simp [hf]
      · rw [g8 a (by rw [e4]; exact hf)] at hs
        exact List.mem_cons_of_mem _ (v.new a ha hs)
    · rw [e5] at hs; rw [e4]; exact v.new a ha hs
  · intro a ha
    simp only at ha
    rcases g9 with ⟨e1, e2, e3, e4, e5, e6⟩ | ⟨e1, e2, e3, e4, e5⟩
    · rw [e5] at ha
      rcases List.mem_cons.1 ha with rfl | ha
      · exact haddr
      · exact v.above a ha
    · rw [e4] at ha; exact v.above a ha
  · have := v.books; simp only [List.length_cons]; omega

theorem PoolOk.congr {h h' : Heap α} {i : Pool} {held} (p : PoolOk h i held)
    (hl : ∀ a, (h.mem a).isSome → (h'.mem a).isSome) : PoolOk h' i held :=
  ⟨p.perm, p.nodup, fun a ha => ⟨hl a (p.live a ha).1, (p.live a ha).2⟩⟩

theorem step_inv {h0 : Heap α} (zero junk : α × Nat) (s : Heap α × Pool) (c : Spec.Client) (o : Spec.ObjOp)
    (v : Inv h0 s c) (hsee : ∀ r, c.see o r ≠ none) :
    ∃ s' r, step zero junk s o = .ok (s', r) ∧
      ((∃ c', c.see o r = some c') ∧ ∀ c', c.see o r = some c' → Inv h0 s' c') ∧
      ((∀ p, o ≠ .free p) → r ∉ c.held ∧ r ≠ 0 ∧ h0.mem r = none ∧ (s'.1.mem r).isSome) ∧
      (o = .getEmpty → s'.1.mem r = some zero) ∧
      (∀ a ∈ c.held, s'.1.mem a = s.1.mem a) := by
  cases o with
  | get =>
    obtain ⟨h1, h2, h3, h4, h5⟩ := get_inv v junk
    obtain ⟨-, -, -, -, -, -, -, g8, -⟩ := getObject_ok junk v.ok v.pool
    refine ⟨_, _, rfl, ⟨⟨_, rfl⟩, ?_⟩, fun _ => ⟨h2, h3, h4, h5⟩, fun h => by simp at h, ?_⟩
    · intro c' hc
      simp only [Spec.Client.see, Option.some.injEq] at hc
      rw [← hc]; exact h1
    · intro a ha
      exact g8 a (by rintro rfl; exact h2 ha)
  | getEmpty =>
    obtain ⟨h1, h2, h3, h4, h5⟩ := get_inv v junk
    obtain ⟨-, -, -, -, -, -, -, g8, -⟩ := getObject_ok junk v.ok v.pool
    obtain ⟨x, hx⟩ := Option.isSome_iff_exists.1 h5
    have hw := Heap.write_ok (c' := zero) hx
    have hstep : ∃ h', step zero junk s .getEmpty =
        .ok ((h', (getObject junk s.1 s.2).2.1), (getObject junk s.1 s.2).2.2) ∧
        h' = Heap.mk (fun a => if a = (getObject junk s.1 s.2).2.2 then some zero else
          (getObject junk s.1 s.2).1.mem a) (getObject junk s.1 s.2).1.clock (getObject junk s.1 s.2).1.place := by
      refine ⟨_, by simp only [step, getEmptyObject, hw, Res.bind], rfl⟩
    obtain ⟨h', hstep, hh'⟩ := hstep
    have hok : h'.Ok := by rw [hh']; exact h1.ok.write hw
    subst hh'
    refine ⟨_, _, hstep, ⟨⟨_, rfl⟩, ?_⟩, fun _ => ⟨h2, h3, h4, ?_⟩,
      ?_, ?_⟩
    · intro c' hc
      simp only [Spec.Client.see, Option.some.injEq] at hc
      rw [← hc]
      have hsame : ∀ a, ((if a = (getObject junk s.1 s.2).2.2 then some zero else
          (getObject junk s.1 s.2).1.mem a).isSome) = ((getObject junk s.1 s.2).1.mem a).isSome := by
        intro a
        split
        · rename_i ha; rw [ha, hx]; rfl
        · rfl
      refine ⟨hok, h1.pool.congr (fun a ha => by simp only [hsame]; exact ha), h1.used, h1.total, h1.reused,
        h1.peak, h1.mono, ?_, ?_, h1.above, h1.books⟩
      · intro a ha
        simp only
        rw [if_neg (by rintro rfl; rw [h4] at ha; simp at ha)]
        exact h1.old a ha
      · intro a ha hs
        simp only [hsame] at hs
        exact h1.new a ha hs
    · simp
    · intro _; simp
    · intro a ha
      have : a ≠ (getObject junk s.1 s.2).2.2 := by rintro rfl; exact h2 ha
      simp only [this, if_false]
      exact g8 a this
  | free p =>
    have hp : p ∈ c.held := by
      have := hsee 0
      simp only [Spec.Client.see] at this
      by_contra hc
      simp [hc] at this
    refine ⟨_, _, rfl, ⟨⟨{ c with held := c.held.erase p, frees := c.frees + 1 }, by simp only [Spec.Client.see, if_pos hp]⟩, ?_⟩, fun hq => absurd rfl (hq p), fun h => by simp at h,
      fun _ _ => rfl⟩
    intro c' hc
    simp only [Spec.Client.see, if_pos hp, Option.some.injEq] at hc
    rw [← hc]
    have hl := List.length_erase_of_mem hp
    have hpos := List.length_pos_of_mem hp
    have hu := v.used
    refine ⟨v.ok, freeObject_ok v.pool hp, ?_, v.total, v.reused, v.peak, v.mono, v.old, v.new, v.above, ?_⟩
    · simp only [freeObject]; omega
    · have := v.books; simp only; omega

theorem run_inv {h0 : Heap α} (zero junk : α × Nat) (hist : List Spec.ObjOp) : ∀ (s s' : Heap α × Pool)
    (c c' : Spec.Client) (outs : List Nat), Inv h0 s c →
    Spec.run (step zero junk) s hist = .ok (s', outs) → c.after hist outs = some c' → Inv h0 s' c' := by
  induction hist with
  | nil =>
    intro s s' c c' outs v hr hc
    simp only [Spec.run, Res.ok.injEq, Prod.mk.injEq] at hr
    rw [← hr.2] at hc
    simp only [Spec.Client.after, Option.some.injEq] at hc
    rw [← hr.1, ← hc]; exact v
  | cons o os ih =>
    intro s s' c c' outs v hr hc
    simp only [Spec.run] at hr
    cases hs : step zero junk s o <;> rw [hs] at hr <;> simp [Res.bind] at hr
    rename_i q
    cases hr2 : Spec.run (step zero junk) q.1 os <;> rw [hr2] at hr <;> simp at hr
    rename_i q2
    rw [← hr.2] at hc
    simp only [Spec.Client.after] at hc
    cases hsee : c.see o q.2 with
    | none => rw [hsee] at hc; simp at hc
    | some c1 =>
      rw [hsee] at hc
      simp only [Option.bind_some] at hc
      have hall : ∀ r, c.see o r ≠ none := by
        intro r
        cases o <;> simp only [Spec.Client.see] at hsee ⊢ <;> try simp
        split at hsee
        · assumption
        · simp at hsee
      obtain ⟨s1, r1, e1, ⟨-, e2⟩, -⟩ := step_inv zero junk s c o v hall
      rw [hs] at e1
      simp only [Res.ok.injEq] at e1
      have := e2 c1 (by rw [← hsee, e1])
      refine ih q.1 s' c1 c' q2.2 (by rw [e1]; exact this) (by rw [hr2, ← hr.1]) hc

theorem step_size (zero junk : α × Nat) (s : Heap α × Pool) (o : Spec.ObjOp) (s' : Heap α × Pool) (x : Nat)
    (hs : step zero junk s o = .ok (s', x)) : s'.2.size = s.2.size := by
  have hg : (getObject junk s.1 s.2).2.1.size = s.2.size := by
    simp only [getObject]; split <;> rfl
  cases o with
  | get =>
    simp only [step, Res.ok.injEq, Prod.mk.injEq] at hs
    rw [← hs.1]; exact hg
  | getEmpty =>
    simp only [step, getEmptyObject] at hs
    cases hw : (getObject junk s.1 s.2).1.write (getObject junk s.1 s.2).2.2 zero <;> rw [hw] at hs <;>
      simp [Res.bind] at hs
    rw [← hs.1]; exact hg
  | free p =>
    simp only [step, Res.ok.injEq, Prod.mk.injEq] at hs
    rw [← hs.1]; rfl

theorem create_inv (h0 : Heap α) (ok : h0.Ok) (size : Int) : Inv h0 (h0, create size) {} :=
  ⟨ok, ⟨by simp [create], by simp [create], by simp [create]⟩, rfl, rfl, rfl, rfl, Nat.le_refl _, fun _ _ => rfl,
    fun a ha hs => by simp [ha] at hs, by simp [create], rfl⟩

end Maa.Objects
