import Verif.Model.StrMem
import Verif.Lemmas.Heap
import Verif.Lemmas.Objects
import Verif.Lemmas.CStr

namespace Maa.StrMem

open CStr (cstr)
open Spec (StrView StrOp)

theorem upToNul_some {buf s : List Byte} (h : Spec.upToNul buf = some s) : cstr buf = .ok s := by
  unfold Spec.upToNul at h
  split at h
  · rename_i h0
    simp only [Option.some.injEq] at h
    subst h
    induction buf with
    | nil => simp at h0
    | cons b bs ih =>
      simp only [cstr]
      by_cases hb : b = 0
      · simp [hb]
      · have : (0 : Byte) ∈ bs := by simpa [Ne.symm hb] using h0
        simp [hb, ih this, Res.bind]
  · simp at h

theorem upToNul_of {buf s : List Byte} (h : cstr buf = .ok s) : Spec.upToNul buf = some s := by
  cases hu : Spec.upToNul buf with
  | none =>
    exfalso
    unfold Spec.upToNul at hu
    split at hu
    · simp at hu
    · rename_i h0
      rw [CStr.cstr_ub h0] at h; simp at h
  | some t => rw [upToNul_some hu] at h; simpa using h

/-- total number of bytes of the strings handed out -/
def sizes (l : List (Nat × List Byte)) : Nat := (l.map fun p => p.2.length).sum

/-- Everything known about a string memory living in a memory that was `h0` when it was created. -/
structure Inv (h0 : Mem) (s : Mem × SInfo) (v : StrView) : Prop where
  ok : s.1.Ok
  strs : ∀ x ∈ v.strings, s.1.mem x.1 = some (x.2, 0) ∧ x.1 ∈ s.2.allocated
  nodup : (v.strings.map Prod.fst).Nodup
  growing : s.2.growing = v.pending.length
  pend : v.pending ≠ [] → ∃ top rest, s.2.allocated = top :: rest ∧ s.1.mem top = some (v.pending, 0) ∧
    top ∉ v.strings.map Prod.fst
  anodup : s.2.allocated.Nodup
  live : ∀ a ∈ s.2.allocated, (s.1.mem a).isSome
  above : ∀ a ∈ s.2.allocated, h0.mem a = none
  mono : h0.clock ≤ s.1.clock
  old : ∀ a, (h0.mem a).isSome → s.1.mem a = h0.mem a
  new : ∀ a, h0.mem a = none → (s.1.mem a).isSome → a ∈ s.2.allocated
  count : s.2.count = v.strings.length
  bytes : s.2.bytes = sizes v.strings + v.pending.length + v.abandoned

theorem create_inv (h0 : Mem) (ok : h0.Ok) : Inv h0 (h0, create) {} :=
  ⟨ok, by simp, by simp, rfl, by simp, by simp [create], by simp [create], by simp [create], Nat.le_refl _,
    fun _ _ => rfl, fun a h1 h2 => by simp [h1] at h2, rfl, by simp [create, sizes]⟩

/-- the next address does not belong to others -/
theorem Inv.addr {h0 : Mem} {s : Mem × SInfo} {v : StrView} (i : Inv h0 s v) : h0.mem s.1.addr = none := by
  by_contra hn
  have := i.old s.1.addr (Option.isSome_iff_ne_none.2 hn)
  rw [i.ok.addr.1] at this
  exact hn this.symm

/-- a new block holding a finished string -/
theorem Inv.copied {h0 : Mem} {s : Mem × SInfo} {v : StrView} (i : Inv h0 s v) (b : List Byte) :
    Inv h0 ((s.1.alloc (b, 0)).1, SInfo.mk (s.2.count + 1) (s.2.bytes + b.length) 0 (s.1.addr :: s.2.allocated))
      (StrView.mk ((s.1.addr, b) :: v.strings) [] (v.abandoned + v.pending.length)) := by
  have hne : ∀ a ∈ s.2.allocated, a ≠ s.1.addr := fun a ha => i.ok.ne (i.live a ha)
  refine ⟨i.ok.alloc _, ?_, ?_, rfl, by simp, ?_, ?_, ?_, ?_, ?_, ?_, ?_, ?_⟩
  · intro x hx
    rcases List.mem_cons.1 hx with rfl | hx
    · simp [Heap.alloc]
    · obtain ⟨h1, h2⟩ := i.strs x hx
      simp [Heap.alloc, hne _ h2, h1, h2]
  · simp only [List.map_cons, List.nodup_cons]
    refine ⟨fun hin => ?_, i.nodup⟩
    obtain ⟨x, hx, he⟩ := List.mem_map.1 hin
    exact hne _ (i.strs x hx).2 he
  · exact List.nodup_cons.2 ⟨fun hin => hne _ hin rfl, i.anodup⟩
  · intro a ha
    rcases List.mem_cons.1 ha with rfl | ha
    · simp [Heap.alloc]
    · simp [Heap.alloc, hne a ha, i.live a ha]
  · intro a ha
    rcases List.mem_cons.1 ha with rfl | ha
    · exact i.addr
    · exact i.above a ha
  · have := i.mono; simp [Heap.alloc]; omega
  · intro a ha
    simp only [Heap.alloc]
    rw [if_neg (by rintro rfl; rw [i.addr] at ha; simp at ha)]
    exact i.old a ha
  · intro a ha hs
    simp only [Heap.alloc] at hs
    by_cases hf : a = s.1.addr
    · simp [hf]
    · rw [if_neg hf] at hs
      exact List.mem_cons_of_mem _ (i.new a ha hs)
  · simp [i.count]
  · have := i.bytes
    simp only [sizes, List.map_cons, List.sum_cons, List.length_nil] at this ⊢
    omega

/-- growing succeeds and appends to the pending piece -/
theorem Inv.grown {h0 : Mem} {s : Mem × SInfo} {v : StrView} (i : Inv h0 s v) (b : List Byte) (len : Nat)
    (hl : len ≤ b.length) :
    ∃ s' top rest, grow s.1 s.2 b len = .ok s' ∧ Inv h0 s' { v with pending := v.pending ++ b.take len } ∧
      s'.2.allocated = top :: rest ∧ s'.1.mem top = some (v.pending ++ b.take len, 0) ∧
      top ∉ v.strings.map Prod.fst ∧ top ≠ 0 ∧ (∀ x ∈ v.strings, s'.1.mem x.1 = s.1.mem x.1) ∧
      s'.2.count = s.2.count := by
  have hne : ∀ a ∈ s.2.allocated, a ≠ s.1.addr := fun a ha => i.ok.ne (i.live a ha)
  have hplen : (b.take len).length = len := by simp [hl]
  have hfs : s.1.addr ∉ v.strings.map Prod.fst := fun hin => by
    obtain ⟨x, hx, he⟩ := List.mem_map.1 hin
    exact hne _ (i.strs x hx).2 he
  by_cases hg : s.2.growing = 0
  · have hpe : v.pending = [] := List.eq_nil_of_length_eq_zero (by rw [← i.growing, hg])
    have hcont : pasted (resized len []) 0 (b.take len) = .ok (b.take len) := by
      rw [pasted, if_neg (by simp [resized]; omega)]
      simp [resized]
      omega
    refine ⟨((s.1.alloc (b.take len, 0)).1,
      SInfo.mk s.2.count (s.2.bytes + len) (0 + len) (s.1.addr :: s.2.allocated)), s.1.addr, s.2.allocated, by
      unfold grow
      rw [if_neg (by omega)]
      simp only [hg, ne_eq, not_true_eq_false, if_false, hcont, Res.bind]
      rfl, ?_, rfl, ?_, hfs, i.ok.addr.2, ?_, rfl⟩
    · refine ⟨i.ok.alloc _, ?_, i.nodup, ?_, ?_, ?_, ?_, ?_, ?_, ?_, ?_, i.count, ?_⟩
      · intro x hx
        obtain ⟨h1, h2⟩ := i.strs x hx
        simp [Heap.alloc, hne _ h2, h1, h2]
      · simp [hpe, hl]
      · intro _
        refine ⟨s.1.addr, s.2.allocated, rfl, ?_, hfs⟩
        simp [Heap.alloc, hpe]
      · exact List.nodup_cons.2 ⟨fun hin => hne _ hin rfl, i.anodup⟩
      · intro a ha
        rcases List.mem_cons.1 ha with rfl | ha
        · simp [Heap.alloc]
        · simp [Heap.alloc, hne a ha, i.live a ha]
      · intro a ha
        rcases List.mem_cons.1 ha with rfl | ha
        · exact i.addr
        · exact i.above a ha
      · have := i.mono; simp [Heap.alloc]; omega
      · intro a ha
        simp only [Heap.alloc]
        rw [if_neg (by rintro rfl; rw [i.addr] at ha; simp at ha)]
        exact i.old a ha
      · intro a ha hs
        simp only [Heap.alloc] at hs
        by_cases hf : a = s.1.addr
        · simp [hf]
        · rw [if_neg hf] at hs
          exact List.mem_cons_of_mem _ (i.new a ha hs)
      · have := i.bytes
        simp only [List.length_append, hplen]
        omega
    · simp [Heap.alloc, hpe]
    · intro x hx
      simp [Heap.alloc, hne _ (i.strs x hx).2]
  · have hpe : v.pending ≠ [] := fun h => hg (by rw [i.growing, h]; rfl)
    obtain ⟨top, rest, ha, hm, hns⟩ := i.pend hpe
    have hnd := i.anodup
    rw [ha, List.nodup_cons] at hnd
    have hcont : pasted (resized (s.2.growing + len) v.pending) s.2.growing (b.take len) = .ok (v.pending ++ b.take len) := by
      have e1 : resized (s.2.growing + len) v.pending = v.pending ++ List.replicate len 0 := by
        rw [resized, i.growing, List.take_of_length_le (by simp), Nat.add_sub_cancel_left]
      rw [e1, i.growing, pasted, if_neg (by simp; omega), List.take_left, List.drop_eq_nil_of_le (by simp [hplen]), List.append_nil]
    have hfree := Heap.free_ok hm
    have hok := i.ok.free hfree
    generalize hfr : (Heap.mk (fun a => if a = top then none else s.1.mem a) s.1.clock s.1.place : Mem) = fr at hfree hok
    have hfm : ∀ a, fr.mem a = if a = top then none else s.1.mem a := fun a => by rw [← hfr]
    have hmem : ∀ (c : List Byte × Nat) (a : Nat), (Heap.alloc fr c).1.mem a =
        if a = fr.addr then some c else if a = top then none else s.1.mem a := fun c a => by rw [← hfm]; rfl
    have hnr : ∀ a ∈ s.2.allocated, a ≠ top → a ≠ fr.addr := fun a h1 h2 =>
      hok.ne (by rw [hfm, if_neg h2]; exact i.live a h1)
    have hrr : ∀ a ∈ rest, a ≠ top ∧ a ≠ fr.addr := fun a h =>
      have h1 : a ≠ top := by rintro rfl; exact hnd.1 h
      ⟨h1, hnr a (by rw [ha]; simp [h]) h1⟩
    have hfs : fr.addr ∉ v.strings.map Prod.fst := fun hin => by
      obtain ⟨x, hx, he⟩ := List.mem_map.1 hin
      exact hnr _ (i.strs x hx).2 (fun h => hns (h ▸ List.mem_map_of_mem hx)) he
    have hfa : h0.mem fr.addr = none := by
      by_contra hn
      have h1 := i.old fr.addr (Option.isSome_iff_ne_none.2 hn)
      have h2 := hok.addr.1
      rw [hfm] at h2
      split at h2
      · rename_i h3
        rw [h3] at hn
        exact hn (i.above top (by rw [ha]; simp))
      · rw [h2] at h1; exact hn h1.symm
    refine ⟨((Heap.alloc fr (v.pending ++ b.take len, 0)).1,
      SInfo.mk s.2.count (s.2.bytes + len) (s.2.growing + len) (fr.addr :: rest)), fr.addr, rest, by
      unfold grow
      rw [if_neg (by omega)]
      simp only [hg, ne_eq, not_false_eq_true, if_true, ha, Heap.read_ok hm, hfree, hcont, Res.bind]
      rfl, ?_, rfl, ?_, hfs, hok.addr.2, ?_, rfl⟩
    · refine ⟨hok.alloc _, ?_, i.nodup, ?_, ?_, ?_, ?_, ?_, ?_, ?_, ?_, i.count, ?_⟩
      · intro x hx
        obtain ⟨h1, h2⟩ := i.strs x hx
        have hxt : x.1 ≠ top := fun h => hns (h ▸ List.mem_map_of_mem hx)
        simp only [hmem]
        rw [if_neg (hnr _ h2 hxt), if_neg hxt]
        rw [ha] at h2
        exact ⟨h1, by simp [hxt] at h2; simp [h2]⟩
      · simp [i.growing, hl]
      · intro _
        refine ⟨fr.addr, rest, rfl, ?_, hfs⟩
        simp only [hmem]
        rw [if_pos trivial]
      · exact List.nodup_cons.2 ⟨fun hin => (hrr _ hin).2 rfl, hnd.2⟩
      · intro a h
        simp only [hmem]
        rcases List.mem_cons.1 h with rfl | h3
        · simp
        · rw [if_neg (hrr a h3).2, if_neg (hrr a h3).1]
          exact i.live a (by rw [ha]; simp [h3])
      · intro a h
        rcases List.mem_cons.1 h with rfl | h
        · exact hfa
        · exact i.above a (by rw [ha]; simp [h])
      · have := i.mono; simp [Heap.alloc, ← hfr]; omega
      · intro a h
        have h2 := i.above top (by rw [ha]; simp)
        simp only [hmem]
        rw [if_neg (by rintro rfl; rw [hfa] at h; simp at h), if_neg (by rintro rfl; rw [h2] at h; simp at h)]
        exact i.old a h
      · intro a h hs
        simp only [hmem] at hs
        by_cases hf : a = fr.addr
        · simp [hf]
        · rw [if_neg hf] at hs
          split at hs
          · simp at hs
          · rename_i hat
            have := i.new a h hs
            rw [ha] at this
            simp [hat] at this
            simp [this]
      · have := i.bytes
        simp only [List.length_append, hplen]
        omega
    · simp only [hmem]
      rw [if_pos trivial]
    · intro x hx
      obtain ⟨h1, h2⟩ := i.strs x hx
      simp only [hmem]
      have hxt : x.1 ≠ top := fun h => hns (h ▸ List.mem_map_of_mem hx)
      rw [if_neg (hnr _ h2 hxt), if_neg hxt]

/-- what one call does -/
theorem step_inv {h0 : Mem} {s : Mem × SInfo} {v : StrView} (i : Inv h0 s v) (o : StrOp)
    (hsee : ∀ r, v.see o r ≠ none) :
    ∃ s' r v', step s o = .ok (s', r) ∧ v.see o r = some v' ∧ Inv h0 s' v' ∧
      ((∀ b n, o ≠ .grow b n) → r ≠ 0 ∧ r ∉ v.strings.map Prod.fst) := by
  have hf0 : s.1.addr ≠ 0 := i.ok.addr.2
  have hfs : s.1.addr ∉ v.strings.map Prod.fst := fun hin => by
    obtain ⟨x, hx, he⟩ := List.mem_map.1 hin
    exact i.ok.ne (i.live _ (i.strs x hx).2) he
  cases o with
  | strcpy b =>
    cases hu : Spec.upToNul b with
    | none => exact absurd (by simp [StrView.see, hu]) (hsee 0)
    | some t =>
      have hc := upToNul_some hu
      have := i.copied (t ++ [0])
      simp only [List.length_append, List.length_singleton] at this
      refine ⟨_, s.1.addr, _, by
        simp only [step, strcpy, hc, Res.bind, CStr.cstr_take hc, CStr.ofStr]
        rfl, by simp only [StrView.see, hu, Option.map_some], this, fun _ => ⟨hf0, hfs⟩⟩
  | strncpy b n =>
    by_cases hl : n + 1 ≤ b.length
    · have := i.copied (b.take (n + 1))
      simp only [List.length_take, Nat.min_eq_left hl] at this
      refine ⟨_, s.1.addr, _, by
        simp only [step, strncpy]
        rw [if_neg (by omega)]
        rfl, by simp only [StrView.see, if_pos hl], this, fun _ => ⟨hf0, hfs⟩⟩
    · exact absurd (by simp only [StrView.see, if_neg hl]) (hsee 0)
  | grow b n =>
    by_cases hl : n ≤ b.length
    · obtain ⟨s', top, rest, h1, h2, -⟩ := i.grown b n hl
      exact ⟨s', 0, _, by simp only [step, h1, Res.bind], by simp only [StrView.see, if_pos hl], h2,
        fun h => absurd rfl (h b n)⟩
    · exact absurd (by simp only [StrView.see, if_neg hl]) (hsee 0)
  | finish =>
    obtain ⟨s', top, rest, h1, h2, h3, h4, h5, h6, h7, h8⟩ := i.grown [0] 1 (by simp)
    simp only [List.take_succ_cons, List.take_zero] at h2 h4
    refine ⟨(s'.1, { s'.2 with count := s'.2.count + 1, growing := 0 }), top, _, by
      simp only [step, finish, h1, Res.bind, h3, List.headD_cons], rfl, ?_,
      fun _ => ⟨h6, h5⟩⟩
    refine ⟨h2.ok, ?_, ?_, rfl, by simp, h2.anodup, h2.live, h2.above, h2.mono, h2.old, h2.new, ?_, ?_⟩
    · intro x hx
      rcases List.mem_cons.1 hx with rfl | hx
      · exact ⟨h4, by simp [h3]⟩
      · exact h2.strs x hx
    · simp only [List.map_cons, List.nodup_cons]
      exact ⟨h5, i.nodup⟩
    · have := h2.count; simp only at this ⊢; rw [this]; simp
    · have := h2.bytes
      simp only [sizes, List.map_cons, List.sum_cons, List.length_append, List.length_nil] at this ⊢
      omega

/-- a call the users may make -/
theorem see_all {v : StrView} {o : StrOp} {r : Nat} (h : v.see o r ≠ none) : ∀ r', v.see o r' ≠ none := by
  intro r'
  cases o <;> simp only [StrView.see] at h ⊢ <;> try simp
  · simpa using h
  · split at h
    · assumption
    · simp at h
  · split at h
    · assumption
    · simp at h

theorem run_inv {h0 : Mem} (hist : List StrOp) : ∀ (s s' : Mem × SInfo) (v v' : StrView) (outs : List Nat),
    Inv h0 s v → Spec.run step s hist = .ok (s', outs) → v.after hist outs = some v' → Inv h0 s' v' := by
  induction hist with
  | nil =>
    intro s s' v v' outs i hr hc
    simp only [Spec.run, Res.ok.injEq, Prod.mk.injEq] at hr
    rw [← hr.2] at hc
    simp only [StrView.after, Option.some.injEq] at hc
    rw [← hr.1, ← hc]; exact i
  | cons o os ih =>
    intro s s' v v' outs i hr hc
    simp only [Spec.run] at hr
    cases hs : step s o <;> rw [hs] at hr <;> simp [Res.bind] at hr
    rename_i q
    cases hr2 : Spec.run step q.1 os <;> rw [hr2] at hr <;> simp at hr
    rename_i q2
    rw [← hr.2] at hc
    simp only [StrView.after] at hc
    cases hsee : v.see o q.2 with
    | none => rw [hsee] at hc; simp at hc
    | some v1 =>
      rw [hsee] at hc
      simp only [Option.bind_some] at hc
      obtain ⟨s1, r1, v1', e1, e2, e3, -⟩ := step_inv i o (see_all (r := q.2) (by rw [hsee]; simp))
      rw [hs] at e1
      simp only [Res.ok.injEq] at e1
      rw [e1] at hsee
      simp only at hsee
      rw [e2] at hsee
      simp only [Option.some.injEq] at hsee
      rw [hsee] at e3
      refine ih q.1 s' v1 v' q2.2 (by rw [e1]; exact e3) (by rw [hr2, ← hr.1]) hc

end Maa.StrMem
