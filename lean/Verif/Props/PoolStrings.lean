import Verif.Props.StrPool
import Verif.Props.Arg
import Verif.Props.Counters

/-! # C80: the strings a pool hands out; C24 for the functions built on `mem_strncpy` -/

namespace Maa.StrPool

open Spec (PoolOp GlobalOp StringAt upToNul StrView)
open CStr (cstr)
open StrMem (Mem SInfo)
open Tab (Entry)

/-- Calls that always return a new string. -/
def copies : PoolOp → Bool
  | .copy _ | .copyn _ _ => true
  | _ => false

section
variable {h0 : Mem} {hh0 : Heap (Entry SKey Ptr)} {p : Pool} {v : StrView} {M : List (List Byte × Nat)} {ro : Int}

/-- What one call adds to the strings in memory (`v`) and to the pool (`M`). -/
structure Adds (v : StrView) (M : List (List Byte × Nat)) (o : PoolOp) (r : Spec.Ret) (v' : StrView) (M' : List (List Byte × Nat)) : Prop where
  strings : ∀ x ∈ v.strings, x ∈ v'.strings
  pooled : ∀ x ∈ M, x ∈ M'
  new : ∀ x ∈ M', x ∈ M ∨ (r = .ptr x.2 ∧ copies o = false ∧ x.2 ∉ v.strings.map Prod.fst)
  there : ∀ d, r = .ptr d → d ≠ 0 ∧ d ∈ v'.strings.map Prod.fst
  fresh : copies o = true ∨ o.isFinish = true → ∀ d, r = .ptr d → d ∉ v.strings.map Prod.fst
  found : ∀ d, r = .ptr d → d ∈ M.map Prod.snd ∨ d ∉ v.strings.map Prod.fst
  copy : ∀ a, o = .copy a → ∃ t d, cstr a = .ok t ∧ r = .ptr d ∧ (d, t ++ [0]) ∈ v'.strings
  copyn : ∀ s n, o = .copyn s n → ∃ d, r = .ptr d ∧ (d, s.take (n + 1)) ∈ v'.strings

theorem mem_fst {l : List (Nat × List Byte)} {d : Nat} {b : List Byte} (h : (d, b) ∈ l) : d ∈ l.map Prod.fst := List.mem_map.2 ⟨_, h, rfl⟩

theorem step_adds (ok0 : h0.Ok) (i : PInv h0 hh0 p v M ro) (o : PoolOp) (ho : o.Permitted) {p' : Pool} {r : Spec.Ret} (h : step p o = .ok (p', r)) :
    ∃ v' M' ro', PInv h0 hh0 p' v' M' ro' ∧ Adds v M o r v' M' := by
  have quiet : ∀ (v' : StrView) (o : PoolOp) (k : Int), copies o = false → o.isFinish = false → (∀ x ∈ v.strings, x ∈ v'.strings) → Adds v M o (.int k) v' M := by
    intro v' o k h1 h2 h3
    refine ⟨h3, fun _ h => h, fun _ h => .inl h, fun _ e => (by cases e), fun h => ?_, fun _ e => (by cases e), fun _ e => ?_, fun _ _ e => ?_⟩
    · rcases h with h | h
      · rw [h1] at h; cases h
      · rw [h2] at h; cases h
    · rw [e] at h1; cases h1
    · rw [e] at h1; cases h1
  have known : ∀ x ∈ M, x.2 ≠ 0 ∧ x.2 ∈ v.strings.map Prod.fst := by
    intro x hx
    obtain ⟨b, hb, -⟩ := i.known x hx
    exact ⟨i.nonnull ok0 hx, mem_fst hb⟩
  cases o with
  | exists_ s =>
    obtain ⟨t, hs⟩ := cstr_of_mem ho
    obtain ⟨p1, h1, h2, -⟩ := i.exists_ok ok0 hs
    simp only [step, h1, Res.bind, Res.ok.injEq, Prod.mk.injEq] at h
    obtain ⟨rfl, rfl⟩ := h
    exact ⟨v, M, ro, h2, quiet v _ _ rfl rfl (fun _ h => h)⟩
  | find s =>
    obtain ⟨t, hs⟩ := cstr_of_mem ho
    cases hl : lookup M t with
    | some d =>
      obtain ⟨p1, h1, h2, -⟩ := i.find_old ok0 hs hl
      simp only [step, h1, Res.bind, Res.ok.injEq, Prod.mk.injEq] at h
      obtain ⟨rfl, rfl⟩ := h
      have hd := known _ (lookup_some hl)
      refine ⟨v, M, ro, h2, fun _ h => h, fun _ h => h, fun _ h => .inl h, ?_, ?_, ?_, fun _ e => (by cases e), fun _ _ e => (by cases e)⟩
      · rintro d' e; cases e; exact hd
      · rintro (e | e) <;> cases e
      · rintro d' e; cases e; exact .inl (List.mem_map.2 ⟨_, lookup_some hl, rfl⟩)
    | none =>
      obtain ⟨h1, h2⟩ := i.find_new hs hl
      by_cases hro : ro = 0
      · obtain ⟨p1, d, h3, h4, h5, h6⟩ := h2 hro
        simp only [step, h3, Res.bind, Res.ok.injEq, Prod.mk.injEq] at h
        obtain ⟨rfl, rfl⟩ := h
        refine ⟨_, _, 0, h4, fun _ h => by simp [h], fun _ h => by simp [h], ?_, ?_, ?_, ?_, fun _ e => (by cases e), fun _ _ e => (by cases e)⟩
        · intro x hx
          rcases List.mem_cons.1 hx with rfl | hx
          · exact .inr ⟨rfl, rfl, h6⟩
          · exact .inl hx
        · rintro d' e; cases e; exact ⟨h5, by simp⟩
        · rintro (e | e) <;> cases e
        · rintro d' e; cases e; exact .inr h6
      · rw [step, h1 hro] at h; cases h
  | copy s =>
    obtain ⟨t, hs⟩ := cstr_of_mem ho
    obtain ⟨s', d, v', e1, e2, e3, e4⟩ := StrMem.step_inv i.str (.strcpy s)
      (by intro r; simp [StrView.see, StrMem.upToNul_of hs])
    simp only [StrView.see, StrMem.upToNul_of hs, Option.map_some, Option.some.injEq] at e2
    simp only [StrMem.step] at e1
    have hsub : ∀ x ∈ v.strings, x ∈ v'.strings := by rw [← e2]; exact copied_sub _ _ _ _
    have i2 := i.strStep (mem' := s'.1) (str' := s'.2) e3 hsub
    simp only [step, StrPool.copy, e1, Res.bind, Res.ok.injEq, Prod.mk.injEq] at h
    obtain ⟨rfl, rfl⟩ := h
    have hd := e4 (by simp)
    have hin : (d, t ++ [0]) ∈ v'.strings := by rw [← e2]; simp
    refine ⟨v', M, ro, i2, hsub, fun _ h => h, fun _ h => .inl h, ?_, ?_, ?_, ?_, fun _ _ e => (by cases e)⟩
    · rintro d' e; cases e; exact ⟨hd.1, mem_fst hin⟩
    · rintro - d' e; cases e; exact hd.2
    · rintro d' e; cases e; exact .inr hd.2
    · intro a e; cases e; exact ⟨t, d, hs, rfl, hin⟩
  | copyn s n =>
    have hn : n + 1 ≤ s.length := ho
    obtain ⟨s', d, v', e1, e2, e3, e4⟩ := StrMem.step_inv i.str (.strncpy s n)
      (by intro r; simp only [StrView.see]; rw [if_pos hn]; simp)
    simp only [StrView.see, if_pos hn, Option.some.injEq] at e2
    simp only [StrMem.step] at e1
    have hsub : ∀ x ∈ v.strings, x ∈ v'.strings := by rw [← e2]; exact copied_sub _ _ _ _
    have i2 := i.strStep (mem' := s'.1) (str' := s'.2) e3 hsub
    simp only [step, StrPool.copyn, e1, Res.bind, Res.ok.injEq, Prod.mk.injEq] at h
    obtain ⟨rfl, rfl⟩ := h
    have hd := e4 (by simp)
    have hin : (d, s.take (n + 1)) ∈ v'.strings := by rw [← e2]; simp
    refine ⟨v', M, ro, i2, hsub, fun _ h => h, fun _ h => .inl h, ?_, ?_, ?_, fun _ e => (by cases e), ?_⟩
    · rintro d' e; cases e; exact ⟨hd.1, mem_fst hin⟩
    · rintro - d' e; cases e; exact hd.2
    · rintro d' e; cases e; exact .inr hd.2
    · intro a k e; cases e; exact ⟨d, rfl, hin⟩
  | grow s n =>
    have hn : n ≤ s.length := ho
    obtain ⟨s1, top, rest, a1, a2, -⟩ := i.str.grown s n hn
    have i2 := i.strStep (mem' := s1.1) (str' := s1.2) a2 (fun _ h => h)
    simp only at a1
    simp only [step, grow, a1, Res.bind, Res.ok.injEq, Prod.mk.injEq] at h
    obtain ⟨rfl, rfl⟩ := h
    exact ⟨_, M, ro, i2, quiet _ _ _ rfl rfl (fun _ h => h)⟩
  | finish =>
    obtain ⟨c, -, h1, h2⟩ := i.finish_ok
    by_cases hro : ro = 0
    · obtain ⟨p1, d, h3, h4, h5, h6⟩ := h2 hro
      simp only [step, h3, Res.bind, Res.ok.injEq, Prod.mk.injEq] at h
      obtain ⟨rfl, rfl⟩ := h
      refine ⟨_, _, 0, h4, fun _ h => by simp [h], ?_, ?_, ?_, ?_, ?_, fun _ e => (by cases e), fun _ _ e => (by cases e)⟩
      · intro x hx; split
        · exact hx
        · simp [hx]
      · intro x hx
        split at hx
        · exact .inl hx
        · rcases List.mem_cons.1 hx with rfl | hx
          · exact .inr ⟨rfl, rfl, h6⟩
          · exact .inl hx
      · rintro d' e; cases e; exact ⟨h5, by simp⟩
      · rintro - d' e; cases e; exact h6
      · rintro d' e; cases e; exact .inr h6
    · rw [step, h1 hro] at h; cases h
  | iterate f =>
    obtain ⟨t', log, res, ro', h1, h2, h3, -⟩ := i.iter f id 1 (fun t => Or.inr ⟨rfl, rfl⟩)
    simp only [step, iterate, h1, Res.bind, Res.ok.injEq, Prod.mk.injEq] at h
    obtain ⟨rfl, rfl⟩ := h
    exact ⟨v, M, ro', h2, quiet v _ _ rfl rfl (fun _ h => h)⟩
  | iterateArg f =>
    obtain ⟨t', log, res, ro', h1, h2, h3, h4, h5, h6⟩ := i.iter f (fun t => { t with readonly := 0 }) 0 (fun t => Or.inl rfl)
    simp only [step, iterateArg, h1, Res.bind, Res.ok.injEq, Prod.mk.injEq] at h
    obtain ⟨rfl, rfl⟩ := h
    exact ⟨v, M, ro', h2, quiet v _ _ rfl rfl (fun _ h => h)⟩

/-- A whole history; `C` are copies handed out before it. -/
theorem run_adds (ok0 : h0.Ok) (hist : List PoolOp) : ∀ {p : Pool} {v : StrView} {M : List (List Byte × Nat)} {ro : Int} {p' : Pool} {outs : List Spec.Ret}
    {C : List Nat}, PInv h0 hh0 p v M ro → (∀ o ∈ hist, o.Permitted) → Spec.run step p hist = .ok (p', outs) →
    (∀ c ∈ C, c ∈ v.strings.map Prod.fst ∧ c ∉ M.map Prod.snd) →
    ∃ v' M' ro', PInv h0 hh0 p' v' M' ro' ∧ (∀ x ∈ v.strings, x ∈ v'.strings) ∧ outs.length = hist.length ∧
      (∀ (j : Nat) (d : Nat), outs[j]? = some (.ptr d) → d ∉ C ∧ d ≠ 0 ∧ d ∈ v'.strings.map Prod.fst) ∧
      (∀ (i j : Nat) (o : PoolOp) (x y : Nat), i ≠ j → hist[i]? = some o → copies o = true → outs[i]? = some (.ptr x) → outs[j]? = some (.ptr y) → x ≠ y) ∧
      (∀ (i : Nat) (o : PoolOp) (x : Nat), hist[i]? = some o → copies o = true ∨ o.isFinish = true → outs[i]? = some (.ptr x) →
        x ∉ v.strings.map Prod.fst ∧ ∀ (j y : Nat), j < i → outs[j]? = some (.ptr y) → x ≠ y) ∧
      (∀ (i : Nat) (a : List Byte), hist[i]? = some (.copy a) → ∃ t d, cstr a = .ok t ∧ outs[i]? = some (.ptr d) ∧ (d, t ++ [0]) ∈ v'.strings) ∧
      (∀ (i : Nat) (s : List Byte) (n : Nat), hist[i]? = some (.copyn s n) → ∃ d, outs[i]? = some (.ptr d) ∧ (d, s.take (n + 1)) ∈ v'.strings) := by
  induction hist with
  | nil =>
    intro p v M ro p' outs C i _ hr _
    simp only [Spec.run, Res.ok.injEq, Prod.mk.injEq] at hr
    obtain ⟨rfl, rfl⟩ := hr
    exact ⟨v, M, ro, i, fun _ h => h, rfl, by simp, by simp, by simp, by simp, by simp⟩
  | cons o os ih =>
    intro p v M ro p' outs C i ho hr hC
    simp only [Spec.run, Res.bind_ok_iff, Res.ok.injEq, Prod.mk.injEq] at hr
    obtain ⟨⟨p1, r⟩, e1, ⟨q, rs⟩, e2, e3, e4⟩ := hr
    simp only at e2 e3 e4
    subst e3; subst e4
    obtain ⟨v1, M1, ro1, i1, a⟩ := step_adds ok0 i o (ho o (by simp)) e1
    -- the copies so far, and this one if it is a copy
    let C1 : List Nat := match r with
      | .ptr d => if copies o then d :: C else C
      | _ => C
    have hfst : ∀ d, d ∈ v.strings.map Prod.fst → d ∈ v1.strings.map Prod.fst := by
      intro d hd
      obtain ⟨x, hx, rfl⟩ := List.mem_map.1 hd
      exact List.mem_map.2 ⟨x, a.strings x hx, rfl⟩
    have hold : ∀ c ∈ C, c ∈ v1.strings.map Prod.fst ∧ c ∉ M1.map Prod.snd := by
      intro c hc
      refine ⟨hfst c (hC c hc).1, fun hm => ?_⟩
      obtain ⟨x, hx, rfl⟩ := List.mem_map.1 hm
      rcases a.new x hx with h | ⟨-, -, h⟩
      · exact (hC _ hc).2 (List.mem_map.2 ⟨x, h, rfl⟩)
      · exact h (hC _ hc).1
    have hC1 : ∀ c ∈ C1, c ∈ v1.strings.map Prod.fst ∧ c ∉ M1.map Prod.snd := by
      intro c hc
      cases r with
      | ptr d =>
        simp only [C1] at hc
        by_cases hco : copies o = true
        · rw [if_pos hco] at hc
          rcases List.mem_cons.1 hc with rfl | hc
          · refine ⟨(a.there c rfl).2, fun hm => ?_⟩
            obtain ⟨x, hx, e⟩ := List.mem_map.1 hm
            rcases a.new x hx with h | ⟨-, h, -⟩
            · obtain ⟨b, hb, -⟩ := i.known x h
              exact a.fresh (.inl hco) c rfl (e ▸ mem_fst hb)
            · rw [hco] at h; cases h
          · exact hold c hc
        · rw [if_neg hco] at hc; exact hold c hc
      | _ => exact hold c hc
    obtain ⟨v2, M2, ro2, k1, k2, k3, k4, k5, k6, k7, k8⟩ := ih i1 (fun o h => ho o (by simp [h])) e2 hC1
    have hsubC : ∀ c ∈ C, c ∈ C1 := by
      intro c hc
      cases r with
      | ptr d =>
        simp only [C1]
        split
        · simp [hc]
        · exact hc
      | _ => exact hc
    have hfst2 : ∀ d, d ∈ v1.strings.map Prod.fst → d ∈ v2.strings.map Prod.fst := by
      intro d hd
      obtain ⟨x, hx, rfl⟩ := List.mem_map.1 hd
      exact List.mem_map.2 ⟨x, k2 x hx, rfl⟩
    have later : ∀ (j y x : Nat), copies o = true → r = .ptr x → rs[j]? = some (.ptr y) → x ≠ y := by
      intro j y x hco hr hj e
      refine (k4 j y hj).1 ?_
      subst hr
      simp only [C1, if_pos hco]
      exact e ▸ List.mem_cons_self
    refine ⟨v2, M2, ro2, k1, fun x hx => k2 x (a.strings x hx), by simp [k3], ?_, ?_, ?_, ?_, ?_⟩
    · intro j d hj
      cases j with
      | zero =>
        simp only [List.getElem?_cons_zero, Option.some.injEq] at hj
        have := a.there d hj
        refine ⟨fun hc => ?_, this.1, hfst2 d this.2⟩
        rcases a.found d hj with h | h
        · exact (hC d hc).2 h
        · exact h (hC d hc).1
      | succ j =>
        simp only [List.getElem?_cons_succ] at hj
        have := k4 j d hj
        exact ⟨fun hc => this.1 (hsubC d hc), this.2⟩
    · intro i' j o' x y hne hi hco hx hy
      cases i' with
      | zero =>
        simp only [List.getElem?_cons_zero, Option.some.injEq] at hi hx
        subst hi
        cases j with
        | zero => exact absurd rfl hne
        | succ j => exact later j y x hco hx (by simpa using hy)
      | succ i' =>
        simp only [List.getElem?_cons_succ] at hi hx
        cases j with
        | zero =>
          simp only [List.getElem?_cons_zero, Option.some.injEq] at hy
          have := (k6 i' o' x hi (.inl hco) hx).1
          intro e; subst e
          exact this (a.there x hy).2
        | succ j => exact k5 i' j o' x y (fun e => hne (by rw [e])) hi hco hx (by simpa using hy)
    · intro i' o' x hi hco hx
      cases i' with
      | zero =>
        simp only [List.getElem?_cons_zero, Option.some.injEq] at hi hx
        subst hi
        exact ⟨a.fresh hco x hx, fun j y hj => absurd hj (by omega)⟩
      | succ i' =>
        simp only [List.getElem?_cons_succ] at hi hx
        obtain ⟨m1, m2⟩ := k6 i' o' x hi hco hx
        refine ⟨fun h => m1 (hfst x h), fun j y hj hy => ?_⟩
        cases j with
        | zero =>
          simp only [List.getElem?_cons_zero, Option.some.injEq] at hy
          intro e; subst e
          exact m1 (a.there x hy).2
        | succ j => exact m2 j y (by omega) (by simpa using hy)
    · intro i' b hi
      cases i' with
      | zero =>
        simp only [List.getElem?_cons_zero, Option.some.injEq] at hi
        obtain ⟨t, d, h1, h2, h3⟩ := a.copy b hi
        exact ⟨t, d, h1, by simp [h2], k2 _ h3⟩
      | succ i' => simpa using k7 i' b (by simpa using hi)
    · intro i' s n hi
      cases i' with
      | zero =>
        simp only [List.getElem?_cons_zero, Option.some.injEq] at hi
        obtain ⟨d, h2, h3⟩ := a.copyn s n hi
        exact ⟨d, by simp [h2], k2 _ h3⟩
      | succ i' => simpa using k8 i' s n (by simpa using hi)

end

variable {h0 : Mem} {hh0 : Heap (Entry SKey Ptr)}

theorem Reaches.adds (st : Start h0 hh0) {hist : List PoolOp} {p : Pool} {outs : List Spec.Ret} (r : Reaches h0 hh0 hist p outs) :
    ∃ v' M' ro', PInv h0 hh0 p v' M' ro' ∧ outs.length = hist.length ∧
      (∀ (j : Nat) (d : Nat), outs[j]? = some (.ptr d) → d ≠ 0 ∧ d ∈ v'.strings.map Prod.fst) ∧
      (∀ (i j : Nat) (o : PoolOp) (x y : Nat), i ≠ j → hist[i]? = some o → copies o = true → outs[i]? = some (.ptr x) → outs[j]? = some (.ptr y) → x ≠ y) ∧
      (∀ (i : Nat) (o : PoolOp) (x : Nat), hist[i]? = some o → copies o = true ∨ o.isFinish = true → outs[i]? = some (.ptr x) →
        ∀ (j y : Nat), j < i → outs[j]? = some (.ptr y) → x ≠ y) ∧
      (∀ (i : Nat) (a : List Byte), hist[i]? = some (.copy a) → ∃ t d, cstr a = .ok t ∧ outs[i]? = some (.ptr d) ∧ (d, t ++ [0]) ∈ v'.strings) ∧
      (∀ (i : Nat) (s : List Byte) (n : Nat), hist[i]? = some (.copyn s n) → ∃ d, outs[i]? = some (.ptr d) ∧ (d, s.take (n + 1)) ∈ v'.strings) := by
  obtain ⟨p0, h1, h2, h3⟩ := r
  obtain ⟨p0', h4, i⟩ := create_ok h0 st.strings hh0 st.cells
  rw [h1] at h4
  cases h4
  obtain ⟨v', M', ro', k1, -, k3, k4, k5, k6, k7, k8⟩ := run_adds st.strings hist (C := []) i h2 h3 (by simp)
  exact ⟨v', M', ro', k1, k3, fun j d h => (k4 j d h).2, k5, fun i o x a b c => (k6 i o x a b c).2, k7, k8⟩

/-- **C80.** Whatever pointer a call on a string pool has returned (`str_pool_find`, `str_pool_copy`, `str_pool_copyn`, `str_pool_finish`): the bytes it
points to are still there, unchanged, after any further calls. -/
theorem C80_strings_stay (st : Start h0 hh0) (hist : List PoolOp) (p : Pool) (outs : List Spec.Ret) (r : Reaches h0 hh0 hist p outs)
    (i x : Nat) (hx : outs[i]? = some (.ptr x)) (later : List PoolOp) (perm : ∀ o ∈ later, o.Permitted) (p' : Pool) (outs' : List Spec.Ret)
    (hl : Spec.run step p later = .ok (p', outs')) :
    x ≠ 0 ∧ ∃ b, p.mem.mem x = some (b, 0) ∧ p'.mem.mem x = some (b, 0) := by
  obtain ⟨v, M, ro, k1, -, k3, -⟩ := r.adds st
  obtain ⟨hx0, hm⟩ := k3 i x hx
  obtain ⟨⟨y, b⟩, hb, rfl⟩ := List.mem_map.1 hm
  obtain ⟨v', M', ro', l1, l2, -⟩ := run_adds st.strings later (C := []) k1 perm hl (by simp)
  exact ⟨hx0, b, (k1.str.strs _ hb).1, (l1.str.strs _ (l2 _ hb)).1⟩

/-- **C80, copies are new**: what `str_pool_copy` and `str_pool_copyn` return is returned by no other call, before or after; what `str_pool_finish`
returns was returned by no call before. -/
theorem C80_copies_are_new (st : Start h0 hh0) (hist : List PoolOp) (p : Pool) (outs : List Spec.Ret) (r : Reaches h0 hh0 hist p outs)
    (i j : Nat) (o : PoolOp) (x y : Nat) (hi : hist[i]? = some o) (hx : outs[i]? = some (.ptr x)) (hy : outs[j]? = some (.ptr y)) :
    (copies o = true → i ≠ j → x ≠ y) ∧ (o = .finish → j < i → x ≠ y) := by
  obtain ⟨v, M, ro, -, -, -, k4, k5, -⟩ := r.adds st
  exact ⟨fun hc hne => k4 i j o x y hne hi hc hx hy, fun e hlt => k5 i o x hi (.inr (by rw [e]; rfl)) hx j y hlt hy⟩

/-- **C80, what copies contain**: the string given to `str_pool_copy`, at any later time. -/
theorem C80_copy (st : Start h0 hh0) (hist : List PoolOp) (p : Pool) (outs : List Spec.Ret) (r : Reaches h0 hh0 hist p outs)
    (i : Nat) (a : List Byte) (hi : hist[i]? = some (.copy a)) :
    ∃ x s, outs[i]? = some (.ptr x) ∧ x ≠ 0 ∧ upToNul a = some s ∧ StringAt p.mem.mem x s := by
  obtain ⟨v, M, ro, k1, -, k3, -, -, k6, -⟩ := r.adds st
  obtain ⟨t, d, h1, h2, h3⟩ := k6 i a hi
  exact ⟨d, t, h2, (k3 i d h2).1, upToNul_eq h1, [], (k1.str.strs _ h3).1, (CStr.cstr_ok h1).1⟩

/-- **C80, a call that returned a pointer**: all four do when permitted and the pool is not locked (C26_no_failure); this states what is returned. -/
theorem C80_returns_pointers (st : Start h0 hh0) (hist : List PoolOp) (p : Pool) (outs : List Spec.Ret) (r : Reaches h0 hh0 hist p outs)
    (i : Nat) (o : PoolOp) (hi : hist[i]? = some o) (ho : copies o = true) : ∃ x, outs[i]? = some (.ptr x) ∧ x ≠ 0 := by
  obtain ⟨v, M, ro, k1, -, k3, -, -, k6, k7⟩ := r.adds st
  cases o with
  | copy a => obtain ⟨t, d, -, h2, -⟩ := k6 i a hi; exact ⟨d, h2, (k3 i d h2).1⟩
  | copyn s n => obtain ⟨d, h2, -⟩ := k7 i s n hi; exact ⟨d, h2, (k3 i d h2).1⟩
  | _ => cases ho

/-- **C24, `str_pool_copyn`**, as far as it holds: byte `n` of the argument must be readable and NUL. -/
theorem C24_pool_copyn_partial (st : Start h0 hh0) (hist : List PoolOp) (p : Pool) (outs : List Spec.Ret) (r : Reaches h0 hh0 hist p outs)
    (i : Nat) (s : List Byte) (n : Nat) (hi : hist[i]? = some (.copyn s n)) (terminated : s[n]? = some 0) :
    ∃ x, outs[i]? = some (.ptr x) ∧ p.mem.mem x = some (s.take n ++ [0], 0) := by
  obtain ⟨v, M, ro, k1, -, -, -, -, -, k7⟩ := r.adds st
  obtain ⟨d, h2, h3⟩ := k7 i s n hi
  refine ⟨d, h2, ?_⟩
  have := (k1.str.strs _ h3).1
  rw [List.take_add_one, terminated] at this
  exact this

/-- C24 fails for `str_pool_copyn` as for `mem_strncpy`: it stores byte `n` of the argument, whatever that is, and it reads it even if it is
not part of the argument. -/
theorem C24_pool_copyn_refuted (st : Start h0 hh0) (hist : List PoolOp) (p : Pool) (outs : List Spec.Ret) (r : Reaches h0 hh0 hist p outs)
    (i : Nat) (s : List Byte) (n : Nat) (b : Byte) (hi : hist[i]? = some (.copyn s n)) (hb : s[n]? = some b) :
    (∃ x, outs[i]? = some (.ptr x) ∧ p.mem.mem x = some (s.take n ++ [b], 0)) ∧ ∀ q buf, copyn q buf buf.length = .ub := by
  constructor
  · obtain ⟨v, M, ro, k1, -, -, -, -, -, k7⟩ := r.adds st
    obtain ⟨d, h2, h3⟩ := k7 i s n hi
    refine ⟨d, h2, ?_⟩
    have := (k1.str.strs _ h3).1
    rw [List.take_add_one, hb] at this
    exact this
  · intro q buf; simp [copyn, StrMem.strncpy, Res.bind]

/-- **C24, `str_copyn`** on the global pool, and its failures. -/
theorem C24_copyn_partial (g : Global) (r : GReach g) (exists_pool : g.pool.isSome) (s : List Byte) (n : Nat) :
    (∀ b, s[n]? = some b → ∃ g' x, strCopyn g s n = .ok (g', x) ∧ x ≠ 0 ∧ g'.mem.mem x = some (s.take n ++ [b], 0)) ∧
    strCopyn g s s.length = .ub := by
  cases hp : g.pool with
  | none => rw [hp] at exists_pool; cases exists_pool
  | some q =>
    constructor
    · intro b hb
      have hn : ¬ s.length < n + 1 := by
        intro h; rw [List.getElem?_eq_none (by omega)] at hb; cases hb
      obtain ⟨M, gi⟩ := r.inv
      have hok : g.mem.Ok := by
        obtain ⟨i, t⟩ := q
        unfold GInv at gi
        rw [hp] at gi
        obtain ⟨h0, hh0, v, -, -, -, pinv⟩ := gi
        exact pinv.str.ok
      have h1 : ∃ g', strCopyn g s n = .ok (g', g.mem.addr) ∧ g'.mem = (g.mem.alloc (s.take (n + 1), 0)).1 := by
        simp only [strCopyn, withGlobal, hp, copyn, StrMem.strncpy, if_neg hn, Res.bind]
        exact ⟨_, rfl, rfl⟩
      obtain ⟨g', h1, h2⟩ := h1
      refine ⟨g', g.mem.addr, h1, hok.addr.2, ?_⟩
      rw [h2]
      simp [Heap.alloc, List.take_add_one, hb]
    · simp [strCopyn, withGlobal, hp, copyn, StrMem.strncpy, Res.bind]

/-- A pooled string, its copy, the copy of a part, a grown string equal to the pooled one: four places. -/
example : ∃ p outs, Reaches Heap.init Heap.init
      [.find [97, 98, 0], .copy [97, 98, 0], .copyn [97, 98, 0] 1, .grow [97, 98] 2, .finish, .find [97, 98, 0, 120]] p outs ∧
    outs = [.ptr 1, .ptr 2, .ptr 3, .int 0, .ptr 6, .ptr 1] ∧ StringAt p.mem.mem 2 [97, 98] ∧
    p.mem.mem 3 = some ([97, 98], 0) := by
  refine ⟨_, _, ⟨_, rfl, ?_, rfl⟩, ?_, ⟨[], rfl, by simp⟩, rfl⟩
  · intro o ho
    fin_cases ho <;> simp [PoolOp.Permitted]
  · decide +kernel

/-- The global pool exists after `str_find`; then `str_copyn("abc", 2)` is the two letters and the third, without a NUL. -/
example : ∃ g1 g2, strFind Global.init [120, 0] = .ok (g1, 1) ∧ g1.pool.isSome ∧ strCopyn g1 [97, 98, 99, 0] 2 = .ok (g2, 2) ∧
    g2.mem.mem 2 = some ([97, 98, 99], 0) := ⟨_, _, rfl, rfl, rfl, rfl⟩

end Maa.StrPool

namespace Maa.Arg

open Spec (StrOp StrView)
open StrMem (Mem)

/-- **C24, `arg_addn`**: the new last item consists of the first `n` bytes and byte `n` of the argument, so it is the first `n` bytes, terminated, exactly
when that byte is NUL; when exactly `n` bytes are readable one byte too many is read. -/
theorem C24_arg_addn_partial (h0 : Mem) (ok0 : h0.Ok) (hist : List StrOp) (w : StrView) (hw : after hist = some w) (s : List Byte) (n : Nat) :
    (∀ b, s[n]? = some b → ∃ st outs p, Spec.run step (h0, create) (hist ++ [.strncpy s n]) = .ok (st, outs) ∧
      count st.2 = w.strings.length + 1 ∧ get st.2 w.strings.length = .ok p ∧ st.1.mem p = some (s.take n ++ [b], 0)) ∧
    Spec.run step (h0, create) (hist ++ [.strncpy s s.length]) = .ub := by
  constructor
  · intro b hb
    have hn : n + 1 ≤ s.length := by
      by_contra h; rw [List.getElem?_eq_none (by omega)] at hb; cases hb
    have hw2 : after (hist ++ [.strncpy s n]) = some (StrView.mk ((0, s.take (n + 1)) :: w.strings) [] (w.abandoned + w.pending.length)) := by
      unfold after at hw ⊢
      rw [List.foldl_append, hw]
      simp only [List.foldl_cons, List.foldl_nil, Option.bind_some, StrView.see]
      rw [if_pos hn]
    obtain ⟨st, outs, h1, h2⟩ := C30_vector h0 ok0 _ _ hw2
    obtain ⟨p, h3, h4, -⟩ := h2.item w.strings.length (s.take (n + 1)) (by simp)
    refine ⟨st, outs, p, h1, ?_, h3, ?_⟩
    · have := h2.number; simpa using this
    · rw [h4, List.take_add_one, hb]; rfl
  · obtain ⟨st, outs, h1, -⟩ := C30_vector h0 ok0 _ _ hw
    rw [Spec.run_append, h1]
    simp [Spec.run, step, addn, StrMem.strncpy, Res.bind]

/-- After adding "x": `arg_addn(a, "ab", 2)` on a terminated string, and what it makes of "abc". -/
example : ∃ w, after [.strcpy [120, 0]] = some w ∧ w.strings.length = 1 ∧ ([97, 98, 0] : List Byte)[2]? = some 0 ∧ ([97, 98, 99, 0] : List Byte)[2]? = some 99 :=
  ⟨_, rfl, rfl, rfl, rfl⟩

end Maa.Arg
