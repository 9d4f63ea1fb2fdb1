import Verif.Lemmas.StrStats
import Verif.Props.StrPool

/-! # Property C66: the statistics of a string pool, maa/string.c -/

namespace Maa.StrPool

open Spec (PoolOp GlobalOp upToNul)
open CStr (cstr)
open StrMem (Mem SInfo)
open HashHeap (HTab)
open Tab (Entry)

variable {h0 : Mem} {hh0 : Heap (Entry SKey Ptr)}

/-- All zero. -/
def Stats.zero : Stats := { count := 0, bytes := 0, retrievals := 0, hits := 0, misses := 0 }

/-- A look-up is counted; as a miss exactly when nothing was found; as a hit at most when something was found. -/
def Stats.looked (s s' : Stats) (found : Bool) : Prop :=
  s'.retrievals = s.retrievals + 1 ∧ s'.misses = s.misses + (if found then 0 else 1) ∧
  s.hits ≤ s'.hits ∧ s'.hits ≤ s.hits + (if found then 1 else 0)

/-- No look-up. -/
def Stats.notLooked (s s' : Stats) : Prop := s'.retrievals = s.retrievals ∧ s'.misses = s.misses ∧ s'.hits = s.hits

/-- `strings` more strings, `bytes` more bytes. -/
def Stats.stored (s s' : Stats) (strings bytes : Nat) : Prop := s'.count = s.count + strings ∧ s'.bytes = s.bytes + bytes

/-- How one call that returned `x` changes the statistics; `known` tells whether the string of a `str_pool_find` was in the
pool. -/
def Stats.After (s s' : Stats) (known : Bool) : PoolOp → Spec.Ret → Prop
  | .exists_ _, x => s.looked s' (x = .int 1) ∧ s.stored s' 0 0
  | .find a, _ => s.looked s' known ∧
      if known then s.stored s' 0 0 else ∃ t, upToNul a = some t ∧ s.stored s' 1 (t.length + 1)
  | .copy a, _ => s.notLooked s' ∧ ∃ t, upToNul a = some t ∧ s.stored s' 1 (t.length + 1)
  | .copyn _ n, _ => s.notLooked s' ∧ s.stored s' 1 (n + 1)
  | .grow _ n, _ => s.notLooked s' ∧ s.stored s' 0 n
  | .finish, _ => s.notLooked s' ∧ s.stored s' 1 2
  | .iterate _, _ => s' = s
  | .iterateArg _, _ => s' = s

/-- C66: the statistics of a new pool and of the NULL pool are zero. -/
theorem C66_zero (st : Start h0 hh0) : getStats none = .ok Stats.zero ∧
    ∃ p, create h0 hh0 = .ok p ∧ getStats (some p) = .ok Stats.zero := by
  refine ⟨rfl, ?_⟩
  obtain ⟨p, h1, i⟩ := create_ok h0 st.strings hh0 st.cells
  refine ⟨p, h1, ?_⟩
  rw [i.stats]
  unfold create at h1
  cases hc : HashHeap.hcreate 0 with
  | ok t =>
    rw [hc] at h1
    simp only [Res.bind, Res.ok.injEq] at h1
    have ht : t.retrievals = 0 ∧ t.hits = 0 ∧ t.misses = 0 := by
      unfold HashHeap.hcreate at hc
      split at hc
      · simp at hc
      · simp only [Res.ok.injEq] at hc; rw [← hc]; exact ⟨rfl, rfl, rfl⟩
    rw [← h1]
    simp [Stats.zero, StrMem.create, ht]
  | _ => rw [hc] at h1; simp [Res.bind] at h1

/-- C66: after any history of permitted calls — iterations left early included — `str_pool_get_stats` succeeds, and the next call
changes the numbers exactly as described by `Stats.After`, where `str_pool_exists` would have told whether the string is known. -/
theorem C66_stats (st : Start h0 hh0) (hist : List PoolOp) (p : Pool) (outs : List Spec.Ret) (r : Reaches h0 hh0 hist p outs)
    (o : PoolOp) (ho : o.Permitted) (p' : Pool) (x : Spec.Ret) (hs : step p o = .ok (p', x)) :
    ∃ s s' known, getStats (some p) = .ok s ∧ getStats (some p') = .ok s' ∧ s.After s' known o x ∧
      ∀ a, o = .find a → ∃ q, exists_ p a = .ok (q, if known then 1 else 0) := by
  obtain ⟨v, M, ro, i, -⟩ := r.inv st
  have i' : ∃ v' M' ro', PInv h0 hh0 p' v' M' ro' := by
    rcases step_ok st.strings i o ho with ⟨p1, r1, v1, M1, ro1, h1, h2, -⟩ | ⟨-, h1⟩
    · rw [hs] at h1; cases h1; exact ⟨_, _, _, h2⟩
    · rw [hs] at h1; cases h1
  obtain ⟨v', M', ro', i'⟩ := i'
  have z1 := i.stats
  have z2 := i'.stats
  cases o with
  | exists_ a =>
    obtain ⟨t, ht⟩ := cstr_of_mem ho
    obtain ⟨q, k1, -⟩ := i.exists_ok st.strings ht
    refine ⟨_, _, true, z1, z2, ?_, by simp⟩
    simp only [step, k1, Res.bind, Res.ok.injEq, Prod.mk.injEq] at hs
    obtain ⟨rfl, rfl⟩ := hs
    obtain ⟨q', k2, -⟩ := i.retrieve (CStr.cstr_ok ht).1
    have : q' = q := by
      unfold exists_ at k1
      rw [ht] at k1
      simp only [Res.bind, k2, Res.ok.injEq, Prod.mk.injEq] at k1
      exact k1.1
    subst this
    obtain ⟨c1, c2, c3, c4, c5⟩ := i.retrieve_counts (CStr.cstr_ok ht).1 k2
    have e : decide (Spec.Ret.int (if (lookup M t).isSome then 1 else 0) = Spec.Ret.int 1) = (lookup M t).isSome := by
      cases lookup M t <;> simp
    refine ⟨⟨c2, ?_, c4, ?_⟩, by rw [c1]; simp, by rw [c1]; simp⟩
    · simp only [c3, e]
    · simp only [e]; exact c5
  | find a =>
    obtain ⟨t, ht⟩ := cstr_of_mem ho
    obtain ⟨q, k1, -⟩ := i.exists_ok st.strings ht
    refine ⟨_, _, (lookup M t).isSome, z1, z2, ?_, ?_⟩
    · obtain ⟨q', k2, k3, -⟩ := i.retrieve (CStr.cstr_ok ht).1
      obtain ⟨c1, c2, c3, c4, c5⟩ := i.retrieve_counts (CStr.cstr_ok ht).1 k2
      cases hl : lookup M t with
      | some d =>
        rw [hl] at c3 c5 k2
        have hd := i.nonnull st.strings (lookup_some hl)
        simp only at hd
        simp only [step, find, ht, k2, Res.bind, Option.getD_some] at hs
        rw [if_pos hd] at hs
        simp only [Res.ok.injEq, Prod.mk.injEq] at hs
        obtain ⟨rfl, -⟩ := hs
        exact ⟨⟨c2, c3, c4, c5⟩, by simp [Stats.stored, c1]⟩
      | none =>
        rw [hl] at c3 c5 k2
        simp only [step, find, ht, k2, Res.bind, Option.getD_none] at hs
        rw [if_neg (by simp)] at hs
        cases h1 : StrMem.strcpy q'.mem q'.str a with
        | ok c =>
          rw [h1] at hs
          simp only at hs
          cases h2 : insert { q' with mem := c.1.1, str := c.1.2 } c.2 with
          | ok p2 =>
            rw [h2] at hs
            simp only [Res.ok.injEq, Prod.mk.injEq] at hs
            obtain ⟨rfl, -⟩ := hs
            obtain ⟨d1, d2, d3, d4⟩ := insert_counts h2
            simp only at d1 d2 d3 d4
            have hb : c.1.2.count = q'.str.count + 1 ∧ c.1.2.bytes = q'.str.bytes + (t.length + 1) := by
              simp only [StrMem.strcpy, ht, Res.bind, Res.ok.injEq] at h1
              rw [← h1]; exact ⟨rfl, rfl⟩
            refine ⟨⟨d2.trans c2, d3.trans c3, by simp only [d4]; exact c4, by simp only [d4]; exact c5⟩, ?_⟩
            exact ⟨t, StrMem.upToNul_of ht, by simp only [d1, hb.1, c1], by simp only [d1, hb.2, c1]⟩
          | _ => rw [h2] at hs; simp at hs
        | _ => rw [h1] at hs; simp at hs
    · intro b hb
      cases hb
      exact ⟨q, by rw [k1]⟩
  | copy a =>
    obtain ⟨t, ht⟩ := cstr_of_mem ho
    refine ⟨_, _, true, z1, z2, ?_, by simp⟩
    simp only [step, copy, StrMem.strcpy, ht, Res.bind, Res.ok.injEq, Prod.mk.injEq] at hs
    obtain ⟨rfl, -⟩ := hs
    exact ⟨⟨rfl, rfl, rfl⟩, t, StrMem.upToNul_of ht, rfl, rfl⟩
  | copyn a n =>
    refine ⟨_, _, true, z1, z2, ?_, by simp⟩
    simp only [step, copyn, StrMem.strncpy] at hs
    rw [if_neg (by have : n + 1 ≤ a.length := ho; omega)] at hs
    simp only [Res.bind, Res.ok.injEq, Prod.mk.injEq] at hs
    obtain ⟨rfl, -⟩ := hs
    exact ⟨⟨rfl, rfl, rfl⟩, rfl, rfl⟩
  | grow a n =>
    refine ⟨_, _, true, z1, z2, ?_, by simp⟩
    simp only [step, grow] at hs
    cases h1 : StrMem.grow p.mem p.str a n with
    | ok c =>
      rw [h1] at hs
      simp only [Res.bind, Res.ok.injEq, Prod.mk.injEq] at hs
      obtain ⟨rfl, -⟩ := hs
      obtain ⟨b1, b2⟩ := grow_counts h1
      exact ⟨⟨rfl, rfl, rfl⟩, b1, b2⟩
    | _ => rw [h1] at hs; simp [Res.bind] at hs
  | finish =>
    refine ⟨_, _, true, z1, z2, ?_, by simp⟩
    simp only [step, finish, grow] at hs
    cases h1 : StrMem.grow p.mem p.str [0, 0] 1 with
    | ok c =>
      rw [h1] at hs
      simp only [Res.bind] at hs
      obtain ⟨b1, b2⟩ := grow_counts h1
      cases h2 : StrMem.finish c.1 c.2 with
      | ok e =>
        rw [h2] at hs
        simp only at hs
        have hf : e.1.2.count = c.2.count + 1 ∧ e.1.2.bytes = c.2.bytes + 1 := by
          unfold StrMem.finish at h2
          cases h3 : StrMem.grow c.1 c.2 [0] 1 with
          | ok g =>
            rw [h3] at h2
            obtain ⟨g1, g2⟩ := grow_counts h3
            simp only [Res.bind, Res.ok.injEq] at h2
            rw [← h2]
            exact ⟨by rw [← g1], g2⟩
          | _ => rw [h3] at h2; simp [Res.bind] at h2
        cases h3 : insert { p with mem := e.1.1, str := e.1.2 } e.2 with
        | ok p2 =>
          rw [h3] at hs
          simp only [Res.ok.injEq, Prod.mk.injEq] at hs
          obtain ⟨rfl, -⟩ := hs
          obtain ⟨d1, d2, d3, d4⟩ := insert_counts h3
          simp only at d1 d2 d3 d4
          refine ⟨⟨d2, d3, d4⟩, ?_, ?_⟩
          · simp only [d1, hf.1, b1]
          · simp only [d1, hf.2, b2]
        | _ => rw [h3] at hs; simp at hs
      | _ => rw [h2] at hs; simp at hs
    | _ => rw [h1] at hs; simp [Res.bind] at hs
  | iterate f =>
    refine ⟨_, _, true, z1, z2, ?_, by simp⟩
    simp only [step, iterate] at hs
    cases h1 : iterLoop f id p.cells.clock p.cells (HashHeap.initPosition p.tab).1 (HashHeap.initPosition p.tab).2 [] with
    | ok c =>
      rw [h1] at hs
      simp only [Res.bind, Res.ok.injEq, Prod.mk.injEq] at hs
      obtain ⟨rfl, -⟩ := hs
      obtain ⟨a1, a2, a3⟩ := iterLoop_counts f id (fun t => ⟨rfl, rfl, rfl⟩) _ _ _ _ _ _ h1
      obtain ⟨b1, b2, b3⟩ := initPosition_counts p.tab
      simp only [Stats.After, a1, a2, a3, b1, b2, b3]
    | _ => rw [h1] at hs; simp [Res.bind] at hs
  | iterateArg f =>
    refine ⟨_, _, true, z1, z2, ?_, by simp⟩
    simp only [step, iterateArg] at hs
    cases h1 : iterLoop f (fun t => { t with readonly := 0 }) p.cells.clock p.cells (HashHeap.initPosition p.tab).1
        (HashHeap.initPosition p.tab).2 [] with
    | ok c =>
      rw [h1] at hs
      simp only [Res.bind, Res.ok.injEq, Prod.mk.injEq] at hs
      obtain ⟨rfl, -⟩ := hs
      obtain ⟨a1, a2, a3⟩ := iterLoop_counts f (fun t => { t with readonly := 0 }) (fun t => ⟨rfl, rfl, rfl⟩) _ _ _ _ _ _ h1
      obtain ⟨b1, b2, b3⟩ := initPosition_counts p.tab
      simp only [Stats.After, a1, a2, a3, b1, b2, b3]
    | _ => rw [h1] at hs; simp [Res.bind] at hs

/-- C66: over a whole history: as many retrievals as look-ups; never more hits than look-ups that found something. -/
theorem C66_totals (st : Start h0 hh0) (hist : List PoolOp) (p : Pool) (outs : List Spec.Ret) (r : Reaches h0 hh0 hist p outs) :
    ∃ s, getStats (some p) = .ok s ∧
      s.retrievals = hist.countP (fun o => match o with | .exists_ _ => true | .find _ => true | _ => false) ∧
      s.hits + s.misses ≤ s.retrievals := by
  have key : ∀ (os : List PoolOp) (h : List PoolOp) (p : Pool) (xs : List Spec.Ret) (p' : Pool) (ys : List Spec.Ret) (s : Stats),
      Reaches h0 hh0 h p xs → (∀ o ∈ os, o.Permitted) → Spec.run step p os = .ok (p', ys) → getStats (some p) = .ok s →
      ∃ s', getStats (some p') = .ok s' ∧
        s'.retrievals = s.retrievals + os.countP (fun o => match o with | .exists_ _ => true | .find _ => true | _ => false) := by
    intro os
    induction os with
    | nil =>
      intro h p xs p' ys s _ _ hr hs
      simp only [Spec.run, Res.ok.injEq, Prod.mk.injEq] at hr
      exact ⟨s, by rw [← hr.1]; exact hs, by simp⟩
    | cons o os ih =>
      intro h p xs p' ys s hreach hp hr hs
      simp only [Spec.run] at hr
      cases h1 : step p o with
      | ok c =>
        rw [h1] at hr
        simp only [Res.bind] at hr
        cases h2 : Spec.run step c.1 os with
        | ok d =>
          rw [h2] at hr
          simp only [Res.ok.injEq, Prod.mk.injEq] at hr
          obtain ⟨rfl, -⟩ := hr
          obtain ⟨s1, s2, known, e1, e2, e3, -⟩ := C66_stats st h p xs hreach o (hp o (by simp)) c.1 c.2 h1
          rw [hs] at e1
          cases e1
          have hreach' : Reaches h0 hh0 (h ++ [o]) c.1 (xs ++ [c.2]) := by
            obtain ⟨p0, f1, f2, f3⟩ := hreach
            refine ⟨p0, f1, ?_, ?_⟩
            · intro o' ho'
              rcases List.mem_append.1 ho' with ho' | ho'
              · exact f2 o' ho'
              · rw [List.mem_singleton.1 ho']; exact hp o (by simp)
            · rw [Spec.run_append, f3]
              simp [Res.bind, Spec.run, h1]
          obtain ⟨s', g1, g2⟩ := ih (h ++ [o]) c.1 (xs ++ [c.2]) d.1 d.2 s2 hreach' (fun o' ho' => hp o' (by simp [ho'])) h2 e2
          refine ⟨s', g1, ?_⟩
          rw [g2, List.countP_cons]
          cases o with
          | exists_ a => have := e3.1.1; simp only at this ⊢; simp only [if_true]; omega
          | find a => have := e3.1.1; simp only at this ⊢; simp only [if_true]; omega
          | iterate f => have : s2 = s := e3; rw [this]; simp
          | iterateArg f => have : s2 = s := e3; rw [this]; simp
          | copy a => have := e3.1.1; simp [this]
          | copyn a n => have := e3.1.1; simp [this]
          | grow a n => have := e3.1.1; simp [this]
          | finish => have := e3.1.1; simp [this]
        | _ => rw [h2] at hr; simp at hr
      | _ => rw [h1] at hr; simp [Res.bind] at hr
  obtain ⟨-, p0, c1, c2⟩ := C66_zero st
  have r0 : Reaches h0 hh0 [] p0 [] := ⟨p0, c1, by simp, rfl⟩
  obtain ⟨v, M, ro, i, -⟩ := r.inv st
  obtain ⟨q0, d1, d2, d3⟩ := r
  rw [c1] at d1
  cases d1
  obtain ⟨s', g1, g2⟩ := key hist [] p0 [] p outs Stats.zero r0 d2 d3 c2
  refine ⟨s', g1, by rw [g2]; simp [Stats.zero], ?_⟩
  rw [i.stats] at g1
  cases g1
  obtain ⟨ms, ⟨t, A, hr, sim, -⟩, -⟩ := i.sim
  have := sim.hits
  have e1 := hr.retrievals
  have e2 := hr.hits
  have e3 := hr.misses
  simp only at e1 e2 e3 ⊢
  omega

/-- C66: the global pool: `str_get_stats` never fails; without a pool — at program start and after `str_destroy` — all numbers are zero. -/
theorem C66_global (g : Global) (r : GReach g) : (∃ s, strGetStats g = .ok s) ∧ (g.pool = none → strGetStats g = .ok Stats.zero) := by
  refine ⟨?_, fun h => by unfold strGetStats; rw [h]; rfl⟩
  obtain ⟨M, i⟩ := r.inv
  unfold GInv at i
  unfold strGetStats
  cases hp : g.pool with
  | none => exact ⟨_, rfl⟩
  | some q =>
    rw [hp] at i
    obtain ⟨h0, hh0, v, -, -, -, k⟩ := i
    exact ⟨_, k.stats⟩

/-- Non-vacuity: "ab" found, found again, "b" asked for, "xy" grown and finished, three bytes copied. -/
example : ((create Heap.init Heap.init).bind fun p => (Spec.run step p
    [.find [97, 98, 0], .find [97, 98, 0], .exists_ [98, 0], .grow [120, 121] 2, .finish, .copyn [1, 2, 3, 0] 3]).bind fun r => getStats (some r.1)) =
    .ok { count := 3, bytes := 11, retrievals := 3, hits := 1, misses := 2 } := by decide +kernel

end Maa.StrPool
