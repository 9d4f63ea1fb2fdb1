import Verif.Lemmas.StrIterate
import Verif.Props.StrPool

/-! # Property C67: loops over a string pool whose body uses the pool, maa/string.c and the macros of maa/maa.h -/

namespace Maa.StrPool

open Spec (PoolOp StringAt)
open CStr (cstr)
open StrMem (Mem SInfo)
open HashHeap (HTab)
open Tab (Entry)

variable {h0 : Mem} {hh0 : Heap (Entry SKey Ptr)}

/-- What the body of a loop over `p` may do: look strings up, find strings that are in the pool, copy and grow strings. -/
def MayCall (p : Pool) : PoolOp → Prop
  | .find s => ∃ q, exists_ p s = .ok (q, 1)
  | .finish | .iterate _ | .iterateArg _ => False
  | _ => True

/-- All calls of the body have proper arguments and are of these. -/
def GoodBody (p : Pool) (body : List Nat → Nat → List PoolOp × Bool) : Prop :=
  ∀ seen key, ∀ o ∈ (body seen key).1, o.Permitted ∧ MayCall p o

/-- The strings shown, when those in the pool are `items`: none twice, all unless the body left the loop, which it did exactly when it
wanted to: when shown the last of them. -/
def Shown (items : List Nat) (body : List Nat → Nat → List PoolOp × Bool) (log : List Nat) (stopped : Bool) : Prop :=
  (∃ rest, (log ++ rest).Perm items ∧ (stopped = false → rest = [])) ∧
  (∀ before key after, log = before ++ key :: after → ((body before key).2 = true ↔ stopped = true ∧ after = [])) ∧
  (stopped = true → log ≠ [])

theorem GoodBody.harmless (st : Start h0 hh0) {p : Pool} {v : Spec.StrView} {M : List (List Byte × Nat)} {ro : Int} (i : PInv h0 hh0 p v M ro)
    {body : List Nat → Nat → List PoolOp × Bool} (hb : GoodBody p body) :
    ∀ seen key, ∀ o ∈ (body seen key).1, o.Permitted ∧ Harmless M o := by
  intro seen key o ho
  obtain ⟨h1, h2⟩ := hb seen key o ho
  refine ⟨h1, ?_⟩
  cases o with
  | find s =>
    obtain ⟨t, ht⟩ := cstr_of_mem h1
    obtain ⟨q, hq⟩ := h2
    obtain ⟨p', e1, -⟩ := i.exists_ok st.strings ht
    rw [e1] at hq
    refine ⟨t, ht, ?_⟩
    cases hl : lookup M t with
    | some d => rfl
    | none => rw [hl] at hq; simp at hq
  | finish => exact h2
  | iterate f => exact h2
  | iterateArg f => exact h2
  | _ => trivial

theorem iterateAll_ok (st : Start h0 hh0) {p : Pool} {v : Spec.StrView} {M : List (List Byte × Nat)} {ro : Int} (i : PInv h0 hh0 p v M ro)
    (body : List Nat → Nat → List PoolOp × Bool) (hb : GoodBody p body) :
    ∃ (p' : Pool) (v' : Spec.StrView) (log : List Nat) (stopped : Bool), strIterateAll body p = .ok (p', log, stopped) ∧
      PInv h0 hh0 p' v' M (if stopped then 1 else if M = [] then ro else 0) ∧ (∀ x ∈ v.strings, x ∈ v'.strings) ∧
      Shown (M.map Prod.snd) body log stopped := by
  have hh := hb.harmless st i
  rcases i.start with ⟨hM, h1⟩ | ⟨hM, pos, n, A, rem, h1, h2, h3, h4, h5, h6, h7⟩
  · refine ⟨p, v, [], false, ?_, by simpa [hM] using i, fun _ h => h, ⟨[], by simp [hM], by simp⟩, by simp, by simp⟩
    obtain ⟨k, hk⟩ : ∃ k, p.cells.clock = k + 1 := by
      obtain ⟨ms, ⟨t, A, r, -⟩, -⟩ := i.sim
      exact ⟨p.cells.clock - 1, by have := r.ok.pos; simp only at this; omega⟩
    simp only [strIterateAll, h1, hk, strIterate, if_true]
  · obtain ⟨p', v', log, rest, stopped, e1, e2, e3, e4, e5, e6, e7⟩ := strIterate_ok st.strings body hh h6 rem p.cells.clock
      { p with tab := { p.tab with readonly := 1 } } v pos [] h5 (i.setRo 1) h4 h3
    refine ⟨p', v', log, stopped, by simpa only [strIterateAll, h2, List.nil_append] using e1, ?_, e3, ⟨⟨rest, by rw [e4]; exact h7, e5⟩, ?_, fun _ => e7⟩⟩
    · rw [if_neg hM]; exact e2
    · intro before key after h
      have := e6 before key after h
      rw [List.nil_append] at this
      rw [this]
      simp

/-- C67: a `STR_ITERATE` loop, or `str_pool_iterate` (which returns 1 when left early, 0 otherwise), over any reachable pool, whatever its
body does among the calls it may make: it ends, showing each string of
the pool once and nothing else (up to where the body leaves it); all strings of the pool stay in it and where they are.  After a complete loop
the pool takes new strings (if it did before, or if it has strings); after leaving the loop it does not. -/
theorem C67_iterate (st : Start h0 hh0) (hist : List PoolOp) (p : Pool) (outs : List Spec.Ret) (r : Reaches h0 hh0 hist p outs)
    (body : List Nat → Nat → List PoolOp × Bool) (hb : GoodBody p body) :
    ∃ (items : List Nat) (p' : Pool) (log : List Nat) (stopped : Bool), PooledPointers p items ∧ strIterateAll body p = .ok (p', log, stopped) ∧
      iterateCalls body p = .ok (p', log, if stopped then 1 else 0) ∧
      Shown items body log stopped ∧ PooledPointers p' items ∧
      (∀ a ∈ items, ∃ s, StringAt p.mem.mem a s ∧ StringAt p'.mem.mem a s) ∧
      (stopped = false → items ≠ [] ∨ (∀ o ∈ hist, o.isIterate = false) →
        ∀ later, (∀ o ∈ later, o.Permitted) → (∀ o ∈ later, o.isIterate = false) → ∃ p'' louts, Spec.run step p' later = .ok (p'', louts)) ∧
      (stopped = true → ∀ s, 0 ∈ s → (∃ q, exists_ p s = .ok (q, 0)) → find p' s = .abort) := by
  obtain ⟨v, M, ro, i, -, -, hro, -⟩ := r.inv st
  obtain ⟨p', v', log, stopped, h1, h2, h3, h4⟩ := iterateAll_ok st i body hb
  refine ⟨M.map Prod.snd, p', log, stopped, i.pooled st, h1, by simp only [iterateCalls, h1, Res.bind], h4, h2.pooled st, ?_, ?_, ?_⟩
  · intro a ha
    obtain ⟨x, hx, rfl⟩ := List.mem_map.1 ha
    obtain ⟨b, b1, b2⟩ := i.known x hx
    have e1 := (i.str.strs _ b1).1
    have e2 := (h2.str.strs _ (h3 _ b1)).1
    obtain ⟨z, rest, rfl⟩ := CStr.cstr_ok b2
    simp only at e1 e2
    exact ⟨x.1, ⟨rest, e1, z⟩, ⟨rest, e2, z⟩⟩
  · intro hs hc later perm hni
    subst hs
    have : (if M = [] then ro else 0) = (0 : Int) := by
      rcases hc with hc | hc
      · rw [if_neg (by rintro rfl; simp at hc)]
      · rw [hro hc]; split <;> rfl
    simp only [Bool.false_eq_true, if_false, this] at h2
    exact run_progress st.strings later h2 perm hni
  · intro hs s h0s ⟨q, hq⟩
    subst hs
    obtain ⟨t, ht⟩ := cstr_of_mem h0s
    obtain ⟨p1, e1, -⟩ := i.exists_ok st.strings ht
    have hl : lookup M t = none := by
      rw [e1] at hq
      simp only [Res.ok.injEq, Prod.mk.injEq] at hq
      cases hl : lookup M t with
      | none => rfl
      | some d => rw [hl] at hq; simp at hq
    exact (h2.find_new ht hl).1 (by simp)

/-- C67, `str_pool_iterate_arg` whose iterator uses the pool in these ways: afterwards the pool always takes new strings. -/
theorem C67_iterate_arg (st : Start h0 hh0) (hist : List PoolOp) (p : Pool) (outs : List Spec.Ret) (r : Reaches h0 hh0 hist p outs)
    (no_iterate : ∀ o ∈ hist, o.isIterate = false) (body : List Nat → Nat → List PoolOp × Bool) (hb : GoodBody p body) :
    ∃ (items : List Nat) (p' : Pool) (log : List Nat) (stopped : Bool), PooledPointers p items ∧
      iterateArgCalls body p = .ok (p', log, if stopped then 1 else 0) ∧ Shown items body log stopped ∧ PooledPointers p' items ∧
      (∀ later, (∀ o ∈ later, o.Permitted) → (∀ o ∈ later, o.isIterate = false) → ∃ p'' louts, Spec.run step p' later = .ok (p'', louts)) := by
  obtain ⟨v, M, ro, i, -, -, hro, -⟩ := r.inv st
  obtain ⟨p', v', log, stopped, h1, h2, h3, h4⟩ := iterateAll_ok st i body hb
  cases stopped with
  | true =>
    have h5 := h2.setRo 0
    refine ⟨M.map Prod.snd, { p' with tab := { p'.tab with readonly := 0 } }, log, true, i.pooled st, ?_, h4, h5.pooled st, fun later perm hni => ?_⟩
    · simp only [iterateArgCalls, h1, Res.bind, if_true]
    · exact run_progress st.strings later h5 perm hni
  | false =>
    have : (if M = [] then ro else 0) = (0 : Int) := by rw [hro no_iterate]; split <;> rfl
    simp only [Bool.false_eq_true, if_false, this] at h2
    refine ⟨M.map Prod.snd, p', log, false, i.pooled st, ?_, h4, h2.pooled st, fun later perm hni => ?_⟩
    · simp [iterateArgCalls, h1, Res.bind]
    · exact run_progress st.strings later h2 perm hni

/-- C67: the body may not add a string: `str_pool_find` of one not in the pool aborts, whatever string the loop starts with. -/
theorem C67_no_new_strings (st : Start h0 hh0) (hist : List PoolOp) (p : Pool) (outs : List Spec.Ret) (r : Reaches h0 hh0 hist p outs)
    (known : ∃ s q, 0 ∈ s ∧ exists_ p s = .ok (q, 1)) (s : List Byte) (hs : 0 ∈ s) (new : ∃ q, exists_ p s = .ok (q, 0))
    (body : List Nat → Nat → List PoolOp × Bool) (hb : ∀ key, ∃ rest, (body [] key).1 = .find s :: rest) :
    strIterateAll body p = .abort := by
  obtain ⟨v, M, ro, i, -⟩ := r.inv st
  rcases i.start with ⟨hM, -⟩ | ⟨hM, pos, n, A, rem, h1, h2, h3, h4, h5, h6, h7⟩
  · obtain ⟨s', q, g1, g2⟩ := known
    obtain ⟨t, ht⟩ := cstr_of_mem g1
    obtain ⟨p1, e1, -⟩ := i.exists_ok st.strings ht
    rw [e1, hM] at g2
    simp [lookup] at g2
  · obtain ⟨e, rest', g1, j, hj, hmem⟩ := h3.cell
    obtain ⟨t0, r0, n0, -, -⟩ := h4
    obtain ⟨hp0, nx, hm⟩ := HashHeap.cell_mem r0 (by rw [n0]; exact hj) hmem
    have hkey := h6 j hj _ hmem
    obtain ⟨k, hk⟩ : ∃ k, p.cells.clock = k + 1 := ⟨p.cells.clock - 1, by omega⟩
    have hget : poolGet { p with tab := { p.tab with readonly := 1 } } pos = .ok e.datum := by
      simp only at hkey
      simp only [poolGet, HashHeap.getPosition, Heap.read_ok hm, Res.bind, hkey]
    obtain ⟨t, ht⟩ := cstr_of_mem hs
    have hl : lookup M t = none := by
      obtain ⟨q, hq⟩ := new
      obtain ⟨p1, e1, -⟩ := i.exists_ok st.strings ht
      rw [e1] at hq
      simp only [Res.ok.injEq, Prod.mk.injEq] at hq
      cases hl : lookup M t with
      | none => rfl
      | some d => rw [hl] at hq; simp at hq
    have habort := ((i.setRo 1).find_new ht hl).1 (by decide)
    obtain ⟨rest, hr⟩ := hb e.datum
    simp only [strIterateAll, h2, hk, strIterate, if_neg hp0, hget, Res.bind, hr, calls, step, habort]

/-- C67 refuted for the advertised way to make a pool usable again: `str_pool_readonly` on a pool always aborts, wherever `malloc`
puts the string memory (its results are multiples of 8). -/
theorem C67_readonly_refuted (strAddr : Nat) (h : 8 ∣ strAddr) (p : Pool) (flag : Int) : poolReadonly strAddr p flag = .abort := by
  unfold poolReadonly HSH_MAGIC
  rw [if_pos]
  omega

/-- Non-vacuity: a loop over three strings whose body looks up and finds pooled strings, copies and grows, leaving at the third. -/
example : ((create Heap.init Heap.init).bind fun p => (Spec.run step p [.find [97, 0], .find [98, 0], .find [99, 0]]).bind fun r =>
    (strIterateAll (fun seen _ => ([.exists_ [98, 0], .find [97, 0], .copy [120, 0], .grow [1, 2] 2, .find [98, 0]], seen.length == 2)) r.1).bind fun q =>
      .ok (q.2.1.length, q.2.2, q.1.tab.readonly)) = .ok (3, true, 1) := by decide +kernel

end Maa.StrPool
