import Verif.Props.Pr

/-! # Property C59: the child's descriptors, maa/pr.c -/

namespace Maa.Pr

open Spec (PrFlags FdTab childStream childSource childUsed)

/-- One stream. -/
theorem child_eq (T : FdTab) (f create use : PrFlags) (k : Nat) (hc : (f &&& create != 0) = f.getLsbD (4 + k)) (hu : (f &&& use != 0) = f.getLsbD k)
    (drop keep : Int) (fd : Option Int) (null : Int) (nullFile : Nat)
    (hsrc : ∀ v, childSource f k keep fd = some v → T v ≠ none ∧ v ≠ k) (hdk : f.getLsbD (4 + k) = true → drop ≠ keep ∧ drop ≠ k)
    (hnull : f.getLsbD k = true → 0 ≤ null ∧ null ≠ k) (x : Int) :
    child T f create use drop keep fd k null nullFile x =
      if x = k then childStream T f k keep fd nullFile
      else if x ∈ childUsed f k drop keep fd null then none else T x := by
  have hdup : ∀ (T : FdTab) (a y : Int), T a ≠ none → a ≠ k → sysClose (sysDup2 T a k) a y = if y = k then T a else if y = a then none else T y := by
    intro T a y h1 h2
    unfold sysClose sysDup2
    cases ha : T a with
    | none => exact absurd ha h1
    | some g =>
      simp only
      by_cases e1 : y = a
      · subst e1
        rw [if_pos rfl, if_neg h2]
        simp
      · by_cases e2 : y = k
        · subst e2
          simp [e1]
        · simp [e1, e2]
  unfold child childStream childUsed
  rw [hc, hu]
  unfold childSource at hsrc
  by_cases h1 : f.getLsbD (4 + k) = true
  · rw [if_pos h1, if_pos h1, if_pos h1]
    rw [if_pos h1] at hsrc
    obtain ⟨s1, s2⟩ := hsrc keep rfl
    obtain ⟨d1, d2⟩ := hdk h1
    have hk : sysClose T drop keep = T keep := by unfold sysClose; rw [if_neg (Ne.symm d1)]
    rw [hdup _ _ _ (by rw [hk]; exact s1) s2, hk]
    by_cases e1 : x = k
    · rw [if_pos e1, if_pos e1]
    · rw [if_neg e1, if_neg e1]
      unfold sysClose
      by_cases e2 : x = keep
      · simp [e2]
      · by_cases e3 : x = drop
        · simp [e3]
        · simp [e2, e3]
  · rw [if_neg h1, if_neg h1, if_neg h1]
    rw [if_neg h1] at hsrc
    by_cases h2 : f.getLsbD k = true
    · rw [if_pos h2, if_pos h2, if_pos h2]
      rw [if_pos h2] at hsrc
      obtain ⟨n1, n2⟩ := hnull h2
      have hvia : (if null ≥ 0 then sysClose (sysDup2 (sysOpen T null nullFile) null k) null else T) x =
          if x = k then some nullFile else if x ∈ [null] then none else T x := by
        rw [if_pos n1]
        have hn : sysOpen T null nullFile null = some nullFile := by unfold sysOpen; rw [if_pos rfl]
        rw [hdup _ _ _ (by rw [hn]; simp) n2, hn]
        by_cases e1 : x = k
        · rw [if_pos e1, if_pos e1]
        · rw [if_neg e1, if_neg e1]
          by_cases e2 : x = null
          · simp [e2]
          · simp [e2, sysOpen]
      cases fd with
      | none => exact hvia
      | some v =>
        simp only
        by_cases hv : v = 0
        · subst hv
          simp only [ne_eq, not_true_eq_false, if_false, if_true]
          exact hvia
        · obtain ⟨s1, s2⟩ := hsrc v (by simp [Option.filter, hv])
          simp only [ne_eq, hv, not_false_eq_true, if_false, if_true]
          rw [hdup _ _ _ s1 s2]
          simp
    · rw [if_neg h2, if_neg h2, if_neg h2]
      by_cases e1 : x = k
      · rw [if_pos e1, e1]
      · rw [if_neg e1]; simp

theorem closeOthers_eq (T : FdTab) (i : Nat) (l : List Nat) (x : Int) :
    closeOthers T i l x = if (i : Int) ≤ x ∧ l.getD (x - i).toNat 0 > 0 then none else T x := by
  induction l generalizing T i with
  | nil => simp [closeOthers]
  | cons p l ih =>
    rw [closeOthers, ih]
    by_cases e : x = i
    · subst e
      rw [if_neg (by omega)]
      simp only [Int.sub_self, Int.toNat_zero, List.getD_cons_zero, Int.le_refl, true_and]
      by_cases hp : p > 0
      · simp [hp, sysClose]
      · simp [hp]
    · have hT : (if p > 0 then sysClose T i else T) x = T x := by
        split
        · unfold sysClose; rw [if_neg e]
        · rfl
      rw [hT]
      by_cases hx : (i : Int) ≤ x
      · have : (x - i).toNat = (x - (i + 1 : Nat)).toNat + 1 := by omega
        rw [this, List.getD_cons_succ]
        have h1 : ((i + 1 : Nat) : Int) ≤ x := by omega
        by_cases hA : l.getD (x - (i + 1 : Nat)).toNat 0 > 0
        · rw [if_pos ⟨h1, hA⟩, if_pos ⟨hx, hA⟩]
        · rw [if_neg (fun hh => hA hh.2), if_neg (fun hh => hA hh.2)]
      · rw [if_neg (by omega), if_neg (by tauto)]

/-- What the system and the caller provide: pipes, descriptors and `/dev/null` are open, different from 0, 1 and 2, and not
used twice; 0, 1 and 2 do not belong to earlier children; stdout is open. -/
structure ChildOk (T : FdTab) (objects : List Nat) (f : PrFlags) (infd outfd errfd : Option Int) (fdin fdout fderr : Int × Int) (null : Int × Int × Int) : Prop where
  src0 : ∀ v, childSource f 0 fdin.1 infd = some v → T v ≠ none ∧ 2 < v
  src1 : ∀ v, childSource f 1 fdout.2 outfd = some v → T v ≠ none ∧ 2 < v ∧ v ∉ childUsed f 0 fdin.2 fdin.1 infd null.1
  src2 : ∀ v, childSource f 2 fderr.2 errfd = some v → T v ≠ none ∧ 2 < v ∧ v ∉ childUsed f 0 fdin.2 fdin.1 infd null.1 ∧
    v ∉ childUsed f 1 fdout.1 fdout.2 outfd null.2.1
  pipes : fdin.1 ≠ fdin.2 ∧ 2 < fdin.2 ∧ fdout.1 ≠ fdout.2 ∧ 2 < fdout.1 ∧ fderr.1 ≠ fderr.2 ∧ 2 < fderr.1
  nulls : 2 < null.1 ∧ 2 < null.2.1 ∧ 2 < null.2.2
  std : ∀ i, i < 3 → objects.getD i 0 = 0
  stdout : T 1 ≠ none

theorem used_gt {T : FdTab} {objects : List Nat} {f : PrFlags} {infd outfd errfd : Option Int} {fdin fdout fderr : Int × Int} {null : Int × Int × Int}
    (h : ChildOk T objects f infd outfd errfd fdin fdout fderr null) :
    (∀ x ∈ childUsed f 0 fdin.2 fdin.1 infd null.1, 2 < x) ∧ (∀ x ∈ childUsed f 1 fdout.1 fdout.2 outfd null.2.1, 2 < x) ∧
    (∀ x ∈ childUsed f 2 fderr.1 fderr.2 errfd null.2.2, 2 < x) := by
  have key : ∀ (k : Nat) (d p : Int) (fd : Option Int) (n : Int), (∀ v, childSource f k p fd = some v → 2 < v) → 2 < d → 2 < n →
      ∀ x ∈ childUsed f k d p fd n, 2 < x := by
    intro k d p fd n hs hd hn x hx
    unfold childUsed at hx
    unfold childSource at hs
    split at hx
    · rename_i h1
      rw [if_pos h1] at hs
      simp only [List.mem_cons, List.not_mem_nil, or_false] at hx
      rcases hx with rfl | rfl
      · exact hd
      · exact hs _ rfl
    · rename_i h1
      rw [if_neg h1] at hs
      split at hx
      · rename_i h2
        rw [if_pos h2] at hs
        cases fd with
        | none => simp only [List.mem_singleton] at hx; rw [hx]; exact hn
        | some v =>
          simp only at hx
          split at hx
          · simp only [List.mem_singleton] at hx; rw [hx]; exact hn
          · rename_i hv
            simp only [List.mem_singleton] at hx
            rw [hx]
            exact hs v (by simp [Option.filter, hv])
      · simp at hx
  obtain ⟨p1, p2, p3, p4, p5, p6⟩ := h.pipes
  obtain ⟨n1, n2, n3⟩ := h.nulls
  exact ⟨key 0 _ _ _ _ (fun v hv => (h.src0 v hv).2) p2 n1, key 1 _ _ _ _ (fun v hv => (h.src1 v hv).2.1) p4 n2, key 2 _ _ _ _ (fun v hv => (h.src2 v hv).2.1) p6 n3⟩

/-- C59: at `execvp` the child's stdin, stdout and stderr are what the flags say (stderr is stdout if the flags say so);
every other descriptor used in getting there is closed, the descriptors of all earlier children are closed, and everything
else is as in the parent. -/
theorem C59_child (T : FdTab) (objects : List Nat) (f : PrFlags) (infd outfd errfd : Option Int) (fdin fdout fderr : Int × Int) (null : Int × Int × Int) (nullFile : Nat)
    (h : ChildOk T objects f infd outfd errfd fdin fdout fderr null) (T' : FdTab)
    (hT : T' = childTab T objects f infd outfd errfd fdin fdout fderr null nullFile) :
    T' 0 = childStream T f 0 fdin.1 infd nullFile ∧
    T' 1 = childStream T f 1 fdout.2 outfd nullFile ∧
    T' 2 = (if f.getLsbD 8 then childStream T f 1 fdout.2 outfd nullFile else childStream T f 2 fderr.2 errfd nullFile) ∧
    ∀ x : Int, x < 0 ∨ 2 < x → T' x =
      if x ∈ childUsed f 0 fdin.2 fdin.1 infd null.1 ++ childUsed f 1 fdout.1 fdout.2 outfd null.2.1 ++ childUsed f 2 fderr.1 fderr.2 errfd null.2.2 ∨
         (0 ≤ x ∧ objects.getD x.toNat 0 > 0) then none else T x := by
  obtain ⟨p1, p2, p3, p4, p5, p6⟩ := h.pipes
  obtain ⟨n1, n2, n3⟩ := h.nulls
  obtain ⟨g0, g1, g2⟩ := used_gt h
  -- first stream
  have e0 : ∀ x, child T f CREATE_STDIN USE_STDIN fdin.2 fdin.1 infd 0 null.1 nullFile x =
      if x = 0 then childStream T f 0 fdin.1 infd nullFile else if x ∈ childUsed f 0 fdin.2 fdin.1 infd null.1 then none else T x := by
    intro x
    refine child_eq T f CREATE_STDIN USE_STDIN 0 (createIn f) (useIn f) _ _ _ _ _ ?_ ?_ ?_ x
    · intro v hv; obtain ⟨a, b⟩ := h.src0 v hv; exact ⟨a, by omega⟩
    · intro _; exact ⟨Ne.symm p1, by omega⟩
    · intro _; exact ⟨by omega, by omega⟩
  generalize hT0 : child T f CREATE_STDIN USE_STDIN fdin.2 fdin.1 infd 0 null.1 nullFile = T0 at e0
  have k0 : ∀ v, v ∉ childUsed f 0 fdin.2 fdin.1 infd null.1 → v ≠ 0 → T0 v = T v := by
    intro v hv hv0
    rw [e0, if_neg hv0, if_neg hv]
  -- second stream
  have e1 : ∀ x, child T0 f CREATE_STDOUT USE_STDOUT fdout.1 fdout.2 outfd 1 null.2.1 nullFile x =
      if x = 1 then childStream T0 f 1 fdout.2 outfd nullFile else if x ∈ childUsed f 1 fdout.1 fdout.2 outfd null.2.1 then none else T0 x := by
    intro x
    refine child_eq T0 f CREATE_STDOUT USE_STDOUT 1 (createOut f) (useOut f) _ _ _ _ _ ?_ ?_ ?_ x
    · intro v hv
      obtain ⟨a, b, c⟩ := h.src1 v hv
      exact ⟨by rw [k0 v c (by omega)]; exact a, by omega⟩
    · intro _; exact ⟨p3, by omega⟩
    · intro _; exact ⟨by omega, by omega⟩
  generalize hT1 : child T0 f CREATE_STDOUT USE_STDOUT fdout.1 fdout.2 outfd 1 null.2.1 nullFile = T1 at e1
  have k1 : ∀ v, v ∉ childUsed f 1 fdout.1 fdout.2 outfd null.2.1 → v ≠ 1 → T1 v = T0 v := by
    intro v hv hv0
    rw [e1, if_neg hv0, if_neg hv]
  -- third stream
  have e2 : ∀ x, child T1 f CREATE_STDERR USE_STDERR fderr.1 fderr.2 errfd 2 null.2.2 nullFile x =
      if x = 2 then childStream T1 f 2 fderr.2 errfd nullFile else if x ∈ childUsed f 2 fderr.1 fderr.2 errfd null.2.2 then none else T1 x := by
    intro x
    refine child_eq T1 f CREATE_STDERR USE_STDERR 2 (createErr f) (useErr f) _ _ _ _ _ ?_ ?_ ?_ x
    · intro v hv
      obtain ⟨a, b, c, d⟩ := h.src2 v hv
      exact ⟨by rw [k1 v d (by omega), k0 v c (by omega)]; exact a, by omega⟩
    · intro _; exact ⟨p5, by omega⟩
    · intro _; exact ⟨by omega, by omega⟩
  generalize hT2 : child T1 f CREATE_STDERR USE_STDERR fderr.1 fderr.2 errfd 2 null.2.2 nullFile = T2 at e2
  -- the streams' files seen from the parent's table
  have cs : ∀ (A B : FdTab) (k : Nat) (p : Int) (fd : Option Int), (∀ v, childSource f k p fd = some v → A v = B v) → A k = B k →
      childStream A f k p fd nullFile = childStream B f k p fd nullFile := by
    intro A B k p fd hs hk
    unfold childSource at hs
    unfold childStream
    split
    · rename_i h1; rw [if_pos h1] at hs; exact hs p rfl
    · rename_i h1
      rw [if_neg h1] at hs
      split
      · rename_i h2
        rw [if_pos h2] at hs
        cases fd with
        | none => rfl
        | some v =>
          simp only
          split
          · rfl
          · rename_i hv; exact hs v (by simp [Option.filter, hv])
      · exact hk
  have n0 : ∀ (k : Int), k ≤ 2 → k ∉ childUsed f 0 fdin.2 fdin.1 infd null.1 := fun k hk hm => by have := g0 _ hm; omega
  have n1' : ∀ (k : Int), k ≤ 2 → k ∉ childUsed f 1 fdout.1 fdout.2 outfd null.2.1 := fun k hk hm => by have := g1 _ hm; omega
  have n2' : ∀ (k : Int), k ≤ 2 → k ∉ childUsed f 2 fderr.1 fderr.2 errfd null.2.2 := fun k hk hm => by have := g2 _ hm; omega
  have s1 : childStream T0 f 1 fdout.2 outfd nullFile = childStream T f 1 fdout.2 outfd nullFile := by
    refine cs T0 T 1 _ _ (fun v hv => ?_) (k0 1 (n0 1 (by omega)) (by decide))
    obtain ⟨a, b, c⟩ := h.src1 v hv
    exact k0 v c (by omega)
  have s2 : childStream T1 f 2 fderr.2 errfd nullFile = childStream T f 2 fderr.2 errfd nullFile := by
    refine cs T1 T 2 _ _ (fun v hv => ?_) ?_
    · obtain ⟨a, b, c, d⟩ := h.src2 v hv
      rw [k1 v d (by omega), k0 v c (by omega)]
    · exact (k1 2 (n1' 2 (by omega)) (by decide)).trans (k0 2 (n0 2 (by omega)) (by decide))
  have t1 : childStream T f 1 fdout.2 outfd nullFile ≠ none := by
    have hs := h.src1
    unfold childSource at hs
    unfold childStream
    split
    · rename_i h1; rw [if_pos h1] at hs; exact (hs _ rfl).1
    · rename_i h1
      rw [if_neg h1] at hs
      split
      · rename_i h2
        rw [if_pos h2] at hs
        cases outfd with
        | none => simp
        | some v =>
          simp only
          split
          · simp
          · rename_i hv; exact (hs v (by simp [Option.filter, hv])).1
      · exact h.stdout
  have v0 : T2 0 = childStream T f 0 fdin.1 infd nullFile := by
    rw [e2, if_neg (by decide), if_neg (n2' 0 (by omega)), e1, if_neg (by decide), if_neg (n1' 0 (by omega)), e0, if_pos rfl]
  have v1 : T2 1 = childStream T f 1 fdout.2 outfd nullFile := by
    rw [e2, if_neg (by decide), if_neg (n2' 1 (by omega)), e1, if_pos rfl, s1]
  have v2 : T2 2 = childStream T f 2 fderr.2 errfd nullFile := by rw [e2, if_pos rfl, s2]
  -- stderr to stdout
  have e3 : ∀ x, (if f &&& STDERR_TO_STDOUT != 0 then sysDup2 T2 1 2 else T2) x =
      if x = 2 ∧ f.getLsbD 8 = true then childStream T f 1 fdout.2 outfd nullFile else T2 x := by
    intro x
    rw [errToOut]
    by_cases h8 : f.getLsbD 8 = true
    · rw [if_pos h8]
      unfold sysDup2
      rw [v1]
      cases hx : childStream T f 1 fdout.2 outfd nullFile with
      | none => exact absurd hx t1
      | some g => simp [h8]
    · rw [if_neg h8, if_neg (fun hh => h8 hh.2)]
  generalize hT3 : (if f &&& STDERR_TO_STDOUT != 0 then sysDup2 T2 1 2 else T2) = T3 at e3
  have e4 : ∀ x, T' x = if 0 ≤ x ∧ objects.getD x.toNat 0 > 0 then none else T3 x := by
    intro x
    rw [hT]
    unfold childTab
    simp only [hT0, hT1, hT2, hT3]
    rw [closeOthers_eq]
    simp
  have std : ∀ k : Nat, k < 3 → T' k = T3 k := by
    intro k hk
    rw [e4, if_neg]
    rintro ⟨_, hx⟩
    have := h.std k hk
    rw [Int.toNat_natCast, this] at hx
    omega
  refine ⟨?_, ?_, ?_, ?_⟩
  · have := std 0 (by omega)
    rw [show ((0 : Nat) : Int) = 0 from rfl] at this
    rw [this, e3, if_neg (by simp), v0]
  · have := std 1 (by omega)
    rw [show ((1 : Nat) : Int) = 1 from rfl] at this
    rw [this, e3, if_neg (by simp), v1]
  · have := std 2 (by omega)
    rw [show ((2 : Nat) : Int) = 2 from rfl] at this
    rw [this, e3, v2]
    by_cases h8 : f.getLsbD 8 = true
    · rw [if_pos ⟨rfl, h8⟩, if_pos h8]
    · rw [if_neg (fun hh => h8 hh.2), if_neg h8]
  · intro x hx
    have e5 : T3 x = if x ∈ childUsed f 2 fderr.1 fderr.2 errfd null.2.2 then none else if x ∈ childUsed f 1 fdout.1 fdout.2 outfd null.2.1 then none
        else if x ∈ childUsed f 0 fdin.2 fdin.1 infd null.1 then none else T x := by
      have x0 : ¬ x = 0 := by omega
      have x1 : ¬ x = 1 := by omega
      have x2 : ¬ x = 2 := by omega
      rw [e3, if_neg (fun hh => x2 hh.1), e2, if_neg x2, e1, if_neg x1, e0, if_neg x0]
    rw [e4, e5]
    by_cases a0 : x ∈ childUsed f 0 fdin.2 fdin.1 infd null.1 <;> by_cases a1 : x ∈ childUsed f 1 fdout.1 fdout.2 outfd null.2.1 <;>
      by_cases a2 : x ∈ childUsed f 2 fderr.1 fderr.2 errfd null.2.2 <;> by_cases a3 : 0 ≤ x ∧ objects.getD x.toNat 0 > 0 <;>
      simp [a0, a1, a2, a3]

/-- Non-vacuity: stdin from a new pipe, stdout to descriptor 8, stderr to stdout; an earlier child owns descriptor 3. -/
example :
    let T : FdTab := fun x => if 0 ≤ x ∧ x ≤ 9 then some (100 + x.toNat) else none
    let T' := childTab T [0, 0, 0, 77] 0x112 none (some 8) none (5, 6) (20, 21) (22, 23) (30, 31, 32) 999
    ChildOk T [0, 0, 0, 77] 0x112 none (some 8) none (5, 6) (20, 21) (22, 23) (30, 31, 32) ∧
    [T' 0, T' 1, T' 2, T' 3, T' 4, T' 5, T' 6, T' 7, T' 8, T' 9] =
      [some 105, some 108, some 108, none, some 104, none, none, some 107, none, some 109] := by
  refine ⟨⟨?_, ?_, ?_, by decide, by decide, by decide, by decide⟩, by decide +kernel⟩
  · intro v hv
    have : v = 5 := by have : childSource 0x112 0 5 none = some 5 := by decide
                       rw [this] at hv; simpa using hv.symm
    subst this; decide
  · intro v hv
    have : v = 8 := by have : childSource 0x112 1 21 (some 8) = some 8 := by decide
                       rw [this] at hv; simpa using hv.symm
    subst this; decide
  · intro v hv
    have : childSource 0x112 2 23 none = none := by decide
    rw [this] at hv
    simp at hv

/-- The conditions of C59 matter: if the parent's descriptor 0 is closed, the pipe for the child's stdin may get it as its
read end, and the child starts with stdin closed. -/
theorem C59_low_descriptor_refuted :
    ∃ (T : FdTab) (T' : FdTab), T 0 = some 100 ∧ T' = childTab T [0, 0, 0, 0, 0] 0x10 (some 0) none none (0, 4) (0, 0) (0, 0) (0, 0, 0) 999 ∧ T' 0 = none :=
  ⟨fun x => if 0 ≤ x ∧ x ≤ 4 then some (100 + x.toNat) else none, _, rfl, rfl, by decide +kernel⟩

end Maa.Pr
