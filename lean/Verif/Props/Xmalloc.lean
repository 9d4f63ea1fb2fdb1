import Verif.Lemmas.Xmalloc

/-! # Property C70: the checked allocation functions (maa/xmalloc.c) -/

namespace Maa.Xmalloc

open Spec (Allocator MemOp Fits)

/-- C70: whatever the C library's allocator answers, every history of xmalloc, xcalloc, xrealloc, xfree and xstrdup calls, of stores and
of fetches in one flat memory behaves as if every block were a byte array of its own (Spec/Blocks.lean), and ends where that ends. -/
theorem C70_blocks (e : Allocator) (ok : e.Ok) (mem : Nat → UInt8) (hist : List MemOp) :
    Spec.observe (Spec.run (step e) (Proc.init mem) hist) = Spec.observe (Spec.run (Spec.memStep e) { blocks := [], time := 0 } hist) :=
  Spec.ResRel.observe (R := fun s b => b = abs s ∧ Sep s.live) (history_sim ok mem hist)

/-- C70: after any history the live blocks are at addresses other than NULL and do not overlap. -/
theorem C70_apart (e : Allocator) (ok : e.Ok) (mem : Nat → UInt8) (hist : List MemOp) (s : Proc) (outs : List Nat)
    (hr : Spec.run (step e) (Proc.init mem) hist = .ok (s, outs)) :
    (∀ b ∈ s.live, b.1 ≠ 0) ∧ s.live.Pairwise fun x y => x.1 ≠ y.1 ∧ (x.1 + x.2 ≤ y.1 ∨ y.1 + y.2 ≤ x.1) := by
  have h := history_sim ok mem hist
  rw [hr] at h
  cases hb : Spec.run (Spec.memStep e) { blocks := [], time := 0 } hist <;> rw [hb] at h <;> simp only [Spec.ResRel] at h
  exact ⟨h.2.2.nz, h.2.2.pw⟩

/-- C70, xmalloc, in any reachable state: fatal exactly if the C library has no memory; otherwise a block of the size asked for, not NULL
and apart from every live block, whose bytes all stay as they were. -/
theorem C70_xmalloc (e : Allocator) (ok : e.Ok) (s : Proc) (n : Nat) :
    (xmalloc e s n = .fatal ↔ e.malloc s.time s.live n = none) ∧
    (xmalloc e s n = .fatal ∨ ∃ s' p, xmalloc e s n = .ok (s', p) ∧ p ≠ 0 ∧ s'.live = (p, n) :: s.live ∧
      ∀ b ∈ s.live, (p + n ≤ b.1 ∨ b.1 + b.2 ≤ p) ∧ ∀ i < b.2, s'.mem (b.1 + i) = s.mem (b.1 + i)) := by
  simp only [xmalloc, cMalloc]
  cases h : e.malloc s.time s.live n with
  | none => simp
  | some p =>
    have f := ok.malloc _ _ _ _ h
    refine ⟨by simp, Or.inr ⟨_, p, rfl, f.1, rfl, fun b hb => ?_⟩⟩
    have := (f.2 b.1 b.2 hb).2
    refine ⟨this, fun i hi => ?_⟩
    simp only [fillMem]
    rw [if_neg (by omega)]

/-- C70, xcalloc: fatal exactly if the C library has no memory, in particular when the product of the arguments does not fit in a
`size_t`; otherwise `num * size` zero bytes apart from every live block, whose bytes all stay as they were. -/
theorem C70_xcalloc (e : Allocator) (ok : e.Ok) (s : Proc) (num size : Nat) :
    (xcalloc e s num size = .fatal ↔ e.calloc s.time s.live num size = none) ∧
    (2 ^ 64 ≤ num * size → xcalloc e s num size = .fatal) ∧
    (xcalloc e s num size = .fatal ∨ ∃ s' p, xcalloc e s num size = .ok (s', p) ∧ p ≠ 0 ∧ s'.live = (p, num * size) :: s.live ∧
      (∀ i < num * size, s'.mem (p + i) = 0) ∧
      ∀ b ∈ s.live, (p + num * size ≤ b.1 ∨ b.1 + b.2 ≤ p) ∧ ∀ i < b.2, s'.mem (b.1 + i) = s.mem (b.1 + i)) := by
  simp only [xcalloc, cCalloc]
  cases h : e.calloc s.time s.live num size with
  | none => simp
  | some p =>
    have f := ok.calloc _ _ _ _ _ h
    refine ⟨by simp, fun hh => absurd f.1 (by omega), Or.inr ⟨_, p, rfl, f.2.1, rfl, fun i hi => ?_, fun b hb => ?_⟩⟩
    · simp only [fillMem]
      rw [if_pos (by omega)]
    · have := (f.2.2 b.1 b.2 hb).2
      refine ⟨this, fun i hi => ?_⟩
      simp only [fillMem]
      rw [if_neg (by omega)]

/-- C70, xrealloc of a live block: fatal exactly if the C library answers NULL; otherwise the new block has the size asked for and begins
with the bytes of the old one, which is no longer live unless it is the same, and no other block changes. -/
theorem C70_xrealloc (e : Allocator) (ok : e.Ok) (mem : Nat → UInt8) (hist : List MemOp) (s : Proc) (outs : List Nat)
    (hr : Spec.run (step e) (Proc.init mem) hist = .ok (s, outs)) (old m n : Nat) (hl : (old, m) ∈ s.live) :
    (xrealloc e s old n = .fatal ↔ e.realloc s.time s.live old n = none) ∧
    (xrealloc e s old n = .fatal ∨ ∃ s' p, xrealloc e s old n = .ok (s', p) ∧ p ≠ 0 ∧ (p, n) ∈ s'.live ∧
      (∀ b, b ∈ s'.live ↔ b = (p, n) ∨ (b ∈ s.live ∧ b ≠ (old, m))) ∧
      (∀ i, i < n → i < m → s'.mem (p + i) = s.mem (old + i)) ∧
      ∀ b ∈ s.live, b ≠ (old, m) → (p + n ≤ b.1 ∨ b.1 + b.2 ≤ p) ∧ ∀ i < b.2, s'.mem (b.1 + i) = s.mem (b.1 + i)) := by
  obtain ⟨nz, pw⟩ := C70_apart e ok mem hist s outs hr
  have h0 : old ≠ 0 := nz _ hl
  have uniq : ∀ b ∈ s.live, b.1 = old → b = (old, m) := by
    intro b hb he
    exact sep_uniq s.live pw b hb (old, m) hl he
  have hf : s.live.find? (fun b => decide (b.1 = old)) = some (old, m) := by
    cases h : s.live.find? (fun b => decide (b.1 = old)) with
    | none =>
      rw [List.find?_eq_none] at h
      exact absurd (by simp) (h (old, m) hl)
    | some b =>
      obtain ⟨b1, b2⟩ := find_fst h
      rw [uniq b b1 b2]
  simp only [xrealloc, cRealloc, if_neg h0, hf]
  cases h : e.realloc s.time s.live old n with
  | none => simp [Res.bind]
  | some p =>
    have f := ok.realloc _ _ _ _ _ h
    simp only [Res.bind]
    refine ⟨by simp, Or.inr ⟨_, p, rfl, f.1, by simp, fun b => ?_, fun i h1 h2 => ?_, fun b hb hne => ?_⟩⟩
    · simp only [List.mem_cons, List.mem_filter, decide_eq_true_eq]
      refine or_congr Iff.rfl (and_congr_right fun hb => ?_)
      constructor
      · rintro h rfl; exact h rfl
      · intro h he; exact h (uniq b hb he)
    · simp only [fillMem]
      rw [if_pos (by omega), if_pos (by omega)]
      congr 2; omega
    · have := (f.2 b.1 b.2 (by simp only [List.mem_filter, decide_eq_true_eq]; exact ⟨hb, fun he => hne (uniq b hb he)⟩)).2
      refine ⟨this, fun i hi => ?_⟩
      simp only [fillMem]
      rw [if_neg (by omega)]

/-- C70, xstrdup of a string inside a live block: fatal exactly if the C library has no memory for the characters and the final null;
otherwise a new block that holds exactly these, apart from every live block, whose bytes all stay as they were. -/
theorem C70_xstrdup (e : Allocator) (ok : e.Ok) (mem : Nat → UInt8) (hist : List MemOp) (s : Proc) (outs : List Nat)
    (hr : Spec.run (step e) (Proc.init mem) hist = .ok (s, outs)) (b m a len : Nat) (hl : (b, m) ∈ s.live) (ha : b ≤ a) (hin : a + len < b + m)
    (hc : ∀ i < len, s.mem (a + i) ≠ 0) (hz : s.mem (a + len) = 0) :
    (xstrdup e s a = .fatal ↔ e.malloc s.time s.live (len + 1) = none) ∧
    (xstrdup e s a = .fatal ∨ ∃ s' p, xstrdup e s a = .ok (s', p) ∧ p ≠ 0 ∧ s'.live = (p, len + 1) :: s.live ∧
      (∀ i ≤ len, s'.mem (p + i) = s.mem (a + i)) ∧
      ∀ b ∈ s.live, (p + (len + 1) ≤ b.1 ∨ b.1 + b.2 ≤ p) ∧ ∀ i < b.2, s'.mem (b.1 + i) = s.mem (b.1 + i)) := by
  obtain ⟨nz, pw⟩ := C70_apart e ok mem hist s outs hr
  have hf : s.live.find? (fun b => decide (b.1 ≤ a) && decide (a < b.1 + b.2)) = some (b, m) := by
    cases h : s.live.find? (fun b => decide (b.1 ≤ a) && decide (a < b.1 + b.2)) with
    | none =>
      rw [List.find?_eq_none] at h
      exact absurd (by simp; omega) (h (b, m) hl)
    | some c =>
      obtain ⟨c1, c2, c3⟩ := find_apart h
      rw [sep_meet s.live pw c c1 (b, m) hl ⟨a, c2, c3, by simpa using ha, by simp; omega⟩]
  have hs : ∀ n a len, len < n → (∀ i < len, s.mem (a + i) ≠ 0) → s.mem (a + len) = 0 → strlen s.mem n a = some len := by
    intro n
    induction n with
    | zero => intro a len h; omega
    | succ n ih =>
      intro a len h1 h2 h3
      simp only [strlen]
      cases len with
      | zero => rw [if_pos (by simpa using h3)]
      | succ len =>
        rw [if_neg (by simpa using h2 0 (by omega)), ih (a + 1) len (by omega)]
        · rfl
        · intro i hi
          have := h2 (i + 1) (by omega)
          rwa [show a + 1 + i = a + (i + 1) by omega]
        · rwa [show a + 1 + len = a + (len + 1) by omega]
  simp only [xstrdup, hf, hs (b + m - a) a len (by omega) hc hz]
  obtain ⟨h1, h2⟩ := C70_xmalloc e ok s (len + 1)
  refine ⟨?_, ?_⟩
  · rw [← h1]
    cases xmalloc e s (len + 1) <;> simp [Res.bind]
  · rcases h2 with h2 | ⟨s', p, h3, h4, h5, h6⟩
    · left; rw [h2]; rfl
    · right
      rw [h3]
      have hd := (h6 (b, m) hl)
      simp only at hd
      refine ⟨_, p, rfl, h4, h5, fun i hi => ?_, fun c hcm => ⟨(h6 c hcm).1, fun i hi => ?_⟩⟩
      · simp only [fillMem]
        rw [if_pos (by omega), show a + (p + i - p) = b + (a - b + i) by omega, hd.2 _ (by omega)]
        congr 1; omega
      · simp only [fillMem]
        have := (h6 c hcm).1
        rw [if_neg (by omega), (h6 c hcm).2 i hi]

/-- C70, xfree of a live block: it is gone, every other block and all bytes stay. -/
theorem C70_xfree (e : Allocator) (ok : e.Ok) (mem : Nat → UInt8) (hist : List MemOp) (s : Proc) (outs : List Nat)
    (hr : Spec.run (step e) (Proc.init mem) hist = .ok (s, outs)) (b m : Nat) (hl : (b, m) ∈ s.live) :
    ∃ s', xfree s b = .ok s' ∧ s'.mem = s.mem ∧ ∀ c, c ∈ s'.live ↔ c ∈ s.live ∧ c ≠ (b, m) := by
  obtain ⟨nz, pw⟩ := C70_apart e ok mem hist s outs hr
  have hany : (s.live.any fun c => decide (c.1 = b)) = true := by
    rw [List.any_eq_true]; exact ⟨(b, m), hl, by simp⟩
  refine ⟨{ s with live := s.live.filter fun c => decide (c.1 ≠ b) }, ?_, rfl, fun c => ?_⟩
  · unfold xfree cFree
    rw [if_pos (nz _ hl), if_pos hany]
  · simp only [List.mem_filter, decide_eq_true_eq]
    refine and_congr_right fun hcl => ⟨?_, fun h he => h (sep_uniq s.live pw c hcl (b, m) hl he)⟩
    rintro h rfl; exact h rfl

/-- C70: freeing NULL is a fatal error (unlike `free`). -/
theorem C70_xfree_null (s : Proc) : xfree s 0 = .fatal := by simp [xfree]

/-- An allocator: blocks one after the other from address 1 on, up to `limit`; like some C libraries it answers NULL to a request to
resize to zero bytes. -/
def bump (limit : Nat) : Allocator :=
  let top (live : List (Nat × Nat)) : Nat := live.foldr (fun b k => max (b.1 + b.2 + 1) k) 1
  let place (live : List (Nat × Nat)) (n : Nat) : Option Nat := if top live + n ≤ limit ∧ n < 2 ^ 64 then some (top live) else none
  { malloc := fun _ live n => place live n
    calloc := fun _ live num size => place live (num * size)
    realloc := fun _ live _ n => if n = 0 then none else place live n
    fill := fun t i => UInt8.ofNat (t + i) }

theorem bump_ok (limit : Nat) : (bump limit).Ok := by
  have top : ∀ (live : List (Nat × Nat)), 1 ≤ live.foldr (fun b k => max (b.1 + b.2 + 1) k) 1 ∧
      ∀ b ∈ live, b.1 + b.2 + 1 ≤ live.foldr (fun b k => max (b.1 + b.2 + 1) k) 1 := by
    intro live
    induction live with
    | nil => simp
    | cons c live ih =>
      simp only [List.foldr_cons, List.mem_cons]
      refine ⟨by have := ih.1; omega, ?_⟩
      rintro b (rfl | hb)
      · exact Nat.le_max_left _ _
      · exact Nat.le_trans (ih.2 b hb) (Nat.le_max_right _ _)
  have fits : ∀ (live sub : List (Nat × Nat)) n, (∀ b ∈ sub, b ∈ live) → Fits sub (live.foldr (fun b k => max (b.1 + b.2 + 1) k) 1) n := by
    intro live sub n hs
    refine ⟨by have := (top live).1; omega, fun b m hb => ?_⟩
    have := (top live).2 _ (hs _ hb)
    simp only at this
    omega
  constructor
  · intro t live n p h
    simp only [bump] at h
    split at h
    · simp only [Option.some.injEq] at h
      rw [← h]; exact fits live live n fun _ h => h
    · simp at h
  · intro t live num size p h
    simp only [bump] at h
    split at h
    · rename_i hc
      simp only [Option.some.injEq] at h
      rw [← h]; exact ⟨hc.2, fits live live _ fun _ h => h⟩
    · simp at h
  · intro t live old n p h
    simp only [bump] at h
    split at h
    · simp at h
    · split at h
      · simp only [Option.some.injEq] at h
        rw [← h]; exact fits live _ n fun _ h => (List.mem_filter.1 h).1
      · simp at h

/-- "Fatal only when memory is exhausted" is refuted: with an allocator the C standard allows, resizing a block to zero bytes ends the program
with the out-of-memory message although there is memory. -/
theorem C70_realloc_zero_refuted : ∃ e : Allocator, e.Ok ∧
    Spec.observe (Spec.run (step e) (Proc.init fun _ => 0) [.malloc 8, .realloc 1 0]) = .fatal ∧
    Spec.observe (Spec.run (step e) (Proc.init fun _ => 0) [.malloc 8, .malloc 1000]) = .ok [1, 10] :=
  ⟨bump (2 ^ 20), bump_ok _, by decide +kernel, by decide +kernel⟩

/-- Non-vacuity: a string is built, duplicated, changed; the copy is not affected by growing and freeing the original. -/
example : Spec.observe (Spec.run (step (bump 100)) (Proc.init fun _ => 7)
    [.calloc 2 2, .store 1 104, .store 2 105, .strdup 1, .store 1 72, .realloc 1 9, .fetch 10, .fetch 11, .fetch 15, .free 10, .fetch 6, .fetch 7, .fetch 8,
      .malloc 3, .fetch 10]) = .ok [1, 0, 0, 6, 0, 10, 72, 105, 7, 0, 104, 105, 0, 10, 3] := by
  decide +kernel

/-- … and it may run out of memory. -/
example : Spec.observe (Spec.run (step (bump 100)) (Proc.init fun _ => 7) [.malloc 90, .malloc 20]) = .fatal := by decide +kernel

end Maa.Xmalloc
