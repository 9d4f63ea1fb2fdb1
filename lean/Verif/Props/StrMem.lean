import Verif.Lemmas.StrMem

/-! # Properties C23, C24, C25: string memories of maa/memory.c

`h0` is memory when the string memory is created; it may already hold anything.  `StrView.after` is what
users know after a history: it is undefined exactly when some call was given an argument it may not be
given (Spec/StrMem.lean). -/

namespace Maa.StrMem

open Spec (StrView StrOp)

/-- Names used in the statements: some history of calls on a new string memory leads to `s`, and the
users then know `v`. -/
def Reaches (h0 : Mem) (s : Mem × SInfo) (v : StrView) : Prop :=
  ∃ hist outs, Spec.run step (h0, create) hist = .ok (s, outs) ∧ StrView.after {} hist outs = some v

theorem Reaches.inv {h0 : Mem} (ok0 : h0.Ok) {s : Mem × SInfo} {v : StrView} (r : Reaches h0 s v) : Inv h0 s v := by
  obtain ⟨hist, outs, h1, h2⟩ := r
  exact run_inv hist _ s {} v outs (create_inv h0 ok0) h1 h2

theorem after_append (os os' : List StrOp) : ∀ (rs rs' : List Nat) (v v1 : StrView), v.after os rs = some v1 →
    v.after (os ++ os') (rs ++ rs') = v1.after os' rs' := by
  induction os with
  | nil =>
    intro rs rs' v v1 h
    cases rs with
    | nil => simp only [StrView.after, Option.some.injEq] at h; simp [h]
    | cons r rs => simp [StrView.after] at h
  | cons o os ih =>
    intro rs rs' v v1 h
    cases rs with
    | nil => simp [StrView.after] at h
    | cons r rs =>
      simp only [StrView.after, List.cons_append] at h ⊢
      cases hs : v.see o r with
      | none => rw [hs] at h; simp at h
      | some v2 =>
        rw [hs] at h
        simp only [Option.bind_some] at h ⊢
        exact ih rs rs' v2 v1 h

theorem Reaches.next {h0 : Mem} {s s' : Mem × SInfo} {v v' : StrView} (r : Reaches h0 s v) {o : StrOp} {p : Nat}
    (h1 : step s o = .ok (s', p)) (h2 : v.see o p = some v') : Reaches h0 s' v' := by
  obtain ⟨hist, outs, h3, h4⟩ := r
  refine ⟨hist ++ [o], outs ++ [p], ?_, ?_⟩
  · rw [Spec.run_append, h3]
    simp [Res.bind, Spec.run, h1]
  · rw [after_append _ _ _ _ _ _ h4]
    simp [StrView.after, h2]

/-- C23: at every moment every string handed out so far is still in memory, unchanged; all are at
different addresses, none NULL, none in memory that belongs to others, and that memory is unchanged. -/
theorem C23_strings_stay (h0 : Mem) (ok0 : h0.Ok) (s : Mem × SInfo) (v : StrView) (r : Reaches h0 s v) :
    (∀ p b, (p, b) ∈ v.strings → s.1.mem p = some (b, 0) ∧ p ≠ 0 ∧ h0.mem p = none) ∧
    (v.strings.map Prod.fst).Nodup ∧ (∀ a, (h0.mem a).isSome → s.1.mem a = h0.mem a) := by
  have i := r.inv ok0
  refine ⟨fun p b hm => ?_, i.nodup, i.old⟩
  obtain ⟨h1, h2⟩ := i.strs _ hm
  exact ⟨h1, by rintro rfl; rw [i.ok.null] at h1; simp at h1, i.above _ h2⟩

/-- C23, no call fails: whatever happened before, a call with permitted arguments returns; `mem_strcpy` and
`mem_finish` return an address that is no string handed out before and was not in use before the memory was created, holding the terminated copy, or the concatenation of what was grown. -/
theorem C23_next_call (h0 : Mem) (ok0 : h0.Ok) (s : Mem × SInfo) (v : StrView) (r : Reaches h0 s v) (o : StrOp)
    (permitted : v.see o 0 ≠ none) :
    ∃ s' p v', step s o = .ok (s', p) ∧ v.see o p = some v' ∧ Reaches h0 s' v' ∧
      ((∀ b n, o ≠ .grow b n) → p ≠ 0 ∧ p ∉ v.strings.map Prod.fst ∧ h0.mem p = none) ∧
      (∀ b t rest, o = .strcpy b → b = t ++ 0 :: rest → 0 ∉ t → s'.1.mem p = some (t ++ [0], 0)) ∧
      (o = .finish → s'.1.mem p = some (v.pending ++ [0], 0)) := by
  have i := r.inv ok0
  obtain ⟨s', p, v', h1, h2, h3, h4⟩ := step_inv i o (see_all permitted)
  refine ⟨s', p, v', h1, h2, r.next h1 h2, fun h => ?_, ?_, ?_⟩
  · obtain ⟨h5, h6⟩ := h4 h
    refine ⟨h5, h6, ?_⟩
    have hin : ∃ b, (p, b) ∈ v'.strings := by
      cases o with
      | strcpy b =>
        simp only [StrView.see, Option.map_eq_some_iff] at h2
        obtain ⟨t, -, h2⟩ := h2
        exact ⟨t ++ [0], by rw [← h2]; simp⟩
      | strncpy b n =>
        simp only [StrView.see] at h2
        split at h2 <;> simp at h2
        exact ⟨b.take (n + 1), by rw [← h2]; simp⟩
      | grow b n => exact absurd rfl (h b n)
      | finish =>
        simp only [StrView.see, Option.some.injEq] at h2
        exact ⟨v.pending ++ [0], by rw [← h2]; simp⟩
    obtain ⟨b, hb⟩ := hin
    exact h3.above _ (h3.strs _ hb).2
  · rintro b t rest rfl rfl ht
    have hu := upToNul_of (CStr.cstr_append t ht rest)
    simp only [StrView.see, hu, Option.map_some, Option.some.injEq] at h2
    exact (h3.strs (p, t ++ [0]) (by rw [← h2]; simp)).1
  · rintro rfl
    simp only [StrView.see, Option.some.injEq] at h2
    exact (h3.strs (p, v.pending ++ [0]) (by rw [← h2]; simp)).1

/-- The calls growing a string from these pieces. -/
def growCalls (pieces : List (List Byte)) : List StrOp := pieces.map fun p => .grow p p.length

theorem grow_run {h0 : Mem} (pieces : List (List Byte)) : ∀ (s : Mem × SInfo) (v : StrView), Inv h0 s v →
    ∃ s' outs, Spec.run step s (growCalls pieces) = .ok (s', outs) ∧
      Inv h0 s' { v with pending := v.pending ++ pieces.flatten } := by
  induction pieces with
  | nil => intro s v i; exact ⟨s, [], rfl, by simpa using i⟩
  | cons p ps ih =>
    intro s v i
    obtain ⟨s1, top, rest, h1, h2, -⟩ := i.grown p p.length (Nat.le_refl _)
    obtain ⟨s2, outs, h3, h4⟩ := ih s1 _ h2
    refine ⟨s2, 0 :: outs, ?_, ?_⟩
    · simp only [growCalls, List.map_cons, Spec.run, step, h1, Res.bind]
      simp only [growCalls] at h3
      rw [h3]
    · simpa using h4

/-- C23, grown strings: from any state without unfinished pieces, growing any pieces and finishing returns
a new address that holds their concatenation, terminated. -/
theorem C23_grow_finish (h0 : Mem) (ok0 : h0.Ok) (s : Mem × SInfo) (v : StrView) (r : Reaches h0 s v)
    (nothing_pending : v.pending = []) (pieces : List (List Byte)) :
    ∃ s' outs p, Spec.run step s (growCalls pieces ++ [.finish]) = .ok (s', outs) ∧ outs.getLast? = some p ∧
      s'.1.mem p = some (pieces.flatten ++ [0], 0) ∧ p ≠ 0 ∧ p ∉ v.strings.map Prod.fst ∧
      (∀ q b, (q, b) ∈ v.strings → s'.1.mem q = some (b, 0)) := by
  obtain ⟨s1, outs, h1, h2⟩ := grow_run pieces s v (r.inv ok0)
  obtain ⟨s2, p, v2, h3, h4, h5, h6⟩ := step_inv h2 .finish (by simp [StrView.see])
  simp only [StrView.see, nothing_pending, List.nil_append, Option.some.injEq] at h4
  have hm := (h5.strs (p, pieces.flatten ++ [0]) (by rw [← h4]; simp)).1
  refine ⟨s2, outs ++ [p], p, ?_, by simp, hm, (h6 (by simp)).1, ?_, ?_⟩
  · rw [Spec.run_append, h1]
    simp [Res.bind, Spec.run, h3]
  · have := h5.nodup
    rw [← h4] at this
    simp only [List.map_cons, List.nodup_cons] at this
    exact this.1
  · intro q b hq
    exact (h5.strs (q, b) (by rw [← h4]; simp [hq])).1

/-- C23, end: after any history `mem_destroy_strings` frees everything exactly once and leaves memory as it
was before the string memory was created. -/
theorem C23_destroy (h0 : Mem) (ok0 : h0.Ok) (s : Mem × SInfo) (v : StrView) (r : Reaches h0 s v) :
    ∃ h', destroy s.1 s.2 = .ok h' ∧ h'.mem = h0.mem := by
  have i := r.inv ok0
  obtain ⟨h', h1, h2, h3⟩ := Objects.destroyLoop_ok s.2.allocated i.anodup i.live
  refine ⟨h', h1, ?_⟩
  funext a
  rw [h3 a]
  split
  · rename_i ha
    exact (i.above a ha).symm
  · rename_i ha
    cases hm : h0.mem a with
    | some c => rw [← hm]; exact i.old a (by rw [hm]; rfl)
    | none =>
      by_contra hn
      exact ha (i.new a hm (Option.isSome_iff_ne_none.2 hn))

/-- C25: the statistics are the number of strings handed out and the number of bytes stored: those of the
strings, terminators included, and those of pieces not (or never) finished. -/
theorem C25_stats (h0 : Mem) (ok0 : h0.Ok) (s : Mem × SInfo) (v : StrView) (r : Reaches h0 s v) :
    stats s.2 = (v.strings.length, (v.strings.map fun p => p.2.length).sum + v.pending.length + v.abandoned) := by
  have i := r.inv ok0
  simp only [stats, i.count, i.bytes, sizes]

/-- A history in which nothing is copied between a `grow` and its `finish` (as maa/memory.c:160-163 asks). -/
def Disciplined : Bool → List StrOp → Prop
  | _, [] => True
  | growing, .strcpy _ :: os => growing = false ∧ Disciplined false os
  | growing, .strncpy _ _ :: os => growing = false ∧ Disciplined false os
  | _, .grow _ _ :: os => Disciplined true os
  | _, .finish :: os => Disciplined false os

theorem disciplined_abandoned (hist : List StrOp) : ∀ (g : Bool) (v v' : StrView) (outs : List Nat),
    Disciplined g hist → (g = false → v.pending = []) → v.after hist outs = some v' → v'.abandoned = v.abandoned := by
  induction hist with
  | nil =>
    intro g v v' outs _ _ h
    cases outs <;> simp [StrView.after] at h
    rw [h]
  | cons o os ih =>
    intro g v v' outs hd hg h
    cases outs with
    | nil => simp [StrView.after] at h
    | cons r rs =>
      simp only [StrView.after] at h
      cases hs : v.see o r with
      | none => rw [hs] at h; simp at h
      | some v1 =>
        rw [hs] at h
        simp only [Option.bind_some] at h
        cases o with
        | strcpy b =>
          simp only [StrView.see, Option.map_eq_some_iff] at hs
          obtain ⟨t, -, hs⟩ := hs
          have := ih false v1 v' rs hd.2 (fun _ => by rw [← hs]) h
          rw [this, ← hs]; simp [hg hd.1]
        | strncpy b n =>
          simp only [StrView.see] at hs
          split at hs <;> simp at hs
          have := ih false v1 v' rs hd.2 (fun _ => by rw [← hs]) h
          rw [this, ← hs]; simp [hg hd.1]
        | grow b n =>
          simp only [StrView.see] at hs
          split at hs <;> simp at hs
          have := ih true v1 v' rs hd (by simp) h
          rw [this, ← hs]
        | finish =>
          simp only [StrView.see, Option.some.injEq] at hs
          have := ih false v1 v' rs hd (fun _ => by rw [← hs]) h
          rw [this, ← hs]

/-- C25, when every string grown has been finished and nothing was copied in between, `bytes` is exactly
the total size of the strings handed out. -/
theorem C25_stats_disciplined (h0 : Mem) (ok0 : h0.Ok) (hist : List StrOp) (s : Mem × SInfo) (outs : List Nat)
    (v : StrView) (hr : Spec.run step (h0, create) hist = .ok (s, outs)) (hv : StrView.after {} hist outs = some v)
    (hd : Disciplined false hist) (hp : v.pending = []) :
    stats s.2 = (v.strings.length, (v.strings.map fun p => p.2.length).sum) := by
  have h1 := C25_stats h0 ok0 s v ⟨hist, outs, hr, hv⟩
  have h2 := disciplined_abandoned hist false {} v outs hd (fun _ => rfl) hv
  rw [h1, h2, hp]
  simp

/-- A history with everything in it meets the hypotheses of the theorems above: copy "ab", grow "x" and
"yz", finish, copy two bytes of "pq". -/
example : ∃ s outs v, Spec.run step (Heap.init, create)
      [.strcpy [97, 98, 0], .grow [120] 1, .grow [121, 122] 2, .finish, .strncpy [112, 113, 0] 2] = .ok (s, outs) ∧
    StrView.after {} [.strcpy [97, 98, 0], .grow [120] 1, .grow [121, 122] 2, .finish, .strncpy [112, 113, 0] 2] outs
      = some v ∧
    v.strings = [(5, [112, 113, 0]), (4, [120, 121, 122, 0]), (1, [97, 98, 0])] ∧ v.pending = [] ∧
    stats s.2 = (3, 10) :=
  ⟨_, _, _, rfl, rfl, rfl, rfl, rfl⟩

/-- C24, as far as it holds: when at least `len + 1` bytes are readable and byte `len` is NUL, the result
is the first `len` bytes followed by NUL, at a new address. -/
theorem C24_strncpy_partial (h0 : Mem) (ok0 : h0.Ok) (s : Mem × SInfo) (v : StrView) (r : Reaches h0 s v)
    (buf : List Byte) (len : Nat) (terminated : buf[len]? = some 0) :
    ∃ s' p, step s (.strncpy buf len) = .ok (s', p) ∧ s'.1.mem p = some (buf.take len ++ [0], 0) ∧ p ≠ 0 ∧
      p ∉ v.strings.map Prod.fst := by
  have hlen : len < buf.length := by
    by_contra hc
    rw [List.getElem?_eq_none (by omega)] at terminated; simp at terminated
  obtain ⟨s', p, v', h1, h2, h3, h4, -⟩ := C23_next_call h0 ok0 s v r (.strncpy buf len)
    (by simp only [StrView.see]; rw [if_pos (by omega)]; simp)
  simp only [StrView.see] at h2
  rw [if_pos (by omega)] at h2
  simp only [Option.some.injEq] at h2
  have hb : buf.take (len + 1) = buf.take len ++ [0] := by
    rw [List.take_add_one, terminated]; rfl
  rw [hb] at h2
  refine ⟨s', p, h1, ((h3.inv ok0).strs (p, buf.take len ++ [0]) (by rw [← h2]; simp)).1,
    (h4 (by simp)).1, (h4 (by simp)).2.1⟩

/-- C24 fails in general: what is stored ends with byte `len` of the argument, whatever it is.  For every
history and every argument whose byte `len` is not NUL the result is not terminated there. -/
theorem C24_not_terminated (h0 : Mem) (ok0 : h0.Ok) (s : Mem × SInfo) (v : StrView) (r : Reaches h0 s v)
    (buf : List Byte) (len : Nat) (b : Byte) (hb : buf[len]? = some b) (hne : b ≠ 0) :
    ∃ s' p, step s (.strncpy buf len) = .ok (s', p) ∧ s'.1.mem p = some (buf.take len ++ [b], 0) ∧
      s'.1.mem p ≠ some (buf.take len ++ [0], 0) := by
  have hlen : len < buf.length := by
    by_contra hc
    rw [List.getElem?_eq_none (by omega)] at hb; simp at hb
  obtain ⟨s', p, v', h1, h2, h3, h4, -⟩ := C23_next_call h0 ok0 s v r (.strncpy buf len)
    (by simp only [StrView.see]; rw [if_pos (by omega)]; simp)
  simp only [StrView.see] at h2
  rw [if_pos (by omega)] at h2
  simp only [Option.some.injEq] at h2
  have hb' : buf.take (len + 1) = buf.take len ++ [b] := by
    rw [List.take_add_one, hb]; rfl
  rw [hb'] at h2
  have hm := ((h3.inv ok0).strs (p, buf.take len ++ [b]) (by rw [← h2]; simp)).1
  refine ⟨s', p, h1, hm, ?_⟩
  rw [hm]
  simp [hne]

/-- C24 fails at the end of a buffer: when exactly `len` bytes are readable, one byte too many is read. -/
theorem C24_reads_too_far (s : Mem × SInfo) (buf : List Byte) : step s (.strncpy buf buf.length) = .ub := by
  simp [step, strncpy]

/-- When the copy is not terminated and ends its block, looking for the end of the string is undefined
behaviour: "ab" of "abc". -/
example : ∃ s p b, step (Heap.init, create) (.strncpy [97, 98, 99, 0] 2) = .ok (s, p) ∧ s.1.mem p = some (b, 0) ∧
    CStr.cstr b = .ub := ⟨_, _, _, rfl, rfl, rfl⟩

/-- Copying behind the end of a block is undefined, by one byte already. -/
example : pasted [1, 2, 3] 1 [8, 9] = .ok [1, 8, 9] ∧ pasted [1, 2, 3] 0 [8, 9] = .ok [8, 9, 3] ∧ pasted [1, 2, 3] 2 [8, 9] = .ub ∧
    pasted [1, 2, 3] 4 [] = .ub := by decide

end Maa.StrMem
