import Verif.Lemmas.Arg

/-! # Properties C30, C31, C32: argument lists, maa/arg.c -/

namespace Maa.Arg

open StrMem (Mem)
open Spec (StrView StrOp Style Splits)

/-- The view of the user of an argument list after a history: what was added so far.  The users do not see the
pointers, so any will do.  Undefined when a call was given an argument it may not be given. -/
def after : List StrOp → Option StrView :=
  fun hist => hist.foldl (fun (v : Option StrView) o => v.bind fun v => v.see o 0) (some {})

theorem see_bytes {v w v' : StrView} {r : Nat} {o : StrOp} (hb : v.strings.map Prod.snd = w.strings.map Prod.snd)
    (hp : v.pending = w.pending) (h : v.see o r = some v') :
    ∃ w', w.see o 0 = some w' ∧ v'.strings.map Prod.snd = w'.strings.map Prod.snd ∧ v'.pending = w'.pending := by
  cases o with
  | strcpy s =>
    simp only [StrView.see] at h ⊢
    cases hu : Spec.upToNul s with
    | none => rw [hu] at h; simp at h
    | some t =>
      rw [hu] at h
      simp only [Option.map_some, Option.some.injEq] at h ⊢
      exact ⟨_, rfl, by rw [← h]; simp [hb], by rw [← h]⟩
  | strncpy s n =>
    simp only [StrView.see] at h ⊢
    split at h
    · simp only [Option.some.injEq] at h
      rw [if_pos (by assumption)]
      exact ⟨_, rfl, by rw [← h]; simp [hb], by rw [← h]⟩
    · simp at h
  | grow s n =>
    simp only [StrView.see] at h ⊢
    split at h
    · simp only [Option.some.injEq] at h
      rw [if_pos (by assumption)]
      exact ⟨_, rfl, by rw [← h]; simp [hb], by rw [← h, hp]⟩
    · simp at h
  | finish =>
    simp only [StrView.see, Option.some.injEq] at h ⊢
    exact ⟨_, rfl, by rw [← h]; simp [hb, hp], by rw [← h]⟩

/-- The list `a` in memory `h` consists of exactly these blocks of bytes, in this order: `arg_count` is their
number, `arg_get` finds each, and the vector continues with NULL inside what is allocated for it. -/
structure Contains (h : Mem) (a : ArgList) (items : List (List Byte)) : Prop where
  number : count a = items.length
  item : ∀ (k : Nat) (b : List Byte), items[k]? = some b → ∃ p, get a k = .ok p ∧ h.mem p = some (b, 0) ∧ p ≠ 0
  vector : (getVector a).1 = items.length ∧ (getVector a).2[items.length]? = some (some 0) ∧
    (getVector a).2.length = a.argm ∧ items.length < a.argm
  outside : ∀ k : Int, k < 0 ∨ k ≥ items.length → get a k = .abort

theorem AInv.contains {h0 : Mem} {s : Mem × ArgList} {v : StrView} (i : AInv h0 s v) :
    Contains s.1 s.2 (v.strings.reverse.map Prod.snd) := by
  refine ⟨by simpa [count] using i.argc, ?_, ?_, ?_⟩
  · intro k b hk
    rw [List.getElem?_map] at hk
    cases hx : v.strings.reverse[k]? with
    | none => rw [hx] at hk; simp at hk
    | some x =>
      rw [hx] at hk
      simp only [Option.map_some, Option.some.injEq] at hk
      obtain ⟨h1, h2⟩ := i.get k x hx
      subst hk
      refine ⟨x.1, h1, h2, ?_⟩
      intro h0
      rw [h0, i.str.ok.null] at h2
      simp at h2
  · obtain ⟨junk, hj⟩ := i.vec
    have := i.room
    have h1 := i.argc
    refine ⟨by simpa [getVector] using h1, ?_, i.argm, by simp; omega⟩
    simp only [getVector, hj]
    rw [List.getElem?_append_right (by simp)]
    simp
  · intro k hk
    unfold Arg.get
    rw [if_pos (by
      rw [i.argc]
      simp only [List.length_map, List.length_reverse] at hk
      omega)]

theorem run_inv {h0 : Mem} (hist : List StrOp) : ∀ {s : Mem × ArgList} {v w w' : StrView}, AInv h0 s v →
    v.strings.map Prod.snd = w.strings.map Prod.snd → v.pending = w.pending →
    hist.foldl (fun (v : Option StrView) o => v.bind fun v => v.see o 0) (some w) = some w' →
    ∃ s' outs v', Spec.run step s hist = .ok (s', outs) ∧ AInv h0 s' v' ∧
      v'.strings.map Prod.snd = w'.strings.map Prod.snd := by
  induction hist with
  | nil =>
    intro s v w w' i hb hp hf
    simp only [List.foldl_nil, Option.some.injEq] at hf
    exact ⟨s, [], v, rfl, i, by rw [← hf]; exact hb⟩
  | cons o os ih =>
    intro s v w w' i hb hp hf
    simp only [List.foldl_cons, Option.bind_some] at hf
    have hne : v.see o 0 ≠ none := by
      cases hw : w.see o 0 with
      | none =>
        rw [hw] at hf
        have : ∀ l : List StrOp, l.foldl (fun (v : Option StrView) o => v.bind fun v => v.see o 0) none = none := by
          intro l; induction l with
          | nil => rfl
          | cons o l ih => simpa using ih
        rw [this] at hf; simp at hf
      | some w1 =>
        obtain ⟨v1, hv1, -⟩ := see_bytes (v := w) (w := v) hb.symm hp.symm hw
        rw [hv1]; simp
    obtain ⟨s1, r, v1, h1, h2, h3⟩ := step_inv i o hne
    obtain ⟨w1, k1, k2, k3⟩ := see_bytes hb hp h2
    rw [k1] at hf
    obtain ⟨s', outs, v', e1, e2, e3⟩ := ih h3 k2 k3 hf
    exact ⟨s', () :: outs, v', by simp [Spec.run, h1, Res.bind, e1], e2, e3⟩

/-- C30: after any permitted history every call has returned, and the list contains exactly what was added, in
order; all the vector's cells used are inside its allocation.  (What `arg_addn` adds are the `len + 1` bytes
`mem_strncpy` copies, see C24.) -/
theorem C30_vector (h0 : Mem) (ok0 : h0.Ok) (hist : List StrOp) (w : StrView) (hw : after hist = some w) :
    ∃ s outs, Spec.run step (h0, create) hist = .ok (s, outs) ∧ Contains s.1 s.2 (w.strings.reverse.map Prod.snd) := by
  obtain ⟨s', outs, v', h1, h2, h3⟩ := run_inv hist (create_inv h0 ok0) rfl rfl hw
  refine ⟨s', outs, h1, ?_⟩
  have := h2.contains
  rw [List.map_reverse, h3, ← List.map_reverse] at this
  exact this

theorem AInv.destroy {h0 : Mem} {s : Mem × ArgList} {v : StrView} (h2 : AInv h0 s v) :
    ∃ m, Arg.destroy s.1 s.2 = .ok m ∧ m.mem = h0.mem := by
  have i := h2.str
  obtain ⟨m, e1, e2, e3⟩ := Objects.destroyLoop_ok s.2.str.allocated i.anodup i.live
  refine ⟨m, e1, ?_⟩
  funext a
  rw [e3 a]
  split
  · rename_i ha
    exact (i.above a ha).symm
  · rename_i ha
    cases hm : h0.mem a with
    | some c => rw [← hm]; exact i.old a (by rw [hm]; rfl)
    | none =>
      by_contra hn
      exact ha (i.new a hm (Option.isSome_iff_ne_none.2 hn))

/-- C30, `arg_destroy`: the strings are given back. -/
theorem C30_destroy (h0 : Mem) (ok0 : h0.Ok) (hist : List StrOp) (w : StrView) (hw : after hist = some w) :
    ∃ s outs m, Spec.run step (h0, create) hist = .ok (s, outs) ∧ destroy s.1 s.2 = .ok m ∧ m.mem = h0.mem := by
  obtain ⟨s', outs, v', h1, h2, h3⟩ := run_inv hist (create_inv h0 ok0) rfl rfl hw
  obtain ⟨m, e1, e2⟩ := h2.destroy
  exact ⟨s', outs, m, h1, e1, e2⟩

/-- Five items, past the first two reallocations. -/
example : ∃ s outs w, Spec.run step (Heap.init, create)
      [.strcpy [97, 0], .grow [98] 1, .grow [99, 100] 2, .finish, .strncpy [101, 0] 1, .strcpy [0], .strcpy [102, 0]] =
        .ok (s, outs) ∧
    after [.strcpy [97, 0], .grow [98] 1, .grow [99, 100] 2, .finish, .strncpy [101, 0] 1, .strcpy [0], .strcpy [102, 0]]
      = some w ∧
    w.strings.reverse.map Prod.snd = [[97, 0], [98, 99, 100, 0], [101, 0], [0], [102, 0]] ∧ s.2.argm = 8 :=
  ⟨_, _, _, rfl, rfl, rfl, rfl⟩

/-- C31, totality of the rules: every NUL-free text is split by them into some items. -/
theorem C31_rules_total (st : Style) (text : List Byte) (h : (0 : Byte) ∉ text) : ∃ items, Splits st text items := by
  obtain ⟨items, hi⟩ := splits_total st (text.length + 1) text [] (by omega) h (by simp)
  exact ⟨items, by simpa [Spec.srcs] using hi⟩

/-- C31: for every string and every style `arg_argify` returns, and what it returns contains exactly the items the
rules give (which are unique, as the result is). -/
theorem C31_argify (h0 : Mem) (ok0 : h0.Ok) (text rest : List Byte) (h : (0 : Byte) ∉ text) (quoteStyle : Nat) :
    ∃ s items, argify h0 (text ++ 0 :: rest) quoteStyle = .ok s ∧
      Splits { escape := !quoteStyle.testBit 0, quote := !quoteStyle.testBit 1 } text items ∧
      Contains s.1 s.2 (items.map (· ++ [0])) ∧
      (∀ items', Splits { escape := !quoteStyle.testBit 0, quote := !quoteStyle.testBit 1 } text items' → items' = items) := by
  obtain ⟨items, hi⟩ := C31_rules_total (styleOf quoteStyle) text h
  obtain ⟨σ, v, h1, h2, h3⟩ := argify_ok h0 ok0 quoteStyle text rest h
  have hs := scan_splits quoteStyle hi (Or.inl rfl)
  refine ⟨σ, items, h1, hi, ?_, fun items' hi' => ?_⟩
  · have := h2.contains
    rw [h3, hs] at this
    exact this
  · rw [← hs]
    exact (scan_splits quoteStyle hi' (Or.inl rfl)).symm

/-- A string that is not terminated is read past its end (this is what the form of the argument excludes). -/
example : argify Heap.init [97] 0 = .ub := rfl

/-- `a"b c"'d' \  "x`: adjacent parts join, an escaped blank is an argument, an unclosed quote keeps its text. -/
example : ∃ s items, argify Heap.init [97, 34, 98, 32, 99, 34, 39, 100, 39, 32, 92, 32, 32, 34, 120, 0] 0 = .ok s ∧
    items = [[97, 98, 32, 99, 100], [32], [120]] ∧ Contains s.1 s.2 (items.map (· ++ [0])) := by
  obtain ⟨s, items, h1, h2, h3, h4⟩ := C31_argify Heap.init Heap.Ok.init0
    [97, 34, 98, 32, 99, 34, 39, 100, 39, 32, 92, 32, 32, 34, 120] [] (by decide) 0
  refine ⟨s, items, h1, ?_, h3⟩
  rw [← scan_splits 0 h2 (Or.inl rfl)]
  rfl

theorem quoteLine_noNul (args : List (List Byte)) (h : ∀ w ∈ args, (0 : Byte) ∉ w) : (0 : Byte) ∉ Spec.quoteLine args := by
  have one : ∀ w : List Byte, (0 : Byte) ∉ w → (0 : Byte) ∉ Spec.quoteArg w := by
    intro w hw
    unfold Spec.quoteArg
    split
    · decide
    · simp only [List.mem_flatMap, not_exists, not_and]
      intro c hc h'
      simp only [List.mem_cons, List.not_mem_nil, or_false] at h'
      rcases h' with h' | h'
      · exact absurd h' (by decide)
      · exact hw (h' ▸ hc)
  induction args with
  | nil => simp [Spec.quoteLine]
  | cons w ws ih =>
    have ih' := ih (fun x hx => h x (by simp [hx]))
    cases ws with
    | nil => exact one w (h w (by simp))
    | cons w' ws' =>
      simp only [Spec.quoteLine, List.mem_append, List.mem_cons, not_or] at ih' ⊢
      exact ⟨one w (h w (by simp)), by decide, ih'⟩

/-- C32: any vector of NUL-free arguments survives quoting and `arg_argify`. -/
theorem C32_round_trip (h0 : Mem) (ok0 : h0.Ok) (args : List (List Byte)) (h : ∀ w ∈ args, (0 : Byte) ∉ w)
    (rest : List Byte) :
    ∃ s, argify h0 (Spec.quoteLine args ++ 0 :: rest) 0 = .ok s ∧ Contains s.1 s.2 (args.map (· ++ [0])) := by
  have hs := splits_quoteLine args h
  have h0q := quoteLine_noNul args h
  obtain ⟨s, items, e1, e2, e3, e4⟩ := C31_argify h0 ok0 _ rest h0q 0
  refine ⟨s, e1, ?_⟩
  rw [e4 args hs]
  exact e3

/-- Three arguments, one empty, one with blanks and quotes: `\a ""  \ \"`. -/
example : Spec.quoteLine [[97], [], [32, 34]] = [92, 97, 32, 34, 34, 32, 92, 32, 92, 34] ∧
    (∀ w ∈ [[97], [], [32, 34]], (0 : Byte) ∉ w) := by decide

end Maa.Arg
