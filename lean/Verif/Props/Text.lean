import Verif.Model.Text
import Verif.Spec.Soundex
import Verif.Lemmas.CStr

/-! # Properties C36, C37: Soundex, maa/text.c -/

namespace Maa.Text

open Spec (isLetter capital soundexCode capitals soundexDigits)

theorem letter_fin : ∀ i : Fin 256, isalpha (UInt8.ofNat i) = isLetter (UInt8.ofNat i) ∧ (isLetter (UInt8.ofNat i) = true →
    UInt8.ofNat (toupper (UInt8.ofNat i)) = capital (UInt8.ofNat i) ∧
    lookup (toupper (UInt8.ofNat i)) = .ok (soundexCode (capital (UInt8.ofNat i))) ∧
    65 ≤ (capital (UInt8.ofNat i)).toNat ∧ (capital (UInt8.ofNat i)).toNat ≤ 90) := by decide +kernel

theorem letter (c : Byte) : isalpha c = isLetter c ∧ (isLetter c = true →
    UInt8.ofNat (toupper c) = capital c ∧ lookup (toupper c) = .ok (soundexCode (capital c)) ∧
    65 ≤ (capital c).toNat ∧ (capital c).toNat ≤ 90) := by
  have := letter_fin ⟨c.toNat, c.toNat_lt⟩
  rwa [UInt8.ofNat_toNat] at this

theorem code_range (c : Byte) : 48 ≤ (soundexCode c).toNat ∧ (soundexCode c).toNat ≤ 54 := by
  unfold soundexCode
  repeat' split
  all_goals decide

theorem store_append (done rest : List Byte) (x c : Byte) : store (done ++ x :: rest) done.length c = .ok (done ++ c :: rest) := by
  unfold store
  rw [if_pos (by simp)]
  simp

theorem loop_stop {c : Byte} {i : Nat} (h : c = 0 ∨ 4 ≤ i) (cs : List Byte) (pt : Nat) (p : Byte) (r : List Byte) :
    loop (c :: cs) i pt p r = .ok r := by
  have : ¬ (c ≠ 0 ∧ i < 4) := by rintro ⟨h1, h2⟩; rcases h with h | h; exact h1 h; omega
  rw [loop.eq_def]
  simp only [this, if_false]

theorem loop_skip {c : Byte} {i : Nat} (h0 : c ≠ 0) (h4 : i < 4) (hl : ¬ isLetter c = true) (cs : List Byte) (pt : Nat) (p : Byte) (r : List Byte) :
    loop (c :: cs) i pt p r = loop cs i pt p r := by
  have h1 : c ≠ 0 ∧ i < 4 := ⟨h0, h4⟩
  rw [← (letter c).1] at hl
  rw [loop.eq_def]
  simp only
  rw [if_pos h1, if_neg hl]

theorem loop_letter {c : Byte} {i : Nat} (h0 : c ≠ 0) (h4 : i < 4) (hl : isLetter c = true) (cs : List Byte) (pt : Nat) (p : Byte) (r : List Byte) :
    loop (c :: cs) i pt p r =
      if i = 0 then (store r pt (capital c)).bind fun r => loop cs (i + 1) (pt + 1) (soundexCode (capital c)) r
      else if soundexCode (capital c) ≠ 48 ∧ soundexCode (capital c) ≠ p then
        (store r pt (soundexCode (capital c))).bind fun r => loop cs (i + 1) (pt + 1) (soundexCode (capital c)) r
      else loop cs i pt (soundexCode (capital c)) r := by
  have h1 : c ≠ 0 ∧ i < 4 := ⟨h0, h4⟩
  obtain ⟨e1, e2, _, _⟩ := (letter c).2 hl
  rw [← (letter c).1] at hl
  rw [loop.eq_def]
  simp only
  rw [if_pos h1, if_pos hl, e2, e1]
  rfl

/-- the digits of letters that follow the letter `p` -/
theorem digits_cons (p c : Byte) (cs : List Byte) : soundexDigits (p :: c :: cs) =
    (if soundexCode c = 48 ∨ soundexCode c = soundexCode p then [] else [soundexCode c]) ++ soundexDigits (c :: cs) := by
  unfold soundexDigits
  simp only [List.tail_cons, List.zip_cons_cons, List.filterMap_cons]
  split
  · rename_i h
    split at h
    · rw [if_pos (by assumption)]; rfl
    · simp at h
  · rename_i h
    split at h
    · simp at h
    · rw [if_neg (by assumption)]
      simp only [Option.some.injEq] at h
      rw [← h]; rfl

/-- after the first letter -/
theorem loop_tail (s rest : List Byte) (hs : (0 : Byte) ∉ s) : ∀ (done pad mem : List Byte) (p : Byte),
    1 ≤ done.length → done.length + pad.length = 4 → (∀ x ∈ pad, x = 48) →
    loop (s ++ 0 :: rest) done.length done.length (soundexCode p) (done ++ pad ++ mem) =
      .ok ((done ++ soundexDigits (p :: capitals s) ++ [48, 48, 48]).take 4 ++ mem) := by
  induction s with
  | nil =>
    intro done pad mem p h1 h2 h3
    rw [List.nil_append, loop_stop (Or.inl rfl)]
    simp only [capitals, List.filter_nil, List.map_nil, soundexDigits, List.tail_cons, List.zip_nil_right,
      List.filterMap_nil, List.append_nil]
    have : pad = List.replicate (4 - done.length) 48 := by
      rw [List.eq_replicate_iff]
      exact ⟨by omega, h3⟩
    rw [List.take_append, List.take_of_length_le (by omega)]
    have h4 : [48, 48, 48] = List.replicate 3 (48 : Byte) := rfl
    rw [h4, List.take_replicate, this]
    have : min (4 - done.length) 3 = 4 - done.length := by omega
    rw [this]
  | cons c s ih =>
    intro done pad mem p h1 h2 h3
    simp only [List.mem_cons, not_or] at hs
    rw [List.cons_append]
    by_cases h4 : done.length < 4
    · by_cases hl : isLetter c = true
      · rw [loop_letter (Ne.symm hs.1) h4 hl]
        have hc : capitals (c :: s) = capital c :: capitals s := by simp [capitals, hl]
        rw [if_neg (by omega), hc, digits_cons]
        by_cases hk : soundexCode (capital c) = 48 ∨ soundexCode (capital c) = soundexCode p
        · rw [if_neg (by tauto), if_pos hk, ih hs.2 done pad mem (capital c) h1 h2 h3]
          rfl
        · rw [if_pos (by tauto), if_neg hk]
          cases pad with
          | nil => simp at h2; omega
          | cons x pad =>
            rw [List.append_assoc, List.cons_append, store_append]
            simp only [Res.bind]
            have := ih hs.2 (done ++ [soundexCode (capital c)]) pad mem (capital c) (by simp) (by simp at h2 ⊢; omega)
              (fun y hy => h3 y (by simp [hy]))
            simpa using this
      · have hc : capitals (c :: s) = capitals s := by simp [capitals, hl]
        rw [loop_skip (Ne.symm hs.1) h4 hl, hc]
        exact ih hs.2 done pad mem p h1 h2 h3
    · rw [loop_stop (Or.inr (by omega))]
      have : pad = [] := by
        cases pad with
        | nil => rfl
        | cons x pad => simp at h2; omega
      subst this
      simp only [List.append_nil]
      have : done.length = 4 := by omega
      rw [List.append_assoc, List.take_append_of_le_length (by omega), List.take_of_length_le (by omega)]

/-- before the first letter -/
theorem loop_head (s rest : List Byte) (hs : (0 : Byte) ∉ s) (mem : List Byte) :
    loop (s ++ 0 :: rest) 0 0 0 ([90, 48, 48, 48] ++ mem) = .ok (Spec.soundex s ++ mem) := by
  induction s with
  | nil => rw [List.nil_append, loop_stop (Or.inl rfl)]; rfl
  | cons c s ih =>
    simp only [List.mem_cons, not_or] at hs
    rw [List.cons_append]
    by_cases hl : isLetter c = true
    · rw [loop_letter (Ne.symm hs.1) (by decide) hl, if_pos rfl]
      have hc : capitals (c :: s) = capital c :: capitals s := by simp [capitals, hl]
      have := loop_tail s rest hs.2 [capital c] [48, 48, 48] mem (capital c) (by simp) (by simp) (by simp)
      rw [Spec.soundex, hc]
      simpa [store, Res.bind] using this
    · have hc : capitals (c :: s) = capitals s := by simp [capitals, hl]
      rw [loop_skip (Ne.symm hs.1) (by decide) hl]
      have := ih hs.2
      rw [Spec.soundex, hc]
      exact this

theorem spec_length (s : List Byte) : (Spec.soundex s).length = 4 := by
  unfold Spec.soundex
  split
  · rfl
  · simp

/-- **C37** For every string `s` in memory and whatever the result buffer of at least five bytes contained,
`txt_soundex2` stores the Soundex code of `s` and a NUL, and changes nothing behind these five bytes. -/
theorem C37_soundex_correct (s rest result : List Byte) (hs : (0 : Byte) ∉ s) (hr : 5 ≤ result.length) :
    soundex2 (s ++ 0 :: rest) result = .ok (Spec.soundex s ++ [0] ++ result.drop 5) := by
  unfold soundex2
  rw [if_neg (by omega)]
  have := loop_head s rest hs ([0] ++ result.drop 5)
  simpa using this

-- "Euler", "Gauss", "Lloyd", "Lukasiewicz"
example : Spec.soundex [69, 117, 108, 101, 114] = [69, 52, 54, 48] := by decide +kernel
example : Spec.soundex [71, 97, 117, 115, 115] = [71, 50, 48, 48] := by decide +kernel
example : Spec.soundex [76, 108, 111, 121, 100] = [76, 51, 48, 48] := by decide +kernel
example : Spec.soundex [76, 117, 107, 97, 115, 105, 101, 119, 105, 99, 122] = [76, 50, 50, 50] := by decide +kernel
-- " O'Hara 1"
example : soundex2 ([32, 79, 39, 72, 97, 114, 97, 32, 49] ++ 0 :: []) [1, 2, 3, 4, 5, 6] = .ok ([79, 54, 48, 48] ++ [0] ++ [6]) :=
  C37_soundex_correct _ [] _ (by decide) (by decide)

/-- **C36** For every string, the five bytes stored are a capital letter, three digits from `0` to `6` and a NUL, `Z000`
if there is no letter; nothing is read behind the NUL of the string nor written behind the fifth byte. -/
theorem C36_format (s rest result : List Byte) (hs : (0 : Byte) ∉ s) (hr : 5 ≤ result.length) :
    ∃ l d₁ d₂ d₃ : Byte, soundex2 (s ++ 0 :: rest) result = .ok ([l, d₁, d₂, d₃, 0] ++ result.drop 5) ∧
      (65 ≤ l.toNat ∧ l.toNat ≤ 90) ∧ (∀ d ∈ [d₁, d₂, d₃], 48 ≤ d.toNat ∧ d.toNat ≤ 54) ∧
      ((∀ c ∈ s, isLetter c = false) → [l, d₁, d₂, d₃] = [90, 48, 48, 48]) := by
  rw [C37_soundex_correct s rest result hs hr]
  have hl := spec_length s
  have key : ∀ c ∈ (Spec.soundex s).tail, 48 ≤ c.toNat ∧ c.toNat ≤ 54 := by
    unfold Spec.soundex
    split
    · decide
    · rename_i f os _
      intro c hc
      simp only [List.cons_append, List.take_succ_cons, List.tail_cons] at hc
      have := List.mem_of_mem_take hc
      simp only [List.mem_append, List.mem_cons, List.not_mem_nil, or_false] at this
      rcases this with h | h
      · unfold soundexDigits at h
        rw [List.mem_filterMap] at h
        obtain ⟨q, _, h⟩ := h
        split at h
        · simp at h
        · simp only [Option.some.injEq] at h
          rw [← h]; exact code_range _
      · rcases h with h | h | h <;> rw [h] <;> decide
  have key1 : ∀ c, (Spec.soundex s).head? = some c → 65 ≤ c.toNat ∧ c.toNat ≤ 90 := by
    unfold Spec.soundex
    split
    · simp only [List.head?_cons, Option.some.injEq]; rintro c rfl; decide
    · rename_i f os hf
      intro c hc
      simp only [List.cons_append, List.take_succ_cons, List.head?_cons, Option.some.injEq] at hc
      have hm : f ∈ capitals s := by rw [hf]; simp
      unfold capitals at hm
      rw [List.mem_map] at hm
      obtain ⟨a, ha, rfl⟩ := hm
      obtain ⟨_, ha⟩ := List.mem_filter.1 ha
      obtain ⟨_, _, h1, h2⟩ := (letter a).2 ha
      rw [← hc]; exact ⟨h1, h2⟩
  have key2 : (∀ c ∈ s, isLetter c = false) → Spec.soundex s = [90, 48, 48, 48] := by
    intro h
    have : capitals s = [] := by
      unfold capitals
      rw [List.filter_eq_nil_iff.2 (by intro c hc; simp [h c hc])]; rfl
    unfold Spec.soundex
    rw [this]
  match Spec.soundex s, hl, key, key1, key2 with
  | [l, d₁, d₂, d₃], _, key, key1, key2 =>
    exact ⟨l, d₁, d₂, d₃, by simp, key1 l rfl, by simpa using key, key2⟩

example : soundex2 ([49, 45, 200] ++ 0 :: [7]) [1, 1, 1, 1, 1] = .ok ([90, 48, 48, 48, 0] ++ []) := by decide +kernel

/-- **C37** The code depends on the letters only, not on their case nor on anything between them. -/
theorem C37_case_and_nonletters (s t rest rest' result : List Byte) (hs : (0 : Byte) ∉ s) (ht : (0 : Byte) ∉ t) (hr : 5 ≤ result.length)
    (h : (s.filter isLetter).map capital = (t.filter isLetter).map capital) :
    soundex2 (s ++ 0 :: rest) result = soundex2 (t ++ 0 :: rest') result := by
  rw [C37_soundex_correct _ _ _ hs hr, C37_soundex_correct _ _ _ ht hr]
  have : capitals s = capitals t := h
  unfold Spec.soundex
  rw [this]

-- "M-c" and "mC"
example : ([77, 45, 99].filter isLetter).map capital = ([109, 67].filter isLetter).map capital := by decide +kernel

/-- **C36** A result buffer of fewer than five bytes is overrun (the buffer of `txt_soundex` has five). -/
theorem C36_five_bytes_needed (s result : List Byte) (hr : result.length < 5) : soundex2 s result = .ub := by
  unfold soundex2
  rw [if_pos hr]

example : soundex2 [65, 0] [1, 2, 3, 4] = .ub := C36_five_bytes_needed _ _ (by decide)

/-- **C36** `txt_soundex`: the static buffer of five bytes gets the same, whatever earlier calls left in it. -/
theorem C36_static_buffer (s rest buf : List Byte) (hs : (0 : Byte) ∉ s) (hb : buf.length = 5) :
    soundex (s ++ 0 :: rest) buf = .ok (Spec.soundex s ++ [0]) := by
  unfold soundex
  rw [C37_soundex_correct s rest buf hs (by omega), List.drop_of_length_le (by omega), List.append_nil]

example : soundex [65, 98, 0] [0, 0, 0, 0, 0] = .ok [65, 49, 48, 48, 0] := by decide +kernel

end Maa.Text
