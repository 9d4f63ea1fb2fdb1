import Verif.Lemmas.BaseN

/-! # Properties C33, C34, C35: base64.c and base26.c -/

namespace Maa.BaseN

open Spec (alphabet64 alphabet26 value Writes)
open CStr (cstr ofStr)

theorem noNul_of {al : List Byte} (h0 : (0 : Byte) ∉ al) {s : List Byte} (h : ∀ c ∈ s, c ∈ al) : (0 : Byte) ∉ s :=
  fun h' => h0 (h 0 h')

theorem b64Decode_eq {s rest : List Byte} (h : (0 : Byte) ∉ s) : b64Decode (s ++ 0 :: rest) = b64Loop s.reverse 0 0 := by
  unfold b64Decode b64DecodeBuf
  rw [CStr.cstr_append s h]
  simp only [Res.bind]
  rw [if_neg (by simp)]
  simp

theorem b64DecodeWrap_eq {s rest : List Byte} (h : (0 : Byte) ∉ s) : b64DecodeWrap (s ++ 0 :: rest) = b64LoopWrap s.reverse 0 0 := by
  unfold b64DecodeWrap
  rw [CStr.cstr_append s h]
  rfl

theorem b26Decode_eq {s rest : List Byte} (h : (0 : Byte) ∉ s) : b26Decode (s ++ 0 :: rest) = b26Loop' s.reverse 0 1 := by
  unfold b26Decode
  rw [CStr.cstr_append s h]
  rfl

theorem b26DecodeWrap_eq {s rest : List Byte} (h : (0 : Byte) ∉ s) : b26DecodeWrap (s ++ 0 :: rest) = b26LoopWrap s.reverse 0 1 := by
  unfold b26DecodeWrap
  rw [CStr.cstr_append s h]
  rfl

/-- **C33** `b64_encode` writes the low 32 bits of its argument with 1 to 6 digits of the base64 alphabet and without
redundant leading `A`. -/
theorem C33_encode (v : Nat) : Writes alphabet64 6 (v % 2 ^ 32) (b64Encode v) := b64Encode_ok v

-- "m8E" for 159492 (the digits are 38, 60, 4)
example : b64Encode 159492 = [109, 56, 69] := by decide +kernel
example : b64Encode 0 = [65] := by decide +kernel

/-- **C33** `b64_decode` of any string of at most six digits worth less than 2³¹ (with or without redundant leading
`A`s) returns what it is worth. -/
theorem C33_decode (s rest : List Byte) (hs : ∀ c ∈ s, c ∈ alphabet64) (hl : s.length ≤ 6)
    (hv : value alphabet64 s < 2 ^ 31) : b64Decode (s ++ 0 :: rest) = .ok (value alphabet64 s) := by
  rw [b64Decode_eq (noNul_of noNul64 hs)]
  rw [value_eq] at hv ⊢
  rw [b64Loop_ok s.reverse 0 0 (by simpa using hs) (by decide) (by simp; omega) (by simpa using hv)]
  simp

/-- **C33** `b64_decode_buf` reads exactly `len` characters: the buffer needs no terminator and what follows does not matter. -/
theorem C33_decode_buf (s rest : List Byte) (hs : ∀ c ∈ s, c ∈ alphabet64) (hl : s.length ≤ 6)
    (hv : value alphabet64 s < 2 ^ 31) : b64DecodeBuf (s ++ rest) s.length = .ok (value alphabet64 s) := by
  have := C33_decode s [] hs hl hv
  rw [b64Decode_eq (noNul_of noNul64 hs)] at this
  unfold b64DecodeBuf
  rw [if_neg (by simp), List.take_left']
  · exact this
  · rfl

-- "m8E" without a terminator
example : b64DecodeBuf [109, 56, 69] 3 = .ok 159492 := by decide +kernel

/-- **C33**, for the values below 2³¹: `b64_decode (b64_encode v) = v`. -/
theorem C33_roundtrip_partial (v : Nat) (h : v < 2 ^ 31) (rest : List Byte) : b64Decode (b64Encode v ++ 0 :: rest) = .ok v := by
  have w := b64Encode_ok v
  have e : v % 2 ^ 32 = v := Nat.mod_eq_of_lt (by omega)
  rw [e] at w
  rw [C33_decode _ rest w.digits w.length.2 (by rw [w.worth]; exact h), w.worth]

example : b64Decode (b64Encode 2147483647 ++ [0]) = .ok 2147483647 := C33_roundtrip_partial _ (by decide) []

/-- digits of the alphabet of which 64⁵ or more is made: exactly six of them -/
theorem six {v : Nat} {s : List Byte} (w : Writes alphabet64 6 v s) (h : 64 ^ 5 ≤ v) :
    ∃ d t, s = d :: t ∧ t.length = 5 ∧ v = alphabet64.idxOf d * 64 ^ 5 + value alphabet64 t ∧ value alphabet64 t < 64 ^ 5 := by
  have hlt := valueR_lt s.reverse (by simpa using w.digits)
  rw [← value_eq, w.worth, len64, List.length_reverse] at hlt
  have hl : s.length = 6 := by
    have := w.length.2
    by_contra hc
    have : 64 ^ s.length ≤ 64 ^ 5 := Nat.pow_le_pow_right (by decide) (by omega)
    omega
  cases s with
  | nil => simp at hl
  | cons d t =>
    have ht : t.length = 5 := by simpa using hl
    have hlt' := valueR_lt t.reverse (by have := w.digits; simp only [List.mem_cons, forall_eq_or_imp] at this; simpa using this.2)
    rw [← value_eq, len64, List.length_reverse, ht] at hlt'
    refine ⟨d, t, rfl, ht, ?_, hlt'⟩
    rw [← w.worth, value_eq, List.reverse_cons, valueR_append, ← value_eq, len64, List.length_reverse, ht]
    simp [valueR]
    omega

theorem b64Last_ub {d : Byte} (hd : d ∈ alphabet64) (h : 2 ≤ alphabet64.idxOf d) (v o : Nat) (ho : o = 30) :
    b64Loop [d] v o = .ub := by
  obtain ⟨h1, h2⟩ := entry64 hd
  subst ho
  simp only [b64Loop, h1]
  generalize alphabet64.idxOf d = i at *
  rw [if_neg (by omega)]
  unfold shiftInt
  rw [if_pos (Or.inr (by omega))]
  rfl

theorem b64LastWrap {d : Byte} (hd : d ∈ alphabet64) (h : alphabet64.idxOf d = 2 ∨ alphabet64.idxOf d = 3) (v o : Nat) (hv : v < 2 ^ 30)
    (ho : o = 30) : b64LoopWrap [d] v o = .ok (v + (2 ^ 34 - 4 + alphabet64.idxOf d) * 2 ^ 30) := by
  obtain ⟨h1, h2⟩ := entry64 hd
  subst ho
  simp only [b64LoopWrap, h1]
  generalize alphabet64.idxOf d = i at *
  rw [if_neg (by omega), if_neg (by omega)]
  have e : toULong (wrap32 ((i : Int) * 2 ^ 30)) = (2 ^ 34 - 4 + i) * 2 ^ 30 := by
    rcases h with rfl | rfl <;> decide +kernel
  rw [e, or_add hv]

/-- **C33 refuted in C** for every value from 2³¹ to 2³² − 1: `b64_decode` shifts an `int` into its sign bit. -/
theorem C33_high_bit_undefined (v : Nat) (h : 2 ^ 31 ≤ v) (h' : v < 2 ^ 32) (rest : List Byte) :
    b64Decode (b64Encode v ++ 0 :: rest) = .ub := by
  have w := b64Encode_ok v
  rw [Nat.mod_eq_of_lt h'] at w
  obtain ⟨d, t, hs, ht, hv, hlt⟩ := six w (by omega)
  have hd := w.digits
  rw [hs] at hd
  simp only [List.mem_cons, forall_eq_or_imp] at hd
  rw [b64Decode_eq (noNul_of noNul64 w.digits), hs, List.reverse_cons, b64Loop_append]
  rw [b64Loop_ok t.reverse 0 0 (by simpa using hd.2) (by decide) (by simp; omega) (by rw [← value_eq]; omega)]
  simp only [Res.bind, List.length_reverse, ht]
  exact b64Last_ub hd.1 (by omega) _ _ rfl

example : b64Decode (b64Encode 4294967295 ++ [0]) = .ub := C33_high_bit_undefined _ (by decide) (by decide) []

/-- **C33 refuted in practice** for the same values: where the compiler lets `int` wrap around, the sign bit is extended
and the value returned is `v + 2⁶⁴ − 2³²` instead of `v`. -/
theorem C33_high_bit_wrong (v : Nat) (h : 2 ^ 31 ≤ v) (h' : v < 2 ^ 32) (rest : List Byte) :
    b64DecodeWrap (b64Encode v ++ 0 :: rest) = .ok (v + 2 ^ 64 - 2 ^ 32) := by
  have w := b64Encode_ok v
  rw [Nat.mod_eq_of_lt h'] at w
  obtain ⟨d, t, hs, ht, hv, hlt⟩ := six w (by omega)
  have hd := w.digits
  rw [hs] at hd
  simp only [List.mem_cons, forall_eq_or_imp] at hd
  rw [b64DecodeWrap_eq (noNul_of noNul64 w.digits), hs, List.reverse_cons, b64LoopWrap_append]
  rw [b64LoopWrap_of _ _ _ _ (b64Loop_ok t.reverse 0 0 (by simpa using hd.2) (by decide) (by simp; omega) (by rw [← value_eq]; omega))]
  simp only [Res.bind, List.length_reverse, ht]
  rw [← value_eq, b64LastWrap hd.1 (by omega) _ _ (by omega) rfl]
  refine congrArg Res.ok ?_
  omega

example : b64DecodeWrap (b64Encode 2147483648 ++ [0]) = .ok 18446744071562067968 :=
  C33_high_bit_wrong _ (by decide) (by decide) []

/-- **C33** A character outside the alphabet aborts, as soon as everything after it is well-formed (the string is
decoded from its end): whatever precedes it. -/
theorem C33_illegal (pre post rest : List Byte) (bad : Byte) (hpre : (0 : Byte) ∉ pre) (hbad : bad ∉ alphabet64) (h0 : bad ≠ 0)
    (hpost : ∀ c ∈ post, c ∈ alphabet64) (hl : post.length ≤ 6) (hv : value alphabet64 post < 2 ^ 31) :
    b64Decode (pre ++ bad :: post ++ 0 :: rest) = .abort := by
  rw [b64Decode_eq (by
    simp only [List.mem_append, List.mem_cons, not_or]
    exact ⟨hpre, Ne.symm h0, noNul_of noNul64 hpost⟩)]
  rw [List.reverse_append, List.reverse_cons, List.append_assoc, b64Loop_append]
  rw [b64Loop_ok post.reverse 0 0 (by simpa using hpost) (by decide) (by simp; omega) (by rw [← value_eq]; omega)]
  simp only [Res.bind, List.singleton_append, b64Loop]
  rw [index64, if_neg hbad, if_pos rfl]

-- "A-B"
example : b64Decode ([65] ++ 45 :: [66] ++ 0 :: []) = .abort :=
  C33_illegal [65] [66] [] 45 (by decide) (by decide +kernel) (by decide) (by decide +kernel) (by decide) (by decide +kernel)

/-- **C33** Seven or more digits always end in undefined behaviour (a shift by 36, or by less into the sign bit). -/
theorem C33_seven_digits_undefined (s rest : List Byte) (hs : ∀ c ∈ s, c ∈ alphabet64) (hl : 7 ≤ s.length) :
    b64Decode (s ++ 0 :: rest) = .ub := by
  rw [b64Decode_eq (noNul_of noNul64 hs)]
  have hs' : ∀ c ∈ s.reverse, c ∈ alphabet64 := by simpa using hs
  have hl' : 0 + 6 * s.reverse.length ≥ 42 := by simp; omega
  generalize s.reverse = r at hs' hl'
  suffices ∀ o v, o % 6 = 0 → o + 6 * r.length ≥ 42 → o ≤ 36 → b64Loop r v o = .ub by
    refine this 0 0 (by decide) ?_ (by decide)
    omega
  clear hl' hl hs
  induction r with
  | nil => intro o v _ h1 h2; simp at h1; omega
  | cons c r ih =>
    intro o v h6 h1 h2
    obtain ⟨e1, e2⟩ := entry64 (hs' c (by simp))
    simp only [List.length_cons] at h1
    simp only [b64Loop, e1]
    rw [if_neg (by omega)]
    unfold shiftInt
    split
    · rfl
    · simp only [Res.bind]
      rename_i hn
      push Not at hn
      exact ih (fun x hx => hs' x (by simp [hx])) _ _ (by omega) (by omega) (by omega)

example : b64Decode ([65, 65, 65, 65, 65, 65, 66] ++ [0]) = .ub :=
  C33_seven_digits_undefined _ [] (by decide +kernel) (by decide)

/-! ## base 26 -/

/-- the cache of `b26_encode` always holds the digits of the number it is labelled with -/
theorem b26_cache (hist : List Nat) : ∀ σ : B26, σ.result = b26Loop 7 σ.previous [] →
    (hist.foldl (fun σ v => (b26Encode σ v).1) σ).result = b26Loop 7 (hist.foldl (fun σ v => (b26Encode σ v).1) σ).previous [] := by
  induction hist with
  | nil => intro σ h; exact h
  | cons v hist ih =>
    intro σ h
    rw [List.foldl_cons]
    apply ih
    unfold b26Encode
    simp only
    split
    · rfl
    · exact h

theorem b26Encode_cached {σ : B26} (h : σ.result = b26Loop 7 σ.previous []) (v : Nat) :
    (b26Encode σ v).2 = strip (b26List.getD 0 0) 6 (b26Loop 7 v []) := by
  unfold b26Encode
  simp only
  split
  · rfl
  · rename_i hn
    simp only [ne_eq, not_not] at hn
    rw [h, hn]

/-- The string `b26_encode (v)` returns after a history of calls with these arguments. -/
def encodeAfter (hist : List Nat) (v : Nat) : List Byte :=
  (b26Encode (hist.foldl (fun σ x => (b26Encode σ x).1) B26.init) v).2

theorem encodeAfter_eq (hist : List Nat) (v : Nat) : encodeAfter hist v = strip (b26List.getD 0 0) 6 (b26Loop 7 v []) :=
  b26Encode_cached (b26_cache hist B26.init (by decide +kernel)) v

/-- **C35** What `b26_encode (v)` returns does not depend on the calls made before. -/
theorem C35_history_irrelevant (hist hist' : List Nat) (v : Nat) : encodeAfter hist v = encodeAfter hist' v := by
  rw [encodeAfter_eq, encodeAfter_eq]

example : encodeAfter [5, 700, 0, 701] 700 = [98, 97, 121] := by decide +kernel
-- the cache does change, and is used
example : (b26Encode B26.init 700).1.previous = 700 ∧ (b26Encode B26.init 0).2 = [97] := by decide +kernel

/-- **C34** `b26_encode`, after any calls, writes `v mod 26⁷` (so `v` itself when `v < 26⁷`) with 1 to 7 lower case
letters and without redundant leading `a`. -/
theorem C34_encode (hist : List Nat) (v : Nat) : Writes alphabet26 7 (v % 26 ^ 7) (encodeAfter hist v) := by
  rw [encodeAfter_eq]
  exact b26Result_ok v

/-- **C34** `b26_decode` of any string of at most six letters returns what it is worth. -/
theorem C34_decode (s rest : List Byte) (hs : ∀ c ∈ s, c ∈ alphabet26) (hl : s.length ≤ 6) :
    b26Decode (s ++ 0 :: rest) = .ok (value alphabet26 s) := by
  rw [b26Decode_eq (noNul_of noNul26 hs)]
  rw [value_eq]
  rw [b26Loop'_ok s.reverse 0 1 0 (by simpa using hs) rfl (by decide) (by simp; omega)]
  simp

theorem Writes.short {al : List Byte} {n v : Nat} {s : List Byte} (w : Writes al n v s) (hal : 2 ≤ al.length)
    (h0 : ∀ c ∈ al, some c ≠ al.head? → 1 ≤ al.idxOf c) (k : Nat) (hk : 1 ≤ k) (h : v < al.length ^ k) : s.length ≤ k := by
  by_contra hc
  cases s with
  | nil => have := w.length.1; simp at this
  | cons d t =>
    have hd := w.digits d (by simp)
    have h1 : 1 ≤ al.idxOf d := by
      refine h0 d hd ?_
      rcases w.leading with hl | hl
      · simp at hl; subst hl; simp at hc; omega
      · simpa using hl
    have h2 : v = value al t + al.length ^ t.length * al.idxOf d := by
      rw [← w.worth, value_eq, List.reverse_cons, valueR_append, ← value_eq, List.length_reverse]
      simp [valueR]
    have h3 : al.length ^ k ≤ al.length ^ t.length := Nat.pow_le_pow_right (by omega) (by simp at hc; omega)
    have h4 : al.length ^ t.length * 1 ≤ al.length ^ t.length * al.idxOf d := Nat.mul_le_mul_left _ h1
    omega

theorem first26 : ∀ c ∈ alphabet26, some c ≠ alphabet26.head? → 1 ≤ alphabet26.idxOf c := by decide +kernel

/-- **C34**, for the values below 26⁶ = 308 915 776: `b26_decode (b26_encode v) = v`. -/
theorem C34_roundtrip_partial (hist : List Nat) (v : Nat) (h : v < 26 ^ 6) (rest : List Byte) :
    b26Decode (encodeAfter hist v ++ 0 :: rest) = .ok v := by
  have w := C34_encode hist v
  rw [Nat.mod_eq_of_lt (by omega)] at w
  rw [C34_decode _ rest w.digits (Writes.short w (by rw [len26]; decide) first26 6 (by decide) (by rw [len26]; exact h)), w.worth]

example : b26Decode (encodeAfter [3] 308915775 ++ [0]) = .ok 308915775 := C34_roundtrip_partial _ _ (by decide) []

/-- digits of a number from 26⁶ on -/
theorem seven {v : Nat} {s : List Byte} (w : Writes alphabet26 7 v s) (h : 26 ^ 6 ≤ v) :
    ∃ d t, s = d :: t ∧ t.length = 6 ∧ v = alphabet26.idxOf d * 26 ^ 6 + value alphabet26 t ∧ value alphabet26 t < 26 ^ 6 := by
  have hlt := valueR_lt s.reverse (by simpa using w.digits)
  rw [← value_eq, w.worth, len26, List.length_reverse] at hlt
  have hl : s.length = 7 := by
    have := w.length.2
    by_contra hc
    have : 26 ^ s.length ≤ 26 ^ 6 := Nat.pow_le_pow_right (by decide) (by omega)
    omega
  cases s with
  | nil => simp at hl
  | cons d t =>
    have ht : t.length = 6 := by simpa using hl
    have hlt' := valueR_lt t.reverse (by have := w.digits; simp only [List.mem_cons, forall_eq_or_imp] at this; simpa using this.2)
    rw [← value_eq, len26, List.length_reverse, ht] at hlt'
    refine ⟨d, t, rfl, ht, ?_, hlt'⟩
    rw [← w.worth, value_eq, List.reverse_cons, valueR_append, ← value_eq, len26, List.length_reverse, ht]
    simp [valueR]
    omega

/-- **C34 refuted in C** for every value from 26⁶ to 26⁷ − 1: the seventh letter makes `offset *= 26` overflow an `int`. -/
theorem C34_seven_letters_undefined (hist : List Nat) (v : Nat) (h : 26 ^ 6 ≤ v) (h' : v < 26 ^ 7) (rest : List Byte) :
    b26Decode (encodeAfter hist v ++ 0 :: rest) = .ub := by
  have w := C34_encode hist v
  rw [Nat.mod_eq_of_lt h'] at w
  obtain ⟨d, t, hs, ht, hv, hlt⟩ := seven w h
  have hd := w.digits
  rw [hs] at hd
  simp only [List.mem_cons, forall_eq_or_imp] at hd
  rw [b26Decode_eq (noNul_of noNul26 w.digits), hs, List.reverse_cons, b26Loop'_append]
  rw [b26Loop'_ok t.reverse 0 1 0 (by simpa using hd.2) rfl (by decide) (by simp; omega)]
  obtain ⟨h1, h2⟩ := entry26 hd.1
  simp only [Res.bind, List.length_reverse, ht, b26Loop', h1]
  rw [if_neg (by omega)]
  split
  · rfl
  · rw [if_pos (by decide)]

example : b26Decode (encodeAfter [] 308915776 ++ [0]) = .ub := C34_seven_letters_undefined [] _ (by decide) (by decide) []

theorem wrap_seven (hist : List Nat) (v : Nat) (h : 26 ^ 6 ≤ v) (h' : v < 26 ^ 7) (rest : List Byte) :
    b26DecodeWrap (encodeAfter hist v ++ 0 :: rest) =
      .ok ((v % 26 ^ 6 + toULong (wrap32 ((v / 26 ^ 6 : Nat) * 26 ^ 6))) % 2 ^ 64) := by
  have w := C34_encode hist v
  rw [Nat.mod_eq_of_lt h'] at w
  obtain ⟨d, t, hs, ht, hv, hlt⟩ := seven w h
  have hd := w.digits
  rw [hs] at hd
  simp only [List.mem_cons, forall_eq_or_imp] at hd
  rw [b26DecodeWrap_eq (noNul_of noNul26 w.digits), hs, List.reverse_cons]
  have e0 := b26LoopWrap_append t.reverse [d] _ (26 ^ 6) 0 1
    (b26Loop'_ok t.reverse 0 1 0 (by simpa using hd.2) rfl (by decide) (by simp; omega)) (by simp [ht])
  rw [← value_eq] at e0
  obtain ⟨h1, h2⟩ := entry26 hd.1
  have e1 : v / 26 ^ 6 = alphabet26.idxOf d := by omega
  have e2 : v % 26 ^ 6 = value alphabet26 t := by omega
  rw [e1, e2]
  refine e0.trans ?_
  simp only [b26LoopWrap, h1]
  rw [if_neg (by omega), Nat.zero_add, Nat.one_mul]
  rfl

/-- **C34** Where the compiler lets `int` wrap around, the round trip also holds up to 7·26⁶ − 1 = 2 162 410 431. -/
theorem C34_roundtrip_wrapping_partial (hist : List Nat) (v : Nat) (h : v < 7 * 26 ^ 6) (rest : List Byte) :
    b26DecodeWrap (encodeAfter hist v ++ 0 :: rest) = .ok v := by
  rcases Nat.lt_or_ge v (26 ^ 6) with hv | hv
  · have h1 := C34_roundtrip_partial hist v hv rest
    have w := C34_encode hist v
    rw [b26Decode_eq (noNul_of noNul26 w.digits)] at h1
    rw [b26DecodeWrap_eq (noNul_of noNul26 w.digits)]
    exact b26LoopWrap_of _ _ _ _ h1
  · rw [wrap_seven hist v hv (by omega) rest]
    rw [wrap32_id (by positivity) (by omega), toULong_nat (n := v / 26 ^ 6 * 26 ^ 6) (by push_cast; rfl) (by omega)]
    refine congrArg Res.ok ?_
    omega

example : b26DecodeWrap (encodeAfter [] 2000000000 ++ [0]) = .ok 2000000000 :=
  C34_roundtrip_wrapping_partial [] _ (by decide) []

/-- **C34 refuted in practice** from 7·26⁶ on: with `int` wrapping around the value returned is never `v`. -/
theorem C34_large_wrong (hist : List Nat) (v : Nat) (h : 7 * 26 ^ 6 ≤ v) (h' : v < 26 ^ 7) (rest : List Byte) :
    ∃ w, b26DecodeWrap (encodeAfter hist v ++ 0 :: rest) = .ok w ∧ w ≠ v := by
  refine ⟨_, wrap_seven hist v (by omega) h' rest, ?_⟩
  have h1 : 7 ≤ v / 26 ^ 6 := by omega
  have h2 : v / 26 ^ 6 < 26 := by omega
  have hv : v = v / 26 ^ 6 * 26 ^ 6 + v % 26 ^ 6 := by omega
  have h3 : v % 26 ^ 6 < 26 ^ 6 := Nat.mod_lt _ (by decide)
  generalize v / 26 ^ 6 = q at *
  generalize v % 26 ^ 6 = r at *
  have e : toULong (wrap32 ((q : Int) * 26 ^ 6)) = q * 308915776 + 18446744069414584320 ∨
      toULong (wrap32 ((q : Int) * 26 ^ 6)) + 4294967296 = q * 308915776 ∨
      toULong (wrap32 ((q : Int) * 26 ^ 6)) = q * 308915776 + 18446744065119617024 := by
    interval_cases q <;> decide +kernel
  generalize toULong (wrap32 ((q : Int) * 26 ^ 6)) = y at *
  norm_num only at hv h3 ⊢
  subst hv
  intro hw
  have hm := Nat.div_add_mod (r + y) 18446744073709551616
  rw [hw] at hm
  generalize (r + y) / 18446744073709551616 = k at *
  clear hw
  rcases e with e | e | e <;> omega

example : b26DecodeWrap (encodeAfter [] 2162410432 ++ [0]) = .ok 18446744071576994752 := by decide +kernel

/-- **C34** A character that is not a lower case letter aborts, whatever precedes it, when at most six letters
follow it. -/
theorem C34_illegal (pre post rest : List Byte) (bad : Byte) (hpre : (0 : Byte) ∉ pre) (hbad : bad ∉ alphabet26) (h0 : bad ≠ 0)
    (hpost : ∀ c ∈ post, c ∈ alphabet26) (hl : post.length ≤ 6) :
    b26Decode (pre ++ bad :: post ++ 0 :: rest) = .abort := by
  rw [b26Decode_eq (by
    simp only [List.mem_append, List.mem_cons, not_or]
    exact ⟨hpre, Ne.symm h0, noNul_of noNul26 hpost⟩)]
  rw [List.reverse_append, List.reverse_cons, List.append_assoc, b26Loop'_append]
  rw [b26Loop'_ok post.reverse 0 1 0 (by simpa using hpost) rfl (by decide) (by simp; omega)]
  simp only [Res.bind, List.singleton_append, b26Loop']
  rw [index26, if_neg hbad, if_pos rfl]

-- "Ab"
example : b26Decode ([] ++ 65 :: [98] ++ 0 :: []) = .abort :=
  C34_illegal [] [98] [] 65 (by decide) (by decide +kernel) (by decide) (by decide +kernel) (by decide)

end Maa.BaseN
