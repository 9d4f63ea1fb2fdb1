import Verif.Model.Prime
import Verif.Lemmas.Prime

/-! # Properties C01, C02: maa/prime.c

`prmIsPrime v = some r` reads "prm_is_prime(v) returns r"; `none` would be non-termination.
The specification is Mathlib's `Nat.Prime`. -/

namespace Maa.Prime

/-- C01, proved part: for every 32-bit `v` other than 1 and 4294967291 the answer is exact.  Missing from the full property
(`∀ v < 2^32`): these two values, where the code is wrong (see the two refutations below). -/
theorem C01_is_prime_exact_partial (v : Nat) (hv : v < 2 ^ 32) (h1 : v ≠ 1) (h2 : v ≠ 4294967291) :
    prmIsPrime v = some (if v.Prime then 1 else 0) := by
  have hU : v < U32 := by simpa [U32] using hv
  by_cases hp : v.Prime
  · rw [if_pos hp]
    refine isPrime_prime' v ?_ hp
    by_contra hlt
    exact no_prime_between v (by omega) (by simpa [U32] using hU) h2 hp
  · rw [if_neg hp]
    by_cases h0 : v = 0
    · subst h0; decide
    · exact isPrime_composite v hU (by omega) hp

/-- C01, over the whole `unsigned int` range: the call returns, the answer is 0 or 1, and a non-zero
answer for `v ≠ 1` really means that `v` is prime. -/
theorem C01_is_prime_sound (v : Nat) (hv : v < 2 ^ 32) :
    (∃ r, prmIsPrime v = some r ∧ (r = 0 ∨ r = 1)) ∧
      (prmIsPrime v = some 1 → v ≠ 1 → v.Prime) := by
  have hU : v < U32 := by simpa [U32] using hv
  refine ⟨?_, fun h h1 => ?_⟩
  · rcases isPrime_total v hU with h | h
    · exact ⟨0, h, Or.inl rfl⟩
    · exact ⟨1, h, Or.inr rfl⟩
  · by_contra hp
    by_cases h0 : v = 0
    · subst h0; exact absurd h (by decide)
    · rw [isPrime_composite v hU (by omega) hp] at h
      simp at h

/-- C01 is false of the code at 1: `prm_is_prime(1)` returns 1. -/
theorem C01_refuted_at_one : prmIsPrime 1 = some 1 ∧ ¬ Nat.Prime 1 :=
  ⟨isPrime_one, by norm_num⟩

/-- C01 is false of the code at the largest 32-bit prime: 32-bit wrap-around of `square` makes the
loop run until it divides the number by itself. -/
theorem C01_refuted_by_wraparound :
    prmIsPrime 4294967291 = some 0 ∧ Nat.Prime 4294967291 :=
  ⟨isPrime_wrap, prime_top⟩

/-- The hypotheses of `C01_is_prime_exact_partial` are met with both answers. -/
example : prmIsPrime 65537 = some 1 ∧ prmIsPrime (65521 * 65537) = some 0 := by
  have h1 := C01_is_prime_exact_partial 65537 (by norm_num) (by norm_num) (by norm_num)
  have h2 := C01_is_prime_exact_partial (65521 * 65537) (by norm_num) (by norm_num) (by norm_num)
  rw [h1, h2]
  constructor <;> norm_num

/-- ... also above 65535², where `square` wraps around. -/
example : prmIsPrime 4294967279 = some 1 := by
  rw [C01_is_prime_exact_partial _ (by norm_num) (by norm_num) (by norm_num), if_pos prime_top']

/-- `r` is the smallest odd prime not below `start`. -/
def IsLeastOddPrime (start r : Nat) : Prop :=
  start ≤ r ∧ r.Prime ∧ r % 2 = 1 ∧ ∀ q, start ≤ q → q.Prime → q % 2 = 1 → r ≤ q

theorem next_exact (start q : Nat) (h2 : 2 ≤ start) (hq : q.Prime)
    (hsq : start ≤ q) (hqb : q < 4294967289) (hodd : q % 2 = 1) :
    ∃ r, prmNextPrime start = some r ∧ IsLeastOddPrime start r ∧ r ≤ q := by
  have hlt : start < U32 := by simp only [U32]; omega
  unfold prmNextPrime
  rw [Nat.mod_eq_of_lt hlt, or_one]
  set n := (if start % 2 = 1 then start else start + 1) with hn
  have hn2 : n % 2 = 1 := by rw [hn]; split <;> omega
  have hns : start ≤ n := by rw [hn]; split <;> omega
  have hnq : n ≤ q := by rw [hn]; split <;> omega
  have hU : q < U32 := by simp only [U32]; omega
  obtain ⟨r, h1, h2', h3, h4, h5, h6⟩ := nextLoop_found U32 n q hU hnq hn2 hodd
    (isPrime_prime' q hqb hq) (by simp only [U32] at *; omega)
  refine ⟨r, h1, ⟨by omega, ?_, h4, ?_⟩, h3⟩
  · by_contra hp
    rw [isPrime_composite r (by omega) (by omega) hp] at h5
    simp at h5
  · intro q' ha hb hc
    by_contra hlt'
    have hnq' : n ≤ q' := by rw [hn]; split <;> omega
    have := h6 q' hnq' (by omega) hc
    rw [isPrime_prime' q' (by omega) hb] at this
    simp at this

/-- C02, proved part: for every `start` from 2 to 4294967279 (the last prime but one below 2^32) the call returns the least odd
prime not below `start`.  Missing: 0 and 1, where the code answers 1, and the values above, where it answers 1 although the
prime 4294967291 is left. -/
theorem C02_next_prime_least_partial (start : Nat) (h2 : 2 ≤ start) (hb : start ≤ 4294967279) :
    ∃ r, prmNextPrime start = some r ∧ IsLeastOddPrime start r := by
  obtain ⟨r, h1, h2, -⟩ := next_exact start 4294967279 h2 prime_top' hb (by norm_num) (by norm_num)
  exact ⟨r, h1, h2⟩

/-- C02, size of the result (what the growth of tables depends on): below twice `start`, for every `start` from 2 to
2147483643 (by Bertrand's postulate). -/
theorem C02_next_prime_bertrand (start : Nat) (h2 : 2 ≤ start) (hb : start ≤ 2147483643) :
    ∃ r, prmNextPrime start = some r ∧ IsLeastOddPrime start r ∧ r < 2 * start := by
  obtain ⟨p, hp, hlt, hle⟩ := Nat.exists_prime_lt_and_le_two_mul start (by omega)
  have hpo : p % 2 = 1 := by
    rcases hp.eq_two_or_odd with h | h
    · omega
    · exact h
  obtain ⟨r, h1, h3, h4⟩ := next_exact start p h2 hp (by omega) (by omega) hpo
  exact ⟨r, h1, h3, by omega⟩

/-- C02, termination and oddness for every argument: the search always ends with an odd number
(`hash.c` relies on it being non-zero), accepted by the primality test. -/
theorem C02_next_prime_terminates (start : Nat) :
    ∃ r, prmNextPrime start = some r ∧ r % 2 = 1 ∧ 1 ≤ r ∧ r < 2 ^ 32 ∧ (r = 1 ∨ r.Prime) := by
  have key : ∀ r, r < U32 → prmIsPrime r = some 1 → r % 2 = 1 → (r = 1 ∨ r.Prime) := by
    intro r hr h1 ho
    by_cases h : r = 1
    · exact Or.inl h
    · exact Or.inr ((C01_is_prime_sound r (by simpa [U32] using hr)).2 h1 h)
  unfold prmNextPrime
  set s := start % U32 with hs
  have hsU : s < U32 := Nat.mod_lt _ (by norm_num [U32])
  rw [or_one]
  set n := (if s % 2 = 1 then s else s + 1) with hn
  have hn2 : n % 2 = 1 := by rw [hn]; split <;> omega
  have hnU : n < U32 := by
    rw [hn]; split <;> simp only [U32] at * <;> omega
  by_cases hex : ∃ q, n ≤ q ∧ q < U32 ∧ q % 2 = 1 ∧ prmIsPrime q = some 1
  · obtain ⟨q, ha, hb, hc, hd⟩ := hex
    obtain ⟨r, h1, h2, h3, h4, h5, h6⟩ := nextLoop_found U32 n q hb ha hn2 hc hd
      (by simp only [U32] at *; omega)
    refine ⟨r, h1, h4, by omega, ?_, key r (by omega) h5 h4⟩
    have : r < U32 := by omega
    simpa [U32] using this
  · refine ⟨1, ?_, by norm_num, by norm_num, by norm_num, Or.inl rfl⟩
    have hall : ∀ t, n ≤ t → t < U32 → t % 2 = 1 → prmIsPrime t = some 0 := by
      intro t a b c
      rcases isPrime_total t b with h | h
      · exact h
      · exact absurd ⟨t, a, b, c, h⟩ hex
    have hne : n ≠ 1 := by
      rintro h
      have := hall 1 (by omega) (by norm_num [U32]) (by norm_num)
      rw [isPrime_one] at this; simp at this
    have := nextLoop_wrap (U32 - 1) n hnU hn2 hall (by simp only [U32] at *; omega) hne
    simpa [U32] using this

/-- C02 is false of the code at 0 and 1: it answers 1. -/
theorem C02_refuted_small : prmNextPrime 0 = some 1 ∧ prmNextPrime 1 = some 1 := by
  have h1 : (0 % U32) ||| 1 = 1 := by decide
  have h2 : (1 % U32) ||| 1 = 1 := by decide
  unfold prmNextPrime
  rw [h1, h2]
  have : nextPrimeLoop U32 1 = some 1 := by
    show nextPrimeLoop (4294967295 + 1) 1 = some 1
    unfold nextPrimeLoop
    rw [isPrime_one]
  exact ⟨this, this⟩

/-- C02 is false of the code at the top of the range: from every number above the last prime but one the search wraps around
and answers 1, although 4294967291 is a correct answer up to there. -/
theorem C02_refuted_top (start : Nat) (h1 : 4294967279 < start) (h2 : start < 2 ^ 32) :
    prmNextPrime start = some 1 ∧ (start ≤ 4294967291 → IsLeastOddPrime start 4294967291) := by
  have hU : start < U32 := by simpa [U32] using h2
  refine ⟨?_, fun hle => ⟨hle, prime_top, by norm_num, fun q hq hp _ => ?_⟩⟩
  · unfold prmNextPrime
    rw [Nat.mod_eq_of_lt hU, or_one]
    have hn : 4294967279 < (if start % 2 = 1 then start else start + 1) ∧ (if start % 2 = 1 then start else start + 1) < U32 ∧
        (if start % 2 = 1 then start else start + 1) % 2 = 1 := by
      simp only [U32] at *
      split <;> omega
    generalize (if start % 2 = 1 then start else start + 1) = n at hn
    obtain ⟨n1, n2, n3⟩ := hn
    refine nextLoop_wrap (U32 - 1) n n2 n3 ?_ (by simp only [U32] at *; omega) (by omega)
    intro s s1 s2 s3
    by_cases h : s = 4294967291
    · rw [h]; exact isPrime_wrap
    · exact isPrime_composite s s2 (by omega) (no_prime_between s (by omega) (by simpa [U32] using s2) h)
  · by_contra hlt
    exact no_prime_between q (by omega) (by omega) (by omega) hp

/-- The hypotheses of the theorems are met: the growth step of a table of size 7. -/
example : ∃ r, prmNextPrime (3 * 7) = some r ∧ r = 23 := by
  obtain ⟨r, h1, ⟨h2, h3, h4, h5⟩, -⟩ :=
    C02_next_prime_bertrand (3 * 7) (by norm_num) (by norm_num)
  refine ⟨r, h1, ?_⟩
  have := h5 23 (by norm_num) (by norm_num) (by norm_num)
  have hlo : r ≠ 21 := by rintro rfl; norm_num at h3
  omega

end Maa.Prime
