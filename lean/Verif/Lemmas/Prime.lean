import Verif.Model.Prime
import Mathlib.Data.Nat.Prime.Basic
import Mathlib.NumberTheory.Bertrand
import Mathlib.Tactic.NormNum.Prime

namespace Maa.Prime

/-- loop result when the invariant holds and no divisor is met before the square reaches `value`. -/
theorem loop_inv (fuel value d : Nat) (hv : value < U32) (hodd : value % 2 = 1)
    (hd : d % 2 = 1) (hd3 : 3 ≤ d) (hdv : d ≤ value)
    (hno : ∀ e, 3 ≤ e → e < d → e % 2 = 1 → value % e ≠ 0)
    (hf : value - d < 2 * fuel) :
    ∃ e, isPrimeLoop fuel value d (d * d % U32) = some (if value % e ≠ 0 then 1 else 0) ∧
      d ≤ e ∧ e ≤ value ∧ e % 2 = 1 ∧
      (∀ e', 3 ≤ e' → e' < e → e' % 2 = 1 → value % e' ≠ 0 ∧ (d ≤ e' → e' * e' % U32 < value)) ∧
      (value ≤ e * e % U32 ∨ value % e = 0) := by
  induction fuel generalizing d with
  | zero => omega
  | succ fuel ih =>
    unfold isPrimeLoop
    split
    · rename_i h
      have hne : d ≠ value := by
        rintro rfl; simp at h
      have hlt : d + 2 ≤ value := by omega
      have hsq : (d * d % U32 + 4 * ((d + 1) % U32)) % U32 = (d + 2) * (d + 2) % U32 := by
        have : (d + 2) * (d + 2) = d * d + 4 * (d + 1) := by ring
        rw [this]
        simp only [U32]; omega
      have hdd : (d + 1 + 1) % U32 = d + 2 := by simp only [U32] at *; omega
      rw [hsq, hdd]
      obtain ⟨e, h1, h2, h3, h4, h5, h6⟩ := ih (d + 2) (by omega) (by omega) hlt (by
        intro e he1 he2 he3
        by_cases hed : e < d
        · exact hno e he1 hed he3
        · have : e = d := by omega
          subst this; exact h.2) (by omega)
      refine ⟨e, h1, by omega, h3, h4, ?_, h6⟩
      intro e' ha hb hc
      refine ⟨(h5 e' ha hb hc).1, fun hde => ?_⟩
      by_cases hed : d + 2 ≤ e'
      · exact (h5 e' ha hb hc).2 hed
      · have : e' = d := by omega
        subst this; exact h.1
    · rename_i h
      refine ⟨d, rfl, le_refl _, hdv, hd, ?_, ?_⟩
      · intro e' ha hb hc
        exact ⟨hno e' ha hb hc, fun h => absurd h (by omega)⟩
      · by_contra hcon
        apply h
        push Not at hcon
        exact ⟨hcon.1, hcon.2⟩

theorem isPrime_inv (value : Nat) (hv : value < U32) (hodd : value % 2 = 1) (h5 : 5 ≤ value) :
    ∃ e, prmIsPrime value = some (if value % e ≠ 0 then 1 else 0) ∧
      3 ≤ e ∧ e ≤ value ∧ e % 2 = 1 ∧
      (∀ e', 3 ≤ e' → e' < e → e' % 2 = 1 → value % e' ≠ 0 ∧ e' * e' % U32 < value) ∧
      (value ≤ e * e % U32 ∨ value % e = 0) := by
  obtain ⟨e, h1, h2, h3, h4, h5', h6⟩ := loop_inv U32 value 3 hv hodd (by norm_num) (by norm_num)
    (by omega) (by intro e a b; omega) (by simp only [U32] at *; omega)
  refine ⟨e, ?_, h2, h3, h4, fun e' a b c => ⟨(h5' e' a b c).1, (h5' e' a b c).2 a⟩, h6⟩
  unfold prmIsPrime
  rw [if_neg (by omega), if_neg (by omega), if_neg (by rw [Nat.and_one_is_mod]; omega)]
  exact h1

theorem isPrime_one : prmIsPrime 1 = some 1 := by decide

theorem isPrime_even (v : Nat) (h2 : v ≠ 2) (he : v % 2 = 0) : prmIsPrime v = some 0 := by
  unfold prmIsPrime
  rw [if_neg h2, if_neg (by omega), if_pos (by rw [Nat.and_one_is_mod]; omega)]

/-- The test always returns, with 0 or 1. -/
theorem isPrime_total (v : Nat) (hv : v < U32) : prmIsPrime v = some 0 ∨ prmIsPrime v = some 1 := by
  by_cases he : v % 2 = 0
  · by_cases h2 : v = 2
    · right; subst h2; decide
    · left; exact isPrime_even v h2 he
  · by_cases h1 : v = 1
    · right; subst h1; decide
    · by_cases h3 : v = 3
      · right; subst h3; decide
      · obtain ⟨e, h, -⟩ := isPrime_inv v hv (by omega) (by omega)
        rw [h]; split <;> simp

/-- Composite numbers are always recognised, in the whole 32-bit range. -/
theorem isPrime_composite (v : Nat) (hv : v < U32) (h2 : 2 ≤ v) (hc : ¬ v.Prime) :
    prmIsPrime v = some 0 := by
  by_cases he : v % 2 = 0
  · by_cases h : v = 2
    · subst h; exact absurd Nat.prime_two hc
    · exact isPrime_even v h he
  · have h5 : 5 ≤ v := by
      have : v ≠ 3 := by rintro rfl; exact hc Nat.prime_three
      omega
    obtain ⟨e, h, he3, hev, heo, hmin, hstop⟩ := isPrime_inv v hv (by omega) h5
    rw [h]
    have hq := Nat.minFac_dvd v
    have hqp := Nat.minFac_prime (n := v) (by omega)
    have hqsq := Nat.minFac_sq_le_self (by omega) hc
    set q := v.minFac with hqdef
    have hqodd : q % 2 = 1 := by
      rcases hqp.eq_two_or_odd with h2' | h2'
      · rw [h2'] at hq; omega
      · exact h2'
    have hq3 : 3 ≤ q := by have := hqp.two_le; omega
    have hqv : v % q = 0 := Nat.mod_eq_zero_of_dvd hq
    have heq : e ≤ q := by
      by_contra hlt
      exact (hmin q hq3 (by omega) hqodd).1 hqv
    have hqq : q * q ≤ v := by rw [← pow_two]; exact hqsq
    have hee : e * e ≤ v := le_trans (Nat.mul_le_mul heq heq) hqq
    have heU : e * e % U32 = e * e := Nat.mod_eq_of_lt (lt_of_le_of_lt hee hv)
    rcases hstop with hs | hs
    · rw [heU] at hs
      have : e * e = v := le_antisymm hee hs
      have hve : v % e = 0 := by rw [← this]; exact Nat.mul_mod_left e e
      simp [hve]
    · simp [hs]

/-- Primes are recognised as long as the square does not wrap. -/
theorem isPrime_prime (v : Nat) (hv : v ≤ 65535 * 65535) (hp : v.Prime) :
    prmIsPrime v = some 1 := by
  rcases hp.eq_two_or_odd with h2 | hodd
  · subst h2; decide
  · by_cases h3 : v = 3
    · subst h3; decide
    have h5 : 5 ≤ v := by have := hp.two_le; omega
    have hvU : v < U32 := by simp only [U32]; omega
    obtain ⟨e, h, he3, hev, heo, hmin, hstop⟩ := isPrime_inv v hvU hodd h5
    rw [h]
    have hne : e ≠ v := by
      rintro rfl
      -- v itself: some smaller odd number d = 65535 has square ≥ v
      by_cases hb : e ≤ 65535
      · have h5e : 3 ≤ e - 2 := by omega
        have := (hmin (e - 2) h5e (by omega) (by omega)).2
        have hlt : (e - 2) * (e - 2) < U32 := by
          have : (e - 2) * (e - 2) ≤ 65535 * 65535 := Nat.mul_le_mul (by omega) (by omega)
          simp only [U32]; omega
        rw [Nat.mod_eq_of_lt hlt] at this
        have h3e : 3 * (e - 2) ≤ (e - 2) * (e - 2) := Nat.mul_le_mul_right _ h5e
        omega
      · have := (hmin 65535 (by norm_num) (by omega) (by norm_num)).2
        rw [Nat.mod_eq_of_lt (by simp only [U32]; norm_num)] at this
        omega
    have : v % e ≠ 0 := by
      intro h0
      rcases (Nat.dvd_prime hp).1 (Nat.dvd_of_mod_eq_zero h0) with h1 | h1
      · omega
      · exact hne h1
    simp [this]

/-- Primes above 65535²: the wrapping square still exceeds them at some odd number below 2^29, because -7 is a square modulo
2^32; so primes below 2^32 - 7 are recognised. -/
theorem isPrime_prime_large (v : Nat) (h1 : 65535 * 65535 < v) (hv : v < 4294967289) (hp : v.Prime) :
    prmIsPrime v = some 1 := by
  have hodd : v % 2 = 1 := by
    rcases hp.eq_two_or_odd with h | h
    · omega
    · exact h
  obtain ⟨e, h, he3, hev, heo, hmin, hstop⟩ := isPrime_inv v (by simp only [U32]; omega) hodd (by omega)
  rw [h]
  have hne : e ≠ v := by
    rintro rfl
    have := (hmin 479772853 (by norm_num) (by omega) (by norm_num)).2
    have hsq : 479772853 * 479772853 % U32 = 4294967289 := by norm_num [U32]
    omega
  have : v % e ≠ 0 := by
    intro h0
    rcases (Nat.dvd_prime hp).1 (Nat.dvd_of_mod_eq_zero h0) with h1 | h1
    · omega
    · exact hne h1
  simp [this]

/-- All primes but the largest one below 2^32 are recognised. -/
theorem isPrime_prime' (v : Nat) (hv : v < 4294967289) (hp : v.Prime) : prmIsPrime v = some 1 := by
  by_cases h : v ≤ 65535 * 65535
  · exact isPrime_prime v h hp
  · exact isPrime_prime_large v (by omega) hv hp

/-- A number above 65535² that is 3, 5 or 7 mod 8 close to 2^32 cannot be reached by an odd square:
the loop then only stops at a divisor. -/
theorem isPrime_wrap : prmIsPrime 4294967291 = some 0 := by
  obtain ⟨e, h, he3, hev, heo, hmin, hstop⟩ :=
    isPrime_inv 4294967291 (by simp only [U32]; norm_num) (by norm_num) (by norm_num)
  rw [h]
  rcases hstop with hs | hs
  · exfalso
    have h8 : e * e % 8 = 1 := by
      have : e % 8 = 1 ∨ e % 8 = 3 ∨ e % 8 = 5 ∨ e % 8 = 7 := by omega
      rcases this with h | h | h | h <;> simp [Nat.mul_mod, h]
    have hU : e * e % U32 % 8 = e * e % 8 := Nat.mod_mod_of_dvd _ (by simp only [U32]; norm_num)
    have hlt : e * e % U32 < U32 := Nat.mod_lt _ (by simp only [U32]; norm_num)
    rw [h8] at hU
    simp only [U32] at *
    omega
  · simp [hs]

/-! ### prm_next_prime -/

theorem nextLoop_found (fuel next q : Nat) (hq : q < U32) (hnq : next ≤ q)
    (ho : next % 2 = 1) (hqo : q % 2 = 1) (hqp : prmIsPrime q = some 1)
    (hf : q - next < 2 * fuel) :
    ∃ r, nextPrimeLoop fuel next = some r ∧ next ≤ r ∧ r ≤ q ∧ r % 2 = 1 ∧
      prmIsPrime r = some 1 ∧ ∀ s, next ≤ s → s < r → s % 2 = 1 → prmIsPrime s = some 0 := by
  induction fuel generalizing next with
  | zero => omega
  | succ fuel ih =>
    unfold nextPrimeLoop
    rcases isPrime_total next (by omega) with h | h
    · rw [h]
      have hne : next ≠ q := by rintro rfl; rw [h] at hqp; simp at hqp
      have hmod : (next + 2) % U32 = next + 2 := by simp only [U32] at *; omega
      simp only [hmod]
      obtain ⟨r, h1, h2, h3, h4, h5, h6⟩ := ih (next + 2) (by omega) (by omega) (by omega)
      refine ⟨r, h1, by omega, h3, h4, h5, ?_⟩
      intro s ha hb hc
      by_cases hs : next + 2 ≤ s
      · exact h6 s hs hb hc
      · have : s = next := by omega
        subst this; exact h
    · rw [h]
      exact ⟨next, rfl, le_refl _, hnq, ho, h, fun s a b => by omega⟩

/-- When nothing between `next` and the end of the range is accepted, the search wraps to 1. -/
theorem nextLoop_wrap (fuel next : Nat) (hn : next < U32) (ho : next % 2 = 1)
    (hall : ∀ s, next ≤ s → s < U32 → s % 2 = 1 → prmIsPrime s = some 0)
    (hf : U32 - next < 2 * fuel) (h1 : next ≠ 1) :
    nextPrimeLoop (fuel + 1) next = some 1 := by
  induction fuel generalizing next with
  | zero => omega
  | succ fuel ih =>
    unfold nextPrimeLoop
    rw [hall next (le_refl _) hn ho]
    simp only
    by_cases hw : next + 2 < U32
    · rw [Nat.mod_eq_of_lt hw]
      exact ih (next + 2) hw (by omega) (fun s a b c => hall s (by omega) b c) (by omega) (by omega)
    · have : (next + 2) % U32 = 1 := by simp only [U32] at *; omega
      rw [this]
      unfold nextPrimeLoop
      rw [isPrime_one]

theorem or_one (n : Nat) : n ||| 1 = if n % 2 = 1 then n else n + 1 := by
  have h2 : (n ||| 1) % 2 = 1 := by rw [Nat.or_mod_two_eq_one]; right; rfl
  have hd : (n ||| 1) / 2 = n / 2 := by rw [Nat.or_div_two]; simp
  split <;> omega

/-- no number in `[lo, lo + 2^k)` divides `v` (helper for the primality of 4294967291; a balanced
recursion so that the kernel evaluates it without deep recursion). -/
def noDiv (v : Nat) : Nat → Nat → Bool
  | 0, lo => v % lo != 0
  | k + 1, lo => noDiv v k lo && noDiv v k (lo + 2 ^ k)

theorem noDiv_sound (v k lo : Nat) (h : noDiv v k lo = true) :
    ∀ d, lo ≤ d → d < lo + 2 ^ k → v % d ≠ 0 := by
  induction k generalizing lo with
  | zero =>
    intro d h1 h2
    have : d = lo := by simp at h2; omega
    subst this
    simpa [noDiv] using h
  | succ k ih =>
    intro d h1 h2
    simp only [noDiv, Bool.and_eq_true] at h
    rw [pow_succ] at h2
    by_cases hd : d < lo + 2 ^ k
    · exact ih lo h.1 d h1 hd
    · exact ih _ h.2 d (by omega) (by omega)

theorem prime_of_noDiv (p : Nat) (h2 : 2 ≤ p) (hp : p < 4294967296) (h : noDiv p 16 2 = true) : p.Prime := by
  have hs := noDiv_sound _ _ _ h
  rw [Nat.prime_def_le_sqrt]
  refine ⟨h2, fun m h2 hm hd => ?_⟩
  have hm' := Nat.le_sqrt.1 hm
  have : m < 65536 := by
    by_contra hc
    have : 65536 * 65536 ≤ m * m := Nat.mul_le_mul (by omega) (by omega)
    omega
  exact hs m h2 (by norm_num; omega) (Nat.mod_eq_zero_of_dvd hd)

theorem prime_top : Nat.Prime 4294967291 :=
  prime_of_noDiv _ (by norm_num) (by norm_num) (by decide +kernel)

theorem prime_top' : Nat.Prime 4294967279 :=
  prime_of_noDiv _ (by norm_num) (by norm_num) (by decide +kernel)

/-- Between the two largest 32-bit primes there is no other, and none above. -/
theorem no_prime_between (v : Nat) (h1 : 4294967279 < v) (h2 : v < 4294967296) (h3 : v ≠ 4294967291) : ¬ v.Prime := by
  have : v = 4294967280 ∨ v = 4294967281 ∨ v = 4294967282 ∨ v = 4294967283 ∨ v = 4294967284 ∨ v = 4294967285 ∨ v = 4294967286 ∨
      v = 4294967287 ∨ v = 4294967288 ∨ v = 4294967289 ∨ v = 4294967290 ∨ v = 4294967292 ∨ v = 4294967293 ∨ v = 4294967294 ∨
      v = 4294967295 := by omega
  rcases this with rfl | rfl | rfl | rfl | rfl | rfl | rfl | rfl | rfl | rfl | rfl | rfl | rfl | rfl | rfl <;> norm_num

end Maa.Prime
