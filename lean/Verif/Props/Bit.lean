import Verif.Model.Bit
import Verif.Lemmas.Bit

/-! # Properties C03, C04: maa/bit.c -/

namespace Maa.Bit

/-- The answer of a call of `bit_tst` is a non-zero `int`. -/
def Tests (flags : BitVec 64) (bit : Int) : Prop :=
  ∃ r, bitTst flags bit = .ok r ∧ r ≠ 0#32

/-- The answer of a call of `bit_tst` is zero. -/
def TestsZero (flags : BitVec 64) (bit : Int) : Prop := bitTst flags bit = .ok 0#32

theorem oneShl_ok (n : Nat) (h : n < 64) : oneShl (n : Int) = .ok (1#64 <<< n) := by
  unfold oneShl
  rw [if_pos (by omega)]
  simp

theorem bitTst_nat (f : BitVec 64) (n : Nat) (h : n < 64) :
    bitTst f n = .ok (if f.getLsbD n ∧ n < 32 then 1#32 <<< n else 0#32) := by
  unfold bitTst
  rw [oneShl_ok n h]
  simp only [Res.bind_ok, Res.pure_eq, Res.ok.injEq]
  apply BitVec.eq_of_getLsbD_eq
  intro i hi
  by_cases hin : i = n
  · subst hin
    by_cases hb : f.getLsbD i
    · simp [hb, hi, h]
    · rw [if_neg (by simp [hb])]
      simp only [Bool.not_eq_true] at hb
      simp [hi, hb]
  · have : ¬ (i - n = 0 ∧ n ≤ i) := by omega
    by_cases hb : f.getLsbD n <;> by_cases hn : n < 32 <;> simp [hb, hn, hi] <;> intros <;> omega

theorem tests_iff (f : BitVec 64) (n : Nat) (h : n < 64) :
    Tests f n ↔ (f.getLsbD n = true ∧ n < 32) := by
  unfold Tests
  rw [bitTst_nat f n h]
  constructor
  · rintro ⟨r, h1, h2⟩
    by_contra hc
    rw [if_neg hc] at h1
    simp only [Res.ok.injEq] at h1
    exact h2 h1.symm
  · intro hc
    refine ⟨_, rfl, ?_⟩
    rw [if_pos hc]
    intro h0
    have := congrArg (fun x => x.getLsbD n) h0
    simp [hc.2] at this

theorem testsZero_iff (f : BitVec 64) (n : Nat) (h : n < 64) :
    TestsZero f n ↔ ¬ Tests f n := by
  unfold TestsZero Tests
  rw [bitTst_nat f n h]
  simp

/-- C03, proved part: for tested bits 0..31 the three calls behave as a bit vector: the set bit tests
non-zero, the cleared bit tests zero, every other bit tests as before.  The modified bit `b` ranges
over all of 0..63.  Missing from the full property: testing bits 32..63, where the code is wrong
(`C03_refuted_high_bits`). -/
theorem C03_bits_partial (f : BitVec 64) (b : Nat) (hb : b < 64) :
    (∃ f', bitSet f b = .ok f' ∧ (b < 32 → Tests f' b) ∧
      ∀ c : Nat, c < 32 → c ≠ b → (Tests f' c ↔ Tests f c)) ∧
    (∃ f', bitClr f b = .ok f' ∧ TestsZero f' b ∧
      ∀ c : Nat, c < 32 → c ≠ b → (Tests f' c ↔ Tests f c)) := by
  constructor
  · refine ⟨f ||| (1#64 <<< b), ?_, fun h => ?_, fun c hc hne => ?_⟩
    · simp [bitSet, oneShl_ok b hb]
    · rw [tests_iff _ _ hb]; simp [hb, h]
    · rw [tests_iff _ _ (by omega), tests_iff _ _ (by omega)]
      have : ¬ (c - b = 0 ∧ b ≤ c) := by omega
      simp only [hc, and_true]
      rw [BitVec.getLsbD_or]
      simp
      intros; omega
  · refine ⟨f &&& ~~~(1#64 <<< b), ?_, ?_, fun c hc hne => ?_⟩
    · simp [bitClr, oneShl_ok b hb]
    · rw [testsZero_iff _ _ hb, tests_iff _ _ hb]; simp [hb]
    · rw [tests_iff _ _ (by omega), tests_iff _ _ (by omega)]
      simp only [hc, and_true]
      rw [BitVec.getLsbD_and]
      have : (c < b ∨ c - b ≠ 0) := by omega
      simp
      intros; omega

/-- What the code really does, for all 64 bits: every bit is stored faithfully by `bit_set` and
`bit_clr` (the word itself is right for every bit). -/
theorem C03_word_exact (f : BitVec 64) (b : Nat) (hb : b < 64) :
    (∃ f', bitSet f b = .ok f' ∧ ∀ c, f'.getLsbD c = (decide (c = b) || f.getLsbD c)) ∧
    (∃ f', bitClr f b = .ok f' ∧ ∀ c, f'.getLsbD c = (decide (c ≠ b) && f.getLsbD c)) := by
  constructor
  · refine ⟨f ||| (1#64 <<< b), by simp [bitSet, oneShl_ok b hb], fun c => ?_⟩
    by_cases h : c = b
    · subst h; simp [hb]
    · rw [BitVec.getLsbD_or]
      simp [h]
      intros; omega
  · refine ⟨f &&& ~~~(1#64 <<< b), by simp [bitClr, oneShl_ok b hb], fun c => ?_⟩
    by_cases h : c = b
    · subst h; simp [hb]
    · rw [BitVec.getLsbD_and]
      by_cases hc : c < 64
      · have : (c < b ∨ c - b ≠ 0) := by omega
        simp [h, hc]
        intros; omega
      · rw [BitVec.getLsbD_of_ge f c (by omega)]; simp

/-- C03 is false of the code for every bit from 32 to 63: after `bit_set(f,b)`, `bit_tst(f,b)` is
zero, because the result is truncated to `int`. -/
theorem C03_refuted_high_bits (f : BitVec 64) (b : Nat) (h32 : 32 ≤ b) (hb : b < 64) :
    ∃ f', bitSet f b = .ok f' ∧ TestsZero f' b := by
  refine ⟨f ||| (1#64 <<< b), by simp [bitSet, oneShl_ok b hb], ?_⟩
  rw [testsZero_iff _ _ hb, tests_iff _ _ hb]
  omega

/-- Bit numbers outside 0..63 are undefined behaviour in all three functions. -/
theorem C03_shift_ub (f : BitVec 64) (b : Int) (h : b < 0 ∨ 64 ≤ b) :
    bitSet f b = .ub ∧ bitClr f b = .ub ∧ bitTst f b = .ub := by
  have : oneShl b = .ub := by unfold oneShl; rw [if_neg (by omega)]
  simp [bitSet, bitClr, bitTst, this]

example : ∃ f', bitSet 0x10#64 (31 : Nat) = .ok f' ∧ Tests f' (31 : Nat) ∧ Tests f' (4 : Nat) ∧
    ¬ Tests f' (5 : Nat) := by
  obtain ⟨⟨f', h1, h2, h3⟩, -⟩ := C03_bits_partial 0x10#64 31 (by norm_num)
  refine ⟨f', h1, h2 (by norm_num), ?_, ?_⟩
  · rw [h3 4 (by norm_num) (by norm_num), tests_iff _ _ (by norm_num)]; decide
  · rw [h3 5 (by norm_num) (by norm_num), tests_iff _ _ (by norm_num)]; decide

/-- Specification of C04: the number of positions below `n` holding a 1. -/
def popCount {n : Nat} (f : BitVec n) : Nat :=
  ((List.range n).filter fun b => f.getLsbD b).length

/-- C04: on LP64, `bit_cnt` is the number of set bits, for all 2^64 values. -/
theorem C04_bit_cnt (f : BitVec 64) : (bitCnt64 f).toInt = popCount f := by
  have h := cnt64_eq f
  rw [bitList_sum] at h
  have hle : ((List.range 64).filter fun i => f.toNat.testBit i).length ≤ 64 := by
    have := List.length_filter_le (fun i => f.toNat.testBit i) (List.range 64)
    simpa using this
  rw [BitVec.toInt_eq_toNat_of_lt (by omega), h]
  rfl

/-- C04 for the 32-bit `unsigned long` branch of the same function. -/
theorem C04_bit_cnt_32 (f : BitVec 32) : (bitCnt32 f).toInt = popCount f := by
  have h := cnt32_eq f
  rw [bitList_sum] at h
  have hle : ((List.range 32).filter fun i => f.toNat.testBit i).length ≤ 32 := by
    have := List.length_filter_le (fun i => f.toNat.testBit i) (List.range 32)
    simpa using this
  rw [BitVec.toInt_eq_toNat_of_lt (by omega), h]
  rfl

example : popCount 0xF0F0000000000001#64 = 9 ∧ bitCnt64 0xF0F0000000000001#64 = 9#32 := by decide

end Maa.Bit
