import Verif.Model.Bit
import Mathlib.Data.Nat.Digits.Defs
import Mathlib.Data.Nat.Digits.Lemmas
import Mathlib.Tactic.Ring

namespace Maa.Bit

/-- digits at even positions -/
def evens : List Nat → List Nat
  | [] => []
  | [a] => [a]
  | a :: _ :: t => a :: evens t

/-- sums of adjacent pairs -/
def pairs : List Nat → List Nat
  | [] => []
  | [a] => [a]
  | a :: b :: t => (a + b) :: pairs t

/-- adjacent sums: digits of `x / B + x` -/
def adj : List Nat → List Nat
  | [] => []
  | [a] => [a]
  | a :: b :: t => (a + b) :: adj (b :: t)

/-- mask with `k` double lanes -/
def mask (B : Nat) (k : Nat) : Nat := Nat.ofDigits (B * B) (List.replicate k (B - 1))

theorem and_split (w a b c d : Nat) (hb : b < 2 ^ w) (hd : d < 2 ^ w) :
    (b + 2 ^ w * a) &&& (d + 2 ^ w * c) = (b &&& d) + 2 ^ w * (a &&& c) := by
  have hbd : b &&& d < 2 ^ w := Nat.and_lt_two_pow _ hd
  apply Nat.eq_of_testBit_eq
  intro i
  rw [Nat.testBit_and, Nat.add_comm b, Nat.add_comm d, Nat.add_comm (b &&& d),
    Nat.testBit_two_pow_mul_add _ hb, Nat.testBit_two_pow_mul_add _ hd,
    Nat.testBit_two_pow_mul_add _ hbd]
  split <;> simp

theorem and_lane (w q d1 d0 m : Nat) (h0 : d0 < 2 ^ w) (h1 : d1 < 2 ^ w) :
    (d0 + 2 ^ w * (d1 + 2 ^ w * q)) &&& ((2 ^ w - 1) + 2 ^ w * 2 ^ w * m)
      = d0 + 2 ^ w * 2 ^ w * (q &&& m) := by
  have hp : 0 < 2 ^ w := Nat.two_pow_pos w
  have e1 : (2 ^ w - 1) + 2 ^ w * 2 ^ w * m = (2 ^ w - 1) + 2 ^ w * (0 + 2 ^ w * m) := by ring
  rw [e1, and_split w _ _ _ _ h0 (by omega), and_split w _ _ _ _ h1 (by omega)]
  rw [Nat.and_two_pow_sub_one_of_lt_two_pow h0]
  simp
  ring

theorem pick (w k : Nat) (L : List Nat) (hL : ∀ d ∈ L, d < 2 ^ w) (hk : L.length ≤ 2 * k) :
    Nat.ofDigits (2 ^ w) L &&& mask (2 ^ w) k = Nat.ofDigits (2 ^ w * 2 ^ w) (evens L) := by
  induction L using evens.induct generalizing k with
  | case1 => simp [evens]
  | case2 a =>
    obtain ⟨k, rfl⟩ : ∃ j, k = j + 1 := ⟨k - 1, by simp at hk; omega⟩
    have ha : a < 2 ^ w := hL a (by simp)
    have := and_lane w 0 0 a (mask (2 ^ w) k) ha (Nat.two_pow_pos w)
    simpa [evens, mask, List.replicate_succ, Nat.ofDigits_cons] using this
  | case3 a b t ih =>
    obtain ⟨k, rfl⟩ : ∃ j, k = j + 1 := ⟨k - 1, by simp at hk; omega⟩
    have ha : a < 2 ^ w := hL a (by simp)
    have hb : b < 2 ^ w := hL b (by simp)
    have := and_lane w (Nat.ofDigits (2 ^ w) t) b a (mask (2 ^ w) k) ha hb
    rw [ih k (fun d hd => hL d (by simp [hd])) (by simp at hk; omega)] at this
    simpa [evens, mask, List.replicate_succ, Nat.ofDigits_cons] using this

theorem ofDigits_div (B : Nat) (hB : 0 < B) (a : Nat) (t : List Nat) (ha : a < B) :
    Nat.ofDigits B (a :: t) / B = Nat.ofDigits B t := by
  rw [Nat.ofDigits_cons, Nat.add_mul_div_left _ _ hB, Nat.div_eq_of_lt ha]
  simp

theorem ofDigits_tail (B : Nat) (hB : 0 < B) (L : List Nat) (h : ∀ d ∈ L, d < B) :
    Nat.ofDigits B L / B = Nat.ofDigits B L.tail := by
  cases L with
  | nil => simp
  | cons a t => exact ofDigits_div B hB a t (h a (by simp))

theorem evens_add (B : Nat) (L : List Nat) :
    Nat.ofDigits B (evens L.tail) + Nat.ofDigits B (evens L) = Nat.ofDigits B (pairs L) := by
  induction L using pairs.induct with
  | case1 => simp [evens, pairs]
  | case2 a => simp [evens, pairs]
  | case3 a b t ih =>
    cases t with
    | nil => simp [evens, pairs, Nat.ofDigits_cons]; ring
    | cons c u =>
      simp only [evens, pairs, List.tail_cons, Nat.ofDigits_cons] at ih ⊢
      rw [← ih]
      ring

theorem adj_ofDigits (B : Nat) (L : List Nat) :
    Nat.ofDigits B L.tail + Nat.ofDigits B L = Nat.ofDigits B (adj L) := by
  induction L using adj.induct with
  | case1 => simp [adj]
  | case2 a => simp [adj]
  | case3 a b t ih =>
    simp only [adj, List.tail_cons, Nat.ofDigits_cons] at ih ⊢
    rw [← ih]
    ring

theorem evens_adj (L : List Nat) : evens (adj L) = pairs L := by
  induction L using pairs.induct with
  | case1 => rfl
  | case2 a => rfl
  | case3 a b t ih =>
    cases t with
    | nil => rfl
    | cons c u =>
      cases u with
      | nil => rfl
      | cons d v => simpa [adj, evens, pairs] using ih

theorem adj_length (L : List Nat) : (adj L).length = L.length := by
  induction L using adj.induct with
  | case1 => rfl
  | case2 a => rfl
  | case3 a b t ih => simpa [adj] using ih

theorem pairs_length (L : List Nat) : (pairs L).length = (L.length + 1) / 2 := by
  induction L using pairs.induct with
  | case1 => rfl
  | case2 a => simp [pairs]
  | case3 a b t ih => simp [pairs, ih]; omega

theorem pairs_sum (L : List Nat) : (pairs L).sum = L.sum := by
  induction L using pairs.induct with
  | case1 => rfl
  | case2 a => rfl
  | case3 a b t ih => simp [pairs, ih]; omega

theorem adj_le (L : List Nat) (c : Nat) (h : ∀ d ∈ L, d ≤ c) : ∀ d ∈ adj L, d ≤ 2 * c := by
  induction L using adj.induct with
  | case1 => simp [adj]
  | case2 a => simp [adj] at *; omega
  | case3 a b t ih =>
    intro d hd
    simp only [adj, List.mem_cons] at hd
    rcases hd with rfl | hd
    · have := h a (by simp); have := h b (by simp); omega
    · exact ih (fun d hd => h d (by simp at hd ⊢; tauto)) d hd

theorem pairs_le (L : List Nat) (c : Nat) (h : ∀ d ∈ L, d ≤ c) : ∀ d ∈ pairs L, d ≤ 2 * c := by
  induction L using pairs.induct with
  | case1 => simp [pairs]
  | case2 a => simp [pairs] at *; omega
  | case3 a b t ih =>
    intro d hd
    simp only [pairs, List.mem_cons] at hd
    rcases hd with rfl | hd
    · have := h a (by simp); have := h b (by simp); omega
    · exact ih (fun d hd => h d (by simp [hd])) d hd

theorem ofDigits_lt (B n : Nat) (L : List Nat) (h : ∀ d ∈ L, d < B) (hn : L.length ≤ n)
    (hB : 1 < B) : Nat.ofDigits B L < B ^ n :=
  lt_of_lt_of_le (Nat.ofDigits_lt_base_pow_length hB h) (Nat.pow_le_pow_right (by omega) hn)

/-- mask-then-add step (`(x >> w & M) + (x & M)`) on Nat -/
theorem stepA (w k : Nat) (L : List Nat) (hL : ∀ d ∈ L, d < 2 ^ w) (hk : L.length ≤ 2 * k) :
    (Nat.ofDigits (2 ^ w) L / 2 ^ w &&& mask (2 ^ w) k) + (Nat.ofDigits (2 ^ w) L &&& mask (2 ^ w) k)
      = Nat.ofDigits (2 ^ w * 2 ^ w) (pairs L) := by
  rw [ofDigits_tail _ (Nat.two_pow_pos w) L hL,
    pick w k L.tail (fun d hd => hL d (List.mem_of_mem_tail hd)) (by simp; omega),
    pick w k L hL hk, evens_add]

/-- add-then-mask step (`((x >> w) + x) & M`) on Nat -/
theorem stepB (w k : Nat) (L : List Nat) (hL : ∀ d ∈ L, 2 * d < 2 ^ w) (hk : L.length ≤ 2 * k) :
    (Nat.ofDigits (2 ^ w) L / 2 ^ w + Nat.ofDigits (2 ^ w) L) &&& mask (2 ^ w) k
      = Nat.ofDigits (2 ^ w * 2 ^ w) (pairs L) := by
  rw [ofDigits_tail _ (Nat.two_pow_pos w) L (fun d hd => by have := hL d hd; omega), adj_ofDigits,
    pick w k, evens_adj]
  · intro d hd
    have hc : ∀ d ∈ L, d ≤ (2 ^ w - 1) / 2 := fun d hd => by have := hL d hd; omega
    have := adj_le L _ hc d hd
    have := Nat.two_pow_pos w
    omega
  · rw [adj_length]; exact hk

/-- no overflow in the sum of `stepB` -/
theorem stepB_lt (w n : Nat) (hw : 0 < w) (L : List Nat) (hL : ∀ d ∈ L, 2 * d < 2 ^ w)
    (hn : L.length ≤ n) :
    Nat.ofDigits (2 ^ w) L / 2 ^ w + Nat.ofDigits (2 ^ w) L < (2 ^ w) ^ n := by
  rw [ofDigits_tail _ (Nat.two_pow_pos w) L (fun d hd => by have := hL d hd; omega), adj_ofDigits]
  apply ofDigits_lt
  · intro d hd
    have hc : ∀ d ∈ L, d ≤ (2 ^ w - 1) / 2 := fun d hd => by have := hL d hd; omega
    have := adj_le L _ hc d hd
    have := Nat.two_pow_pos w
    omega
  · rw [adj_length]; exact hn
  · exact Nat.one_lt_two_pow (by omega)

/-- the bits of `x`, low first, as 0/1 numbers -/
def bitList (n x : Nat) : List Nat := (List.range n).map fun i => (x.testBit i).toNat

theorem ofDigits_bitList (n x : Nat) : Nat.ofDigits 2 (bitList n x) = x % 2 ^ n := by
  induction n generalizing x with
  | zero => simp [bitList, Nat.mod_one]
  | succ n ih =>
    have : bitList (n + 1) x = (x.testBit 0).toNat :: bitList n (x / 2) := by
      simp [bitList, List.range_succ_eq_map, Function.comp_def, Nat.testBit_succ]
    rw [this, Nat.ofDigits_cons, ih, Nat.testBit_zero]
    have h2 : x % 2 ^ (n + 1) = x % 2 + 2 * (x / 2 % 2 ^ n) := by
      rw [pow_succ, Nat.mul_comm, Nat.mod_mul]
    rw [h2]
    rcases Nat.mod_two_eq_zero_or_one x with h | h <;> simp [h]

theorem bitList_le (n x : Nat) : ∀ d ∈ bitList n x, d ≤ 1 := by
  intro d hd
  simp only [bitList, List.mem_map] at hd
  obtain ⟨i, -, rfl⟩ := hd
  exact Bool.toNat_le _

theorem bitList_length (n x : Nat) : (bitList n x).length = n := by simp [bitList]

theorem bitList_sum (n x : Nat) :
    (bitList n x).sum = ((List.range n).filter fun i => x.testBit i).length := by
  unfold bitList
  generalize List.range n = l
  induction l with
  | nil => rfl
  | cons a t ih =>
    simp only [List.map_cons, List.sum_cons, ih, List.filter_cons]
    cases x.testBit a <;> simp; omega

theorem stepA_lt (w k n : Nat) (hw : 0 < w) (L : List Nat) (hL : ∀ d ∈ L, d < 2 ^ w) (hk : L.length ≤ 2 * k)
    (hn : (pairs L).length ≤ n) :
    (Nat.ofDigits (2 ^ w) L / 2 ^ w &&& mask (2 ^ w) k) + (Nat.ofDigits (2 ^ w) L &&& mask (2 ^ w) k)
      < (2 ^ w * 2 ^ w) ^ n := by
  rw [stepA w k L hL hk]
  have h1 : 1 < 2 ^ w := Nat.one_lt_two_pow (by omega)
  apply ofDigits_lt _ _ _ _ hn
  · nlinarith
  · intro d hd
    have := pairs_le L (2 ^ w - 1) (fun d hd => by have := hL d hd; omega) d hd
    nlinarith [Nat.sub_add_cancel (le_of_lt h1)]

/-- one BitVec step of kind A -/
theorem bvA {v : Nat} (w k n : Nat) (x m : BitVec v) (L : List Nat) (hw : 0 < w)
    (hx : x.toNat = Nat.ofDigits (2 ^ w) L) (hL : ∀ d ∈ L, d < 2 ^ w) (hk : L.length ≤ 2 * k)
    (hn : (pairs L).length ≤ n) (hv : (2 ^ w * 2 ^ w) ^ n = 2 ^ v) (hm : m.toNat = mask (2 ^ w) k) :
    (((x >>> w) &&& m) + (x &&& m)).toNat = Nat.ofDigits (2 ^ w * 2 ^ w) (pairs L) := by
  rw [BitVec.toNat_add, BitVec.toNat_and, BitVec.toNat_and, BitVec.toNat_ushiftRight, hm, hx,
    Nat.shiftRight_eq_div_pow, Nat.mod_eq_of_lt, stepA w k L hL hk]
  rw [← hv]
  exact stepA_lt w k n hw L hL hk hn

/-- one BitVec step of kind B -/
theorem bvB {v : Nat} (w k n : Nat) (x m : BitVec v) (L : List Nat) (hw : 0 < w)
    (hx : x.toNat = Nat.ofDigits (2 ^ w) L) (hL : ∀ d ∈ L, 2 * d < 2 ^ w) (hk : L.length ≤ 2 * k)
    (hn : L.length ≤ n) (hv : (2 ^ w) ^ n = 2 ^ v) (hm : m.toNat = mask (2 ^ w) k) :
    (((x >>> w) + x) &&& m).toNat = Nat.ofDigits (2 ^ w * 2 ^ w) (pairs L) := by
  rw [BitVec.toNat_and, BitVec.toNat_add, BitVec.toNat_ushiftRight, hm, hx,
    Nat.shiftRight_eq_div_pow, Nat.mod_eq_of_lt, stepB w k L hL hk]
  rw [← hv]
  exact stepB_lt w n hw L hL hn

theorem toNat_bitList {v : Nat} (x : BitVec v) :
    x.toNat = Nat.ofDigits (2 ^ 1) (bitList v x.toNat) := by
  rw [pow_one, ofDigits_bitList, Nat.mod_eq_of_lt x.isLt]

theorem len2 (M : List Nat) (h : M.length = 2) : ∃ a b, M = [a, b] := by
  match M, h with
  | [a, b], _ => exact ⟨a, b, rfl⟩

theorem len4 (M : List Nat) (h : M.length = 4) : ∃ a b c d, M = [a, b, c, d] := by
  match M, h with
  | [a, b, c, d], _ => exact ⟨a, b, c, d, rfl⟩

theorem and_ff (n : Nat) : n &&& 255 = n % 256 := Nat.and_two_pow_sub_one_eq_mod n 8

theorem cnt64_eq (x0 : BitVec 64) : (bitCnt64 x0).toNat = (bitList 64 x0.toNat).sum := by
  set L0 := bitList 64 x0.toNat with hL0
  have l0 : L0.length = 64 := bitList_length _ _
  have b0 : ∀ d ∈ L0, d ≤ 1 := bitList_le _ _
  have l1 : (pairs L0).length = 32 := by rw [pairs_length, l0]
  have b1 := pairs_le L0 1 b0
  have l2 : (pairs (pairs L0)).length = 16 := by rw [pairs_length, l1]
  have b2 := pairs_le _ _ b1
  have l3 : (pairs (pairs (pairs L0))).length = 8 := by rw [pairs_length, l2]
  have b3 := pairs_le _ _ b2
  have l4 : (pairs (pairs (pairs (pairs L0)))).length = 4 := by rw [pairs_length, l3]
  have b4 := pairs_le _ _ b3
  have l5 : (pairs (pairs (pairs (pairs (pairs L0))))).length = 2 := by rw [pairs_length, l4]
  have b5 := pairs_le _ _ b4
  unfold bitCnt64
  extract_lets y0 x1 x2 x3 x4 x5
  have h1 := bvA 1 32 32 x0 0x5555555555555555#64 L0 (by norm_num) (toNat_bitList x0)
    (fun d hd => by have := b0 d hd; omega) (by omega) (by omega) (by norm_num) (by decide)
  have h2 := bvA 2 16 16 x1 0x3333333333333333#64 _ (by norm_num) h1
    (fun d hd => by have := b1 d hd; omega) (by omega) (by omega) (by norm_num) (by decide)
  have h3 := bvB 4 8 16 x2 0x0f0f0f0f0f0f0f0f#64 _ (by norm_num) h2
    (fun d hd => by have := b2 d hd; omega) (by omega) (by omega) (by norm_num) (by decide)
  have h4 := bvB 8 4 8 x3 0x00ff00ff00ff00ff#64 _ (by norm_num) h3
    (fun d hd => by have := b3 d hd; omega) (by omega) (by omega) (by norm_num) (by decide)
  have h5 := bvB 16 2 4 x4 0x0000ffff0000ffff#64 _ (by norm_num) h4
    (fun d hd => by have := b4 d hd; omega) (by omega) (by omega) (by norm_num) (by decide)
  have hs : (pairs (pairs (pairs (pairs (pairs L0))))).sum = L0.sum := by simp [pairs_sum]
  rw [← hs]
  generalize pairs (pairs (pairs (pairs (pairs L0)))) = M at h5 l5 b5
  obtain ⟨a, b, rfl⟩ := len2 M l5
  have ha := b5 a (by simp)
  have hb := b5 b (by simp)
  have hx5 : x5.toNat = a + 4294967296 * b := by
    rw [show x5.toNat = _ from h5]; simp [Nat.ofDigits_cons]
  rw [BitVec.truncate, BitVec.toNat_setWidth, BitVec.toNat_and, BitVec.toNat_add,
    BitVec.toNat_ushiftRight, hx5, Nat.shiftRight_eq_div_pow]
  rw [show (0xff#64).toNat = 255 from rfl, and_ff]
  simp only [List.sum_cons, List.sum_nil]
  omega

theorem cnt32_eq (x0 : BitVec 32) : (bitCnt32 x0).toNat = (bitList 32 x0.toNat).sum := by
  set L0 := bitList 32 x0.toNat with hL0
  have l0 : L0.length = 32 := bitList_length _ _
  have b0 : ∀ d ∈ L0, d ≤ 1 := bitList_le _ _
  have l1 : (pairs L0).length = 16 := by rw [pairs_length, l0]
  have b1 := pairs_le L0 1 b0
  have l2 : (pairs (pairs L0)).length = 8 := by rw [pairs_length, l1]
  have b2 := pairs_le _ _ b1
  have l3 : (pairs (pairs (pairs L0))).length = 4 := by rw [pairs_length, l2]
  have b3 := pairs_le _ _ b2
  unfold bitCnt32
  extract_lets y0 x1 x2 x3 x4
  have h1 := bvA 1 16 16 x0 0x55555555#32 L0 (by norm_num) (toNat_bitList x0)
    (fun d hd => by have := b0 d hd; omega) (by omega) (by omega) (by norm_num) (by decide)
  have h2 := bvA 2 8 8 x1 0x33333333#32 _ (by norm_num) h1
    (fun d hd => by have := b1 d hd; omega) (by omega) (by omega) (by norm_num) (by decide)
  have h3 := bvB 4 4 8 x2 0x0f0f0f0f#32 _ (by norm_num) h2
    (fun d hd => by have := b2 d hd; omega) (by omega) (by omega) (by norm_num) (by decide)
  have hs : (pairs (pairs (pairs L0))).sum = L0.sum := by simp [pairs_sum]
  rw [← hs]
  generalize pairs (pairs (pairs L0)) = M at h3 l3 b3
  obtain ⟨a, b, c, d, rfl⟩ := len4 M l3
  have ha := b3 a (by simp)
  have hb := b3 b (by simp)
  have hc := b3 c (by simp)
  have hd := b3 d (by simp)
  have hx3 : x3.toNat = a + 256 * (b + 256 * (c + 256 * d)) := by
    rw [show x3.toNat = _ from h3]; simp [Nat.ofDigits_cons]
  have hx4 : x4.toNat = (a + b) + 256 * ((b + c) + 256 * ((c + d) + 256 * d)) := by
    show ((x3 >>> 8) + x3).toNat = _
    rw [BitVec.toNat_add, BitVec.toNat_ushiftRight, hx3, Nat.shiftRight_eq_div_pow]
    omega
  rw [BitVec.toNat_and, BitVec.toNat_add, BitVec.toNat_ushiftRight, hx4,
    Nat.shiftRight_eq_div_pow]
  rw [show (0xff#32).toNat = 255 from rfl, and_ff]
  clear hx3 hx4 h1 h2 h3 hs
  have hq : (a + b + 256 * (b + c + 256 * (c + d + 256 * d))) / 2 ^ 16 = c + d + 256 * d := by
    omega
  rw [hq]
  have ht : a + b + 256 * (b + c + 256 * (c + d + 256 * d)) + (c + d + 256 * d) =
      (a + b + c + d) + 256 * (b + c + d + 256 * (c + d + 256 * d)) := by ring
  have hlt : (a + b + c + d) + 256 * (b + c + d + 256 * (c + d + 256 * d)) < 2 ^ 32 := by omega
  rw [ht, Nat.mod_eq_of_lt hlt]
  simp only [List.sum_cons, List.sum_nil]
  omega

end Maa.Bit
