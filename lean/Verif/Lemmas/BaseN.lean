import Verif.Model.BaseN
import Verif.Spec.Digits
import Verif.Lemmas.CStr
import Mathlib.Tactic.Ring
import Mathlib.Tactic.IntervalCases

namespace Maa.BaseN

open Spec (alphabet64 alphabet26 value Writes)
open CStr (cstr)

theorem b64List_eq : b64List = alphabet64 := by decide +kernel
theorem b26List_eq : b26List = alphabet26 := by decide +kernel

/-- the index table inverts the list, for all 256 characters -/
theorem index64_fin : ∀ i : Fin 256, entry b64Index (UInt8.ofNat i) = if UInt8.ofNat i ∈ alphabet64 then alphabet64.idxOf (UInt8.ofNat i) else 100 := by
  decide +kernel
theorem index64 (c : Byte) : entry b64Index c = if c ∈ alphabet64 then alphabet64.idxOf c else 100 := by
  have := index64_fin ⟨c.toNat, c.toNat_lt⟩
  rwa [UInt8.ofNat_toNat] at this
theorem index26_fin : ∀ i : Fin 256, entry b26Index (UInt8.ofNat i) = if UInt8.ofNat i ∈ alphabet26 then alphabet26.idxOf (UInt8.ofNat i) else 100 := by
  decide +kernel
theorem index26 (c : Byte) : entry b26Index c = if c ∈ alphabet26 then alphabet26.idxOf c else 100 := by
  have := index26_fin ⟨c.toNat, c.toNat_lt⟩
  rwa [UInt8.ofNat_toNat] at this

theorem len64 : alphabet64.length = 64 := by decide +kernel
theorem len26 : alphabet26.length = 26 := by decide +kernel

theorem noNul64 : (0 : Byte) ∉ alphabet64 := by decide +kernel
theorem noNul26 : (0 : Byte) ∉ alphabet26 := by decide +kernel

theorem digit64 : ∀ i : Fin 64, alphabet64.idxOf (b64List.getD i 0) = i ∧ b64List.getD i 0 ∈ alphabet64 := by decide +kernel
theorem digit26 : ∀ i : Fin 26, alphabet26.idxOf (b26List.getD i 0) = i ∧ b26List.getD i 0 ∈ alphabet26 := by decide +kernel

theorem entry64 {c : Byte} (h : c ∈ alphabet64) : entry b64Index c = alphabet64.idxOf c ∧ alphabet64.idxOf c < 64 := by
  rw [index64, if_pos h]
  have := List.idxOf_lt_length_of_mem h
  rw [len64] at this
  exact ⟨rfl, this⟩

theorem entry26 {c : Byte} (h : c ∈ alphabet26) : entry b26Index c = alphabet26.idxOf c ∧ alphabet26.idxOf c < 26 := by
  rw [index26, if_pos h]
  have := List.idxOf_lt_length_of_mem h
  rw [len26] at this
  exact ⟨rfl, this⟩

/-- value with the least significant digit first -/
def valueR (al : List Byte) : List Byte → Nat
  | [] => 0
  | c :: cs => al.idxOf c + al.length * valueR al cs

theorem value_append (al s : List Byte) (c : Byte) : value al (s ++ [c]) = value al s * al.length + al.idxOf c := by
  simp [value]

theorem value_reverse (al s : List Byte) : value al s.reverse = valueR al s := by
  induction s with
  | nil => rfl
  | cons c s ih =>
    rw [List.reverse_cons, value_append, ih, valueR, Nat.mul_comm, Nat.add_comm]

theorem value_eq (al s : List Byte) : value al s = valueR al s.reverse := by
  rw [← value_reverse, List.reverse_reverse]

theorem valueR_lt {al : List Byte} (s : List Byte) (h : ∀ c ∈ s, c ∈ al) : valueR al s < al.length ^ s.length := by
  induction s with
  | nil => simp [valueR]
  | cons c s ih =>
    have h1 := ih (fun x hx => h x (by simp [hx]))
    have h2 := List.idxOf_lt_length_of_mem (h c (by simp))
    simp only [valueR, List.length_cons, Nat.pow_succ]
    have : al.length * (valueR al s + 1) ≤ al.length * al.length ^ s.length := Nat.mul_le_mul_left _ h1
    rw [Nat.mul_add] at this
    rw [Nat.mul_comm (al.length ^ s.length)]
    omega

theorem valueR_append (al a b : List Byte) : valueR al (a ++ b) = valueR al a + al.length ^ a.length * valueR al b := by
  induction a with
  | nil => simp [valueR]
  | cons c a ih =>
    simp only [List.cons_append, valueR, ih, List.length_cons, Nat.pow_succ]
    ring

/-! ## base 64 -/

theorem or_add {v k t : Nat} (h : v < 2 ^ k) : v ||| t * 2 ^ k = v + t * 2 ^ k := by
  have := Nat.shiftLeft_add_eq_or_of_lt h t
  rw [Nat.shiftLeft_eq] at this
  rw [Nat.or_comm, ← this, Nat.add_comm]

theorem b64Loop_append (a b : List Byte) : ∀ v o, b64Loop (a ++ b) v o = (b64Loop a v o).bind fun v' => b64Loop b v' (o + 6 * a.length) := by
  induction a with
  | nil => intro v o; simp [b64Loop, Res.bind]
  | cons c a ih =>
    intro v o
    simp only [List.cons_append, b64Loop]
    split
    · rfl
    · cases shiftInt (entry b64Index c) o <;> simp only [Res.bind]
      rw [ih]
      have : o + 6 + 6 * a.length = o + 6 * (c :: a).length := by simp only [List.length_cons]; omega
      rw [this]
      rfl

theorem b64Loop_ok (cs : List Byte) : ∀ v o, (∀ c ∈ cs, c ∈ alphabet64) → v < 2 ^ o → o + 6 * cs.length ≤ 36 →
    v + 2 ^ o * valueR alphabet64 cs < 2 ^ 31 → b64Loop cs v o = .ok (v + 2 ^ o * valueR alphabet64 cs) := by
  induction cs with
  | nil => intro v o _ _ _ _; simp [b64Loop, valueR]
  | cons c cs ih =>
    intro v o hc hv hl ht
    obtain ⟨h1, h2⟩ := entry64 (hc c (by simp))
    simp only [List.length_cons] at hl
    simp only [valueR, len64] at ht
    have e : v + 2 ^ o * (alphabet64.idxOf c + 64 * valueR alphabet64 cs) =
        (v + alphabet64.idxOf c * 2 ^ o) + 2 ^ (o + 6) * valueR alphabet64 cs := by
      rw [Nat.pow_add]; ring
    rw [e] at ht
    have hs : shiftInt (alphabet64.idxOf c) o = .ok (alphabet64.idxOf c * 2 ^ o) := by
      unfold shiftInt
      rw [if_neg]
      push Not
      exact ⟨by omega, by omega⟩
    simp only [b64Loop, h1, hs, Res.bind]
    rw [if_neg (by omega), or_add hv]
    rw [ih _ _ (fun x hx => hc x (by simp [hx])) ?_ (by omega) ht, valueR, len64, e]
    rw [Nat.pow_add]
    have : (alphabet64.idxOf c + 1) * 2 ^ o ≤ 64 * 2 ^ o := Nat.mul_le_mul_right _ (by omega)
    rw [Nat.add_mul] at this
    omega

theorem strip_ok {al : List Byte} {zero : Byte} (hz : al.head? = some zero) (n : Nat) : ∀ s : List Byte, s.length = n + 1 →
    (∀ c ∈ s, c ∈ al) → Writes al (n + 1) (value al s) (strip zero n s) := by
  have h0 : al.idxOf zero = 0 := by
    cases al with
    | nil => simp at hz
    | cons a al => simp at hz; subst hz; simp
  induction n with
  | zero =>
    intro s hl hs
    exact ⟨hs, by simp [strip, hl], Or.inl hl, rfl⟩
  | succ n ih =>
    intro s hl hs
    cases s with
    | nil => simp at hl
    | cons c t =>
      simp only [strip]
      split
      · rename_i hc
        exact ⟨hs, by simp at hl ⊢; omega, Or.inr (by rw [hz]; simpa using hc), rfl⟩
      · rename_i hc
        simp only [ne_eq, not_not] at hc
        subst hc
        have := ih t (by simpa using hl) (fun x hx => hs x (by simp [hx]))
        refine ⟨this.digits, ⟨this.length.1, by have := this.length.2; omega⟩, this.leading, ?_⟩
        rw [this.worth]
        simp [value, h0]

theorem mask (v m k : Nat) : (v &&& m) >>> k = (v / 2 ^ k) &&& (m / 2 ^ k) := by
  rw [Nat.shiftRight_and_distrib, Nat.shiftRight_eq_div_pow, Nat.shiftRight_eq_div_pow]

theorem and63 (x : Nat) : x &&& 63 = x % 64 := Nat.and_two_pow_sub_one_eq_mod x 6
theorem and3 (x : Nat) : x &&& 3 = x % 4 := Nat.and_two_pow_sub_one_eq_mod x 2

theorem b64Digits_eq (v : Nat) : b64Digits v = [b64List.getD (v / 2 ^ 30 % 4) 0, b64List.getD (v / 2 ^ 24 % 64) 0,
    b64List.getD (v / 2 ^ 18 % 64) 0, b64List.getD (v / 2 ^ 12 % 64) 0, b64List.getD (v / 2 ^ 6 % 64) 0,
    b64List.getD (v % 64) 0] := by
  unfold b64Digits
  rw [mask v 0xc0000000 30, mask v 0x3f000000 24, mask v 0x00fc0000 18, mask v 0x0003f000 12, mask v 0x00000fc0 6]
  norm_num only [and63, and3]

theorem value_digits (v : Nat) : value alphabet64 (b64Digits v) = v % 2 ^ 32 ∧ ∀ c ∈ b64Digits v, c ∈ alphabet64 := by
  rw [b64Digits_eq]
  have d : ∀ i, i < 64 → alphabet64.idxOf (b64List.getD i 0) = i ∧ b64List.getD i 0 ∈ alphabet64 := fun i hi => digit64 ⟨i, hi⟩
  constructor
  · simp only [value, List.foldl_cons, List.foldl_nil, len64]
    rw [(d (v / 2 ^ 30 % 4) (by omega)).1, (d (v / 2 ^ 24 % 64) (by omega)).1, (d (v / 2 ^ 18 % 64) (by omega)).1,
      (d (v / 2 ^ 12 % 64) (by omega)).1, (d (v / 2 ^ 6 % 64) (by omega)).1, (d (v % 64) (by omega)).1]
    omega
  · intro c hc
    simp only [List.mem_cons, List.not_mem_nil, or_false] at hc
    rcases hc with rfl | rfl | rfl | rfl | rfl | rfl
    · exact (d _ (by omega)).2
    · exact (d _ (by omega)).2
    · exact (d _ (by omega)).2
    · exact (d _ (by omega)).2
    · exact (d _ (by omega)).2
    · exact (d _ (by omega)).2

theorem b64Encode_ok (v : Nat) : Writes alphabet64 6 (v % 2 ^ 32) (b64Encode v) := by
  obtain ⟨h1, h2⟩ := value_digits v
  rw [← h1]
  exact strip_ok (by decide +kernel) 5 _ rfl h2

/-! ## base 26 -/

theorem b26Loop_ok (n : Nat) : ∀ (val : Nat) (acc : List Byte), (∀ c ∈ acc, c ∈ alphabet26) →
    (b26Loop n val acc).length = n + acc.length ∧ (∀ c ∈ b26Loop n val acc, c ∈ alphabet26) ∧
    valueR alphabet26 (b26Loop n val acc).reverse = val % 26 ^ n * 26 ^ acc.length + valueR alphabet26 acc.reverse := by
  induction n with
  | zero =>
    intro val acc hacc
    refine ⟨by simp [b26Loop], hacc, ?_⟩
    simp [b26Loop, Nat.mod_one]
  | succ n ih =>
    intro val acc hacc
    have d := digit26 ⟨val % 26, Nat.mod_lt _ (by decide)⟩
    simp only at d
    obtain ⟨h1, h2, h3⟩ := ih (val / 26) (b26List.getD (val % 26) 0 :: acc) (by
      intro c hc
      rcases List.mem_cons.1 hc with rfl | hc
      · exact d.2
      · exact hacc c hc)
    simp only [b26Loop]
    refine ⟨by rw [h1]; simp; omega, h2, ?_⟩
    rw [h3, List.reverse_cons, valueR_append, len26]
    simp only [valueR, d.1, List.length_reverse, List.length_cons, Nat.mul_zero, Nat.add_zero]
    have e : val % 26 ^ (n + 1) = val % 26 + 26 * (val / 26 % 26 ^ n) := by
      rw [Nat.pow_succ, Nat.mul_comm, Nat.mod_mul]
    rw [e]
    ring

theorem b26Result_ok (v : Nat) : Writes alphabet26 7 (v % 26 ^ 7) (strip (b26List.getD 0 0) 6 (b26Loop 7 v [])) := by
  obtain ⟨h1, h2, h3⟩ := b26Loop_ok 7 v [] (by simp)
  have : value alphabet26 (b26Loop 7 v []) = v % 26 ^ 7 := by
    rw [value_eq, h3]; simp [valueR]
  rw [← this]
  exact strip_ok (by decide +kernel) 6 _ h1 h2

theorem b26Loop'_append (a b : List Byte) : ∀ v o, b26Loop' (a ++ b) v o =
    (b26Loop' a v o).bind fun v' => b26Loop' b v' (o * 26 ^ a.length) := by
  induction a with
  | nil => intro v o; simp [b26Loop', Res.bind]
  | cons c a ih =>
    intro v o
    simp only [List.cons_append, b26Loop']
    split
    · rfl
    split
    · rfl
    split
    · rfl
    rw [ih]
    have : o * 26 * 26 ^ a.length = o * 26 ^ (c :: a).length := by
      rw [List.length_cons, Nat.pow_succ]; ring
    rw [this]

theorem b26Loop'_ok (cs : List Byte) : ∀ v o k, (∀ c ∈ cs, c ∈ alphabet26) → o = 26 ^ k → v < 26 ^ k → k + cs.length ≤ 6 →
    b26Loop' cs v o = .ok (v + o * valueR alphabet26 cs) := by
  induction cs with
  | nil => intro v o k _ _ _ _; simp [b26Loop', valueR]
  | cons c cs ih =>
    intro v o k hc ho hv hl
    obtain ⟨h1, h2⟩ := entry26 (hc c (by simp))
    simp only [List.length_cons] at hl
    have hk : o * 26 ≤ 26 ^ 6 := by
      rw [ho, ← Nat.pow_succ]
      exact Nat.pow_le_pow_right (by decide) (by omega)
    have h3 : (alphabet26.idxOf c + 1) * o ≤ 26 * o := Nat.mul_le_mul_right _ (by omega)
    rw [Nat.add_mul] at h3
    simp only [b26Loop', h1]
    rw [if_neg (by omega), if_neg (by omega), if_neg (by omega), Nat.mod_eq_of_lt (by omega)]
    rw [ih _ _ (k + 1) (fun x hx => hc x (by simp [hx])) (by rw [ho, Nat.pow_succ]) (by rw [Nat.pow_succ, ← ho]; omega) (by omega)]
    simp only [valueR, len26]
    congr 1
    ring

theorem wrap32_id {x : Int} (h : 0 ≤ x) (h' : x < 2 ^ 31) : wrap32 x = x := by unfold wrap32; omega

theorem toULong_nat {x : Int} {n : Nat} (h : x = n) (h' : n < 2 ^ 64) : toULong x = n := by unfold toULong; omega

/-- the wrapping loops agree with the exact ones when those are defined -/
theorem b26LoopWrap_of (cs : List Byte) : ∀ v o w, b26Loop' cs v o = .ok w → b26LoopWrap cs v o = .ok w := by
  induction cs with
  | nil => intro v o w h; exact h
  | cons c cs ih =>
    intro v o w h
    simp only [b26Loop'] at h
    simp only [b26LoopWrap]
    split at h
    · simp at h
    rename_i h1
    split at h
    · simp at h
    rename_i h2
    split at h
    · simp at h
    rename_i h3
    rw [if_neg h1]
    have e1 : wrap32 ((entry b26Index c : Int) * (o : Int)) = ((entry b26Index c * o : Nat) : Int) := by
      rw [wrap32_id]
      · push_cast; rfl
      · positivity
      · have : ((entry b26Index c * o : Nat) : Int) < 2 ^ 31 := by omega
        push_cast at this; exact this
    have e2 : wrap32 ((o : Int) * 26) = ((o * 26 : Nat) : Int) := by
      rw [wrap32_id] <;> omega
    rw [e1, e2, toULong_nat rfl (by omega)]
    exact ih _ _ _ h

theorem b64LoopWrap_of (cs : List Byte) : ∀ v o w, b64Loop cs v o = .ok w → b64LoopWrap cs v o = .ok w := by
  induction cs with
  | nil => intro v o w h; exact h
  | cons c cs ih =>
    intro v o w h
    simp only [b64Loop] at h
    simp only [b64LoopWrap]
    split at h
    · simp at h
    rename_i h1
    rw [if_neg h1]
    unfold shiftInt at h
    split at h
    · simp [Res.bind] at h
    rename_i h2
    push Not at h2
    simp only [Res.bind] at h
    rw [if_neg (by omega)]
    have e1 : wrap32 ((entry b64Index c : Int) * 2 ^ o) = ((entry b64Index c * 2 ^ o : Nat) : Int) := by
      rw [wrap32_id]
      · push_cast; rfl
      · positivity
      · have : ((entry b64Index c * 2 ^ o : Nat) : Int) < 2 ^ 31 := by omega
        push_cast at this; exact this
    rw [e1, toULong_nat rfl (by omega)]
    exact ih _ _ _ h

theorem b64LoopWrap_append (a b : List Byte) : ∀ v o, b64LoopWrap (a ++ b) v o = (b64LoopWrap a v o).bind fun v' => b64LoopWrap b v' (o + 6 * a.length) := by
  induction a with
  | nil => intro v o; simp [b64LoopWrap, Res.bind]
  | cons c a ih =>
    intro v o
    simp only [List.cons_append, b64LoopWrap]
    split
    · rfl
    split
    · rfl
    rw [ih]
    have : o + 6 + 6 * a.length = o + 6 * (c :: a).length := by simp only [List.length_cons]; omega
    rw [this]

theorem b26LoopWrap_append (a b : List Byte) (x y : Nat) : ∀ v (o : Nat), b26Loop' a v o = .ok x → y = o * 26 ^ a.length →
    b26LoopWrap (a ++ b) v o = b26LoopWrap b x y := by
  induction a with
  | nil =>
    intro v o h hy
    simp only [b26Loop', Res.ok.injEq] at h
    simp only [List.length_nil, Nat.pow_zero, Nat.mul_one] at hy
    rw [hy, h, List.nil_append]
  | cons c a ih =>
    intro v o h hy
    simp only [b26Loop'] at h
    simp only [List.cons_append, b26LoopWrap]
    split at h
    · simp at h
    rename_i h1
    split at h
    · simp at h
    rename_i h2
    split at h
    · simp at h
    rename_i h3
    rw [if_neg h1]
    have e1 : wrap32 ((entry b26Index c : Int) * (o : Int)) = ((entry b26Index c * o : Nat) : Int) := by
      rw [wrap32_id]
      · push_cast; rfl
      · positivity
      · have : ((entry b26Index c * o : Nat) : Int) < 2 ^ 31 := by omega
        push_cast at this; exact this
    have e2 : wrap32 ((o : Int) * 26) = ((o * 26 : Nat) : Int) := by
      rw [wrap32_id] <;> omega
    rw [e1, e2, toULong_nat rfl (by omega)]
    refine ih _ _ h ?_
    rw [hy, List.length_cons, Nat.pow_succ]; ring

end Maa.BaseN
