import Verif.Lemmas.NameTab
import Verif.Props.Hash
import Mathlib.Tactic.Ring

/-! # C52: the built-in hash and compare functions keep the contract of the tables -/

namespace Maa.CStr

/-- C52: strings compare equal exactly when they are equal, whatever follows their terminators, and equal strings hash equally. -/
theorem C52_strings (a b ra rb : List Byte) (ha : (0 : Byte) ∉ a) (hb : (0 : Byte) ∉ b) :
    ∃ c h k, hshStringCompare (some (a ++ 0 :: ra)) (some (b ++ 0 :: rb)) = .ok c ∧
      hshStringHash (some (a ++ 0 :: ra)) = .ok h ∧ hshStringHash (some (b ++ 0 :: rb)) = .ok k ∧
      (c = 0 ↔ a = b) ∧ (a = b → h = k) ∧ h < 2 ^ 64 := by
  have hlt : ∀ (s : List Byte) (h : Nat), h < 2 ^ 64 → strHashLoop h s < 2 ^ 64 := by
    intro s
    induction s with
    | nil => intro h hh; exact hh
    | cons x s ih => intro h _; exact ih _ (Nat.mod_lt _ (by decide))
  refine ⟨strcmp a b, strHashLoop 0 a, strHashLoop 0 b, ?_, ?_, ?_, strcmp_zero ha hb, ?_, hlt _ 0 (by decide)⟩
  · simp only [hshStringCompare, cstr_append _ ha, cstr_append _ hb, Res.bind]
  · simp only [hshStringHash, cstr_append _ ha, Res.bind]
  · simp only [hshStringHash, cstr_append _ hb, Res.bind]
  · rintro rfl; rfl

/-- A character as the C code on the modelled machine sees it: a number from -128 to 127. -/
def char (b : Byte) : Int := if b.toNat < 128 then b.toNat else (b.toNat : Int) - 256

/-- `c₁ Mⁿ + c₂ Mⁿ⁻¹ + … + cₙ M` for the characters `c₁ … cₙ` and `M` = 2654435789. -/
def polynomial : List Byte → Int
  | [] => 0
  | b :: bs => char b * 2654435789 ^ (bs.length + 1) + polynomial bs

theorem strHashLoop_eq : ∀ (s : List Byte) (h : Nat), h < 2 ^ 64 →
    (strHashLoop h s : Int) = (h * 2654435789 ^ s.length + polynomial s) % 2 ^ 64 := by
  intro s
  induction s with
  | nil => intro h hh; simp only [strHashLoop, List.length_nil, polynomial, Int.pow_zero, Int.mul_one, Int.add_zero]; omega
  | cons b s ih =>
    intro h _
    have hs : (2 ^ 64 : Int) ∣ (signed b : Int) - char b := by
      have hb : b.toNat < 256 := by have := b.toNat_lt; omega
      unfold signed char
      split
      · exact ⟨0, by omega⟩
      · exact ⟨1, by omega⟩
    simp only [strHashLoop, List.length_cons, polynomial]
    rw [ih _ (Nat.mod_lt _ (by decide))]
    have e : (h : Int) * 2654435789 ^ (s.length + 1) + (char b * 2654435789 ^ (s.length + 1) + polynomial s) =
        ((h + char b) * 2654435789) * 2654435789 ^ s.length + polynomial s := by rw [Int.pow_succ]; ring
    rw [e]
    have e2 : ((((h + signed b) % 2 ^ 64 * 2654435789 % 2 ^ 64 : Nat) : Int)) % 2 ^ 64 = ((h + char b) * 2654435789) % 2 ^ 64 := by
      obtain ⟨k, hk⟩ := hs
      have : (signed b : Int) = char b + 18446744073709551616 * k := by omega
      push_cast
      rw [Int.emod_emod_of_dvd _ (Int.dvd_refl _), Int.mul_emod, Int.emod_emod_of_dvd _ (Int.dvd_refl _), this, ← Int.add_assoc, Int.add_mul_emod_self_left, ← Int.mul_emod]
    rw [Int.add_emod, Int.mul_emod, e2, ← Int.mul_emod, ← Int.add_emod]

/-- C52: the hash of a string depends on its characters only, by a formula. -/
theorem C52_string_hash (s rest : List Byte) (hs : (0 : Byte) ∉ s) :
    hshStringHash (some (s ++ 0 :: rest)) = .ok (polynomial s % 2 ^ 64).toNat := by
  have := strHashLoop_eq s 0 (by decide)
  simp only [hshStringHash, cstr_append _ hs, Res.bind]
  congr 1
  rw [Int.natCast_zero, Int.zero_mul, Int.zero_add] at this
  omega

-- "a", and a character above 127
example : hshStringHash (some [97, 0, 9]) = .ok (97 * 2654435789) ∧ hshStringHash (some [200, 0]) = .ok (2 ^ 64 - 56 * 2654435789) := by
  decide +kernel

/-- C52: a NULL string key aborts. -/
theorem C52_null_string (b : Option (List Byte)) :
    hshStringHash none = .abort ∧ hshStringCompare none b = .abort ∧ hshStringCompare b none = .abort := by
  refine ⟨rfl, rfl, ?_⟩
  cases b <;> rfl

theorem strcmp_neg : ∀ (s t : List Byte), strcmp s t < 0 ↔ 0 < strcmp t s := by
  intro s
  induction s with
  | nil =>
    intro t
    cases t with
    | nil => simp [strcmp]
    | cons b t => simp only [strcmp]; omega
  | cons a s ih =>
    intro t
    cases t with
    | nil => simp only [strcmp]; omega
    | cons b t =>
      by_cases h : a = b
      · simp only [strcmp, if_pos h, if_pos h.symm]; exact ih t
      · simp only [strcmp, if_neg h, if_neg (Ne.symm h)]; omega

theorem byte_pos {a : Byte} (h : (0 : Byte) ≠ a) : 0 < a.toNat := by
  rcases Nat.eq_zero_or_pos a.toNat with h0 | h0
  · exact absurd (UInt8.toNat_inj.1 (show (0 : Byte).toNat = a.toNat by rw [h0]; rfl)) h
  · exact h0

theorem strcmp_trans : ∀ (s t u : List Byte), (0 : Byte) ∉ s → (0 : Byte) ∉ t → (0 : Byte) ∉ u →
    strcmp s t < 0 → strcmp t u < 0 → strcmp s u < 0 := by
  intro s
  induction s with
  | nil =>
    intro t u hs ht hu h1 h2
    cases t with
    | nil => simp [strcmp] at h1
    | cons b t =>
      cases u with
      | nil => simp only [strcmp] at h2; omega
      | cons c u =>
        have := byte_pos (fun h : (0 : Byte) = c => hu (by simp [h]))
        simp only [strcmp]; omega
  | cons a s ih =>
    intro t u hs ht hu h1 h2
    simp only [List.mem_cons, not_or] at hs
    cases t with
    | nil => simp only [strcmp] at h1; omega
    | cons b t =>
      simp only [List.mem_cons, not_or] at ht
      cases u with
      | nil => simp only [strcmp] at h2; omega
      | cons c u =>
        simp only [List.mem_cons, not_or] at hu
        by_cases hab : a = b
        · subst hab
          simp only [strcmp, if_true] at h1
          by_cases hac : a = c
          · subst hac
            simp only [strcmp, if_true] at h2 ⊢
            exact ih t u hs.2 ht.2 hu.2 h1 h2
          · simp only [strcmp, if_neg hac] at h2 ⊢
            exact h2
        · simp only [strcmp, if_neg hab] at h1
          by_cases hbc : b = c
          · subst hbc
            simp only [strcmp, if_neg hab]
            exact h1
          · simp only [strcmp, if_neg hbc] at h2
            have hac : a ≠ c := fun h => by
              rw [h] at h1; omega
            simp only [strcmp, if_neg hac]
            omega

/-- C52: `hsh_string_compare` is the order of a dictionary: negative for the smaller string, antisymmetric, transitive, total. -/
theorem C52_string_order (s t u : List Byte) (hs : (0 : Byte) ∉ s) (ht : (0 : Byte) ∉ t) (hu : (0 : Byte) ∉ u) :
    ∃ st ts tu su, hshStringCompare (some (ofStr s)) (some (ofStr t)) = .ok st ∧ hshStringCompare (some (ofStr t)) (some (ofStr s)) = .ok ts ∧
      hshStringCompare (some (ofStr t)) (some (ofStr u)) = .ok tu ∧ hshStringCompare (some (ofStr s)) (some (ofStr u)) = .ok su ∧
      (st < 0 ↔ 0 < ts) ∧ (st < 0 → tu < 0 → su < 0) ∧ (st < 0 ∨ s = t ∨ 0 < st) := by
  refine ⟨strcmp s t, strcmp t s, strcmp t u, strcmp s u, ?_, ?_, ?_, ?_, strcmp_neg s t, strcmp_trans s t u hs ht hu, ?_⟩
  · simp only [hshStringCompare, cstr_ofStr _ hs, cstr_ofStr _ ht, Res.bind]
  · simp only [hshStringCompare, cstr_ofStr _ hs, cstr_ofStr _ ht, Res.bind]
  · simp only [hshStringCompare, cstr_ofStr _ hu, cstr_ofStr _ ht, Res.bind]
  · simp only [hshStringCompare, cstr_ofStr _ hs, cstr_ofStr _ hu, Res.bind]
  · rcases Int.lt_trichotomy (strcmp s t) 0 with h | h | h
    · exact Or.inl h
    · exact Or.inr (Or.inl ((strcmp_zero hs ht).1 h))
    · exact Or.inr (Or.inr h)

example : hshStringCompare (some [97, 0, 9]) (some [97, 98, 0]) = .ok (-98) := rfl

theorem intptr_inj {p q : Nat} (hp : p < 2 ^ 64) (hq : q < 2 ^ 64) (h : intptr p = intptr q) : p = q := by
  unfold intptr at h
  split at h <;> split at h <;> omega

/-- C52: pointers compare equal exactly when they are the same; otherwise the result is 1 or -1 and the other way round when
the arguments are exchanged; and the comparison is transitive. -/
theorem C52_pointer_order (p q r : Nat) (hp : p < 2 ^ 64) (hq : q < 2 ^ 64) :
    (hshPointerCompare p q = 0 ↔ p = q) ∧
    (hshPointerCompare p q = -1 ∨ hshPointerCompare p q = 0 ∨ hshPointerCompare p q = 1) ∧
    (hshPointerCompare p q = -1 ↔ hshPointerCompare q p = 1) ∧
    (hshPointerCompare p q = -1 → hshPointerCompare q r = -1 → hshPointerCompare p r = -1) := by
  have hinj : intptr p = intptr q → p = q := intptr_inj hp hq
  refine ⟨⟨fun h => ?_, ?_⟩, ?_, ?_, ?_⟩
  · apply hinj
    unfold hshPointerCompare at h
    split at h
    · omega
    · split at h <;> omega
  · rintro rfl
    simp [hshPointerCompare]
  all_goals
    unfold hshPointerCompare
    repeat' split
    all_goals omega

/-- The number with these bytes, least significant first. -/
def littleEndian : List Byte → Nat
  | [] => 0
  | b :: bs => b.toNat + 256 * littleEndian bs

theorem ptrBytes_littleEndian (l : List Byte) (h : l.length = 8) : ptrBytes (littleEndian l) = l := by
  match l, h with
  | [b0, b1, b2, b3, b4, b5, b6, b7], _ =>
    have := b0.toNat_lt; have := b1.toNat_lt; have := b2.toNat_lt; have := b3.toNat_lt
    have := b4.toNat_lt; have := b5.toNat_lt; have := b6.toNat_lt; have := b7.toNat_lt
    have r : List.range 8 = [0, 1, 2, 3, 4, 5, 6, 7] := by decide
    unfold ptrBytes
    rw [r]
    simp only [List.map_cons, List.map_nil, littleEndian, List.cons.injEq, and_true]
    refine ⟨?_, ?_, ?_, ?_, ?_, ?_, ?_, ?_⟩ <;> apply UInt8.toNat_inj.1 <;> rw [UInt8.toNat_ofNat'] <;> omega

/-- C52: the hash of a pointer is a formula in its eight bytes. -/
theorem C52_pointer_hash_formula (l : List Byte) (h : l.length = 8) :
    hshPointerHash (littleEndian l) = (polynomial l % 2 ^ 32).toNat := by
  have := strHashLoop_eq l 0 (by decide)
  unfold hshPointerHash
  rw [ptrBytes_littleEndian l h]
  rw [Int.natCast_zero, Int.zero_mul, Int.zero_add] at this
  omega

example : littleEndian [0xa0, 0x84, 0xff, 0xff, 0xff, 0x7f, 0, 0] = 0x7fffffff84a0 ∧ hshPointerHash 0x7fffffff84a0 = 2018822520 := by
  decide +kernel

/-- C52: the hash of a pointer fits in 32 bits (that equal pointers hash equally is immediate: it is a function of the pointer). -/
theorem C52_pointer_hash (p : Nat) : hshPointerHash p < 2 ^ 32 := Nat.mod_lt _ (by decide)

example : hshPointerCompare 0x7fffffffffffffff 0x8000000000000000 = 1 ∧ hshPointerCompare 16 32 = -1 := by decide

/-- The key functions of a table of pointers. -/
def pointerOps : KeyOps (Fin (2 ^ 64)) where
  hash p := hshPointerHash p.val
  cmp p q := hshPointerCompare p.val q.val

theorem pointerOps_eqv (p q : Fin (2 ^ 64)) : eqv pointerOps p q = (p == q) := by
  have := (C52_pointer_order p.val q.val 0 p.isLt q.isLt).1
  rw [Bool.eq_iff_iff, eqv, beq_iff_eq, beq_iff_eq]
  exact this.trans Fin.ext_iff.symm

/-- C52: so a table created with the built-in pointer functions is a finite map keyed by the identity of pointers. -/
theorem C52_pointer_table (hist : List (Spec.HashOp (Fin (2 ^ 64)))) :
    (Hash.hshCreate.bind fun t => Spec.observe (Spec.run (Hash.hshStep pointerOps) t hist)) =
      Spec.observe (Spec.run (Spec.hashStep (· == ·)) {} hist) := by
  have law : pointerOps.Lawful := by
    have e : ∀ a b, pointerOps.cmp a b = 0 ↔ a = b := fun a b => by
      have := pointerOps_eqv a b
      rw [Bool.eq_iff_iff, eqv, beq_iff_eq, beq_iff_eq] at this
      exact this
    constructor
    · intro a; exact (e a a).2 rfl
    · intro a b h; exact (e b a).2 ((e a b).1 h).symm
    · intro a b c h1 h2; exact (e a c).2 (((e a b).1 h1).trans ((e b c).1 h2))
    · intro a b h; rw [(e a b).1 h]
  rw [Hash.C05_hash_table_is_finite_map pointerOps law hist]
  have : (eqv pointerOps) = (fun a b => a == b) := by funext a b; exact pointerOps_eqv a b
  rw [this]

end Maa.CStr

namespace Maa.NameTab

/-- The key functions of a table of strings are the built-in ones. -/
theorem strOps_builtin (a b : List Byte) (ha : (0 : Byte) ∉ a) (hb : (0 : Byte) ∉ b) :
    CStr.hshStringHash (some (CStr.ofStr a)) = .ok (strOps.hash a) ∧
    CStr.hshStringCompare (some (CStr.ofStr a)) (some (CStr.ofStr b)) = .ok (strOps.cmp a b) := by
  simp only [CStr.hshStringHash, CStr.hshStringCompare, CStr.cstr_ofStr _ ha, CStr.cstr_ofStr _ hb, Res.bind, strOps,
    takeWhile_self ha, takeWhile_self hb, and_self]

/-- C52: the built-in string functions satisfy what the tables ask of their key functions. -/
theorem C52_string_table : strOps.Lawful ∧ ∀ a b : List Byte, (0 : Byte) ∉ a → (0 : Byte) ∉ b →
    CStr.hshStringHash (some (CStr.ofStr a)) = .ok (strOps.hash a) ∧
    CStr.hshStringCompare (some (CStr.ofStr a)) (some (CStr.ofStr b)) = .ok (strOps.cmp a b) :=
  ⟨strOps_lawful, strOps_builtin⟩

end Maa.NameTab
