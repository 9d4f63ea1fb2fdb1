import Verif.Model.CStr
import Verif.Model.Tab
import Mathlib.Tactic.Common

namespace Maa.CStr

theorem cstr_append (s : List Byte) (h : (0 : Byte) ∉ s) (rest : List Byte) : cstr (s ++ 0 :: rest) = .ok s := by
  induction s with
  | nil => simp [cstr]
  | cons b s ih =>
    simp only [List.mem_cons, not_or] at h
    simp [cstr, Ne.symm h.1, ih h.2, Res.bind]

theorem cstr_ofStr (s : List Byte) (h : (0 : Byte) ∉ s) : cstr (ofStr s) = .ok s := cstr_append s h []

theorem cstr_ok {buf s : List Byte} (h : cstr buf = .ok s) : (0 : Byte) ∉ s ∧ ∃ rest, buf = s ++ 0 :: rest := by
  induction buf generalizing s with
  | nil => simp [cstr] at h
  | cons b bs ih =>
    simp only [cstr] at h
    split at h
    · rename_i hb
      simp only [Res.ok.injEq] at h
      subst h
      exact ⟨by simp, bs, by simp [hb]⟩
    · rename_i hb
      cases hc : cstr bs <;> rw [hc] at h <;> simp [Res.bind] at h
      rename_i t
      subst h
      obtain ⟨h1, r, h2⟩ := ih hc
      exact ⟨by simp [h1, Ne.symm hb], r, by simp [h2]⟩

theorem cstr_iff {buf s : List Byte} : cstr buf = .ok s ↔ (0 : Byte) ∉ s ∧ ∃ rest, buf = s ++ 0 :: rest :=
  ⟨cstr_ok, fun ⟨h1, r, h2⟩ => h2 ▸ cstr_append s h1 r⟩

theorem cstr_ub {buf : List Byte} (h : (0 : Byte) ∉ buf) : cstr buf = .ub := by
  induction buf with
  | nil => rfl
  | cons b bs ih =>
    simp only [List.mem_cons, not_or] at h
    simp [cstr, Ne.symm h.1, ih h.2, Res.bind]

theorem cstr_take {buf s : List Byte} (h : cstr buf = .ok s) : buf.take (s.length + 1) = ofStr s := by
  obtain ⟨-, r, h2⟩ := cstr_ok h
  rw [h2, ofStr, show s ++ 0 :: r = (s ++ [0]) ++ r by simp, List.take_left' (by simp)]

theorem strcmp_zero {s t : List Byte} (hs : (0 : Byte) ∉ s) (ht : (0 : Byte) ∉ t) : strcmp s t = 0 ↔ s = t := by
  have hz : ∀ b : Byte, b.toNat = 0 → b = 0 := fun b h => UInt8.toNat_inj.1 h
  induction s generalizing t with
  | nil =>
    cases t with
    | nil => simp [strcmp]
    | cons b t =>
      simp only [List.mem_cons, not_or] at ht
      simp only [strcmp]
      constructor
      · intro h; exact absurd (hz b (by omega)).symm ht.1
      · simp
  | cons a s ih =>
    simp only [List.mem_cons, not_or] at hs
    cases t with
    | nil =>
      simp only [strcmp]
      constructor
      · intro h; exact absurd (hz a (by omega)).symm hs.1
      · simp
    | cons b t =>
      simp only [List.mem_cons, not_or] at ht
      simp only [strcmp]
      split
      · rename_i hab
        have := ih hs.2 ht.2
        simp [this, hab]
      · rename_i hab
        constructor
        · intro h
          exact absurd (UInt8.toNat_inj.1 (by omega)) hab
        · intro h; simp at h; exact absurd h.1 hab

theorem strcmp_self (s : List Byte) : strcmp s s = 0 := by
  induction s with
  | nil => rfl
  | cons a s ih => simp [strcmp, ih]

end Maa.CStr
