import Verif.Model.Flags
import Verif.Lemmas.NameTab

namespace Maa.Flags

open Spec (Flag group OneLowBit Switches codeGroup)

/-- every non-zero word has a lowest set bit -/
theorem strip_pow (n : Nat) (x : BitVec 64) (h : x.toNat < 2 ^ n) :
    (strip n x = 1 ↔ ∃ k, x.toNat = 2 ^ k) ∧ (strip n x = 0 ∨ strip n x &&& 1 ≠ 0) := by
  induction n generalizing x with
  | zero =>
    have hx : x = 0 := by apply BitVec.eq_of_toNat_eq; simp at h ⊢; exact h
    subst hx
    simp only [strip]
    refine ⟨⟨fun h => by simp at h, fun ⟨k, hk⟩ => ?_⟩, by simp⟩
    simp at hk
    have := Nat.two_pow_pos k
    omega
  | succ n ih =>
    have e1 : (x &&& 1 = 0) ↔ x.toNat % 2 = 0 := by
      rw [← BitVec.toNat_inj]
      simp [BitVec.toNat_and]
    have e0 : (x = 0) ↔ x.toNat = 0 := by rw [← BitVec.toNat_inj]; simp
    have es : (x >>> 1).toNat = x.toNat / 2 := by simp [BitVec.toNat_ushiftRight, Nat.shiftRight_eq_div_pow]
    simp only [strip]
    by_cases hc : x ≠ 0 ∧ x &&& 1 = 0
    · rw [if_pos hc]
      obtain ⟨h1, h2⟩ := hc
      rw [e1] at h2
      rw [Ne, e0] at h1
      have := ih (x >>> 1) (by rw [es]; rw [Nat.pow_succ] at h; omega)
      refine ⟨this.1.trans ?_, this.2⟩
      rw [es]
      constructor
      · rintro ⟨k, hk⟩
        refine ⟨k + 1, ?_⟩
        rw [Nat.pow_succ]
        omega
      · rintro ⟨k, hk⟩
        cases k with
        | zero => simp at hk; omega
        | succ k => exact ⟨k, by rw [Nat.pow_succ] at hk; omega⟩
    · rw [if_neg hc]
      by_cases hx : x = 0
      · subst hx
        refine ⟨⟨fun h => by simp at h, fun ⟨k, hk⟩ => ?_⟩, Or.inl rfl⟩
        simp at hk
        have := Nat.two_pow_pos k
        omega
      · have h2 : ¬ x &&& 1 = 0 := fun h => hc ⟨hx, h⟩
        refine ⟨⟨fun h => ⟨0, by rw [h]; rfl⟩, fun ⟨k, hk⟩ => ?_⟩, Or.inr h2⟩
        rw [e1] at h2
        cases k with
        | zero => apply BitVec.eq_of_toNat_eq; simpa using hk
        | succ k => rw [Nat.pow_succ] at hk; omega

/-- 64 rounds always suffice: the loop condition is false afterwards -/
theorem strip_done (x : BitVec 64) : ¬ (strip 64 x ≠ 0 ∧ strip 64 x &&& 1 = 0) := by
  rcases (strip_pow 64 x x.isLt).2 with h | h
  · exact fun h' => h'.1 h
  · exact fun h' => h h'.2

theorem mask_bit (f : Flag) (i : Nat) : (f &&& 0x3fffffff).getLsbD i = (f.getLsbD i && decide (i < 30)) := by
  rw [BitVec.getLsbD_and]
  by_cases h : i < 64
  · congr 1
    revert i
    decide
  · rw [BitVec.getLsbD_of_ge f i (by omega)]; rfl

theorem oneLowBit_iff (f : Flag) : OneLowBit f ↔ ∃ k, (f &&& 0x3fffffff).toNat = 2 ^ k := by
  have hlt : (f &&& 0x3fffffff).toNat < 2 ^ 30 := by
    have : (f &&& 0x3fffffff).toNat = f.toNat &&& 0x3fffffff := by simp [BitVec.toNat_and]
    rw [this]
    exact Nat.lt_of_le_of_lt Nat.and_le_right (by norm_num)
  constructor
  · rintro ⟨b, hb, h⟩
    refine ⟨b, ?_⟩
    apply Nat.eq_of_testBit_eq
    intro i
    rw [← BitVec.getLsbD, mask_bit, Nat.testBit_two_pow]
    by_cases hi : i < 30
    · rw [Bool.eq_iff_iff]
      simp only [hi, decide_true, Bool.and_true, decide_eq_true_eq]
      rw [h i hi]
      exact eq_comm
    · have : b ≠ i := by omega
      simp [hi, this]
  · rintro ⟨k, hk⟩
    rw [hk] at hlt
    have hk30 : k < 30 := (Nat.pow_lt_pow_iff_right (by norm_num)).1 hlt
    refine ⟨k, hk30, fun i hi => ?_⟩
    have := mask_bit f i
    simp only [hi, decide_true, Bool.and_true] at this
    rw [← this, BitVec.getLsbD, hk, Nat.testBit_two_pow]
    simp only [decide_eq_true_eq]
    exact eq_comm

/-- the check both registration functions make -/
theorem malformed_iff (f : Flag) : (strip 64 (f &&& 0x3fffffff) = 0 ∨ strip 64 (f &&& 0x3fffffff) >>> 1 ≠ 0) ↔ ¬ OneLowBit f := by
  rw [oneLowBit_iff, ← (strip_pow 64 _ (f &&& 0x3fffffff).isLt).1]
  generalize strip 64 (f &&& 0x3fffffff) = y
  have h0 : y = 0 ↔ y.toNat = 0 := by rw [← BitVec.toNat_inj]; simp
  have h1 : y = 1 ↔ y.toNat = 1 := by rw [← BitVec.toNat_inj]; simp
  have h2 : y >>> 1 = 0 ↔ y.toNat / 2 = 0 := by
    rw [← BitVec.toNat_inj]; simp [BitVec.toNat_ushiftRight, Nat.shiftRight_eq_div_pow]
  rw [Ne, h0, h1, h2]
  omega

theorem toNat_shr (f : Flag) (k : Nat) : (f >>> k).toNat = f.toNat / 2 ^ k := by
  simp [BitVec.toNat_ushiftRight, Nat.shiftRight_eq_div_pow]

theorem index_eq {f : Flag} (h : f.toNat < 2 ^ 32) : index f = .ok (group f) := by
  unfold index
  rw [toNat_shr, if_pos (by omega)]
  rfl

theorem group_lt {f : Flag} (h : f.toNat < 2 ^ 32) : group f < 4 := by unfold group; omega

/-- both high bits -/
theorem reserved_iff {f : Flag} (h : f.toNat < 2 ^ 32) : f &&& 0xc0000000 = 0xc0000000 ↔ group f = 3 := by
  have hc : ∀ i, i < 64 → (0xc0000000 : BitVec 64).getLsbD i = (i == 30 || i == 31) := by decide
  have hg := group_lt h
  have h3 : ∀ n, n < 4 → (n = 3 ↔ n.testBit 0 = true ∧ n.testBit 1 = true) := by decide
  have hb : ∀ i, (group f).testBit i = f.getLsbD (30 + i) := by
    intro i
    unfold group
    rw [Nat.testBit_div_two_pow, Nat.add_comm]
    rfl
  rw [h3 _ hg, hb, hb]
  constructor
  · intro e
    have : ∀ i, i < 64 → (i == 30 || i == 31) = true → f.getLsbD i = true := by
      intro i hi h'
      have e2 := congrArg (fun v : BitVec 64 => v.getLsbD i) e
      simp only [BitVec.getLsbD_and] at e2
      rw [hc i hi, h'] at e2
      simpa using e2
    exact ⟨this 30 (by omega) (by decide), this 31 (by omega) (by decide)⟩
  · rintro ⟨e1, e2⟩
    apply BitVec.eq_of_getLsbD_eq
    intro i hi
    rw [BitVec.getLsbD_and, hc i hi]
    by_cases h30 : i = 30
    · subst h30; simpa using e1
    by_cases h31 : i = 31
    · subst h31; simpa using e2
    simp [h30, h31]

theorem shifted_ne_zero (v f : Flag) : (((v &&& f) <<< 2).truncate 32 != 0) = (List.range 30).any fun b => f.getLsbD b && v.getLsbD b := by
  rw [Bool.eq_iff_iff, bne_iff_ne, List.any_eq_true]
  have hb : ∀ i, ((((v &&& f) <<< 2).truncate 32 : BitVec 32)).getLsbD i = (decide (i < 32) && (decide (2 ≤ i) && (v.getLsbD (i - 2) && f.getLsbD (i - 2)))) := by
    intro i
    simp only [BitVec.truncate_eq_setWidth, BitVec.getLsbD_setWidth, BitVec.getLsbD_shiftLeft, BitVec.getLsbD_and]
    by_cases h1 : i < 32
    · have h64 : i < 64 := by omega
      by_cases h2 : i < 2
      · have : ¬ 2 ≤ i := by omega
        simp [h1, h64, h2, this]
      · have : 2 ≤ i := by omega
        simp [h1, h64, h2, this]
    · simp [h1]
  constructor
  · intro h
    by_contra hn
    apply h
    apply BitVec.eq_of_getLsbD_eq
    intro i hi
    rw [hb]
    simp only [BitVec.ofNat_eq_ofNat, BitVec.getLsbD_zero]
    by_contra hc
    have hc : (decide (i < 32) && (decide (2 ≤ i) && (v.getLsbD (i - 2) && f.getLsbD (i - 2)))) = true := by
      simpa using hc
    simp only [Bool.and_eq_true, decide_eq_true_eq] at hc
    exact hn ⟨i - 2, by simp; omega, by simp [hc.2.2.1, hc.2.2.2]⟩
  · rintro ⟨b, hb1, hb2⟩ h0
    simp only [List.mem_range] at hb1
    simp only [Bool.and_eq_true] at hb2
    have := hb (b + 2)
    rw [h0] at this
    simp only [BitVec.ofNat_eq_ofNat, BitVec.getLsbD_zero, Nat.add_sub_cancel, hb2.1, hb2.2, Bool.and_true] at this
    have h32 : b + 2 < 32 := by omega
    simp [h32] at this

theorem test_eq {f : Flag} (h : f.toNat < 2 ^ 32) (var : Nat → Flag) :
    (test f var != 0) = (List.range 30).any fun b => f.getLsbD b && (var (codeGroup (group f))).getLsbD b := by
  have h31 : (f >>> 31 ≠ 0) ↔ 2 ≤ group f := by
    rw [Ne, ← BitVec.toNat_inj, toNat_shr]
    unfold group
    simp
    omega
  have h30 : (f >>> 30 ≠ 0) ↔ 1 ≤ group f := by
    rw [Ne, ← BitVec.toNat_inj, toNat_shr]
    unfold group
    simp
    omega
  have hg := group_lt h
  rw [← shifted_ne_zero]
  congr 1
  unfold test codeGroup
  by_cases h2 : 2 ≤ group f
  · rw [if_pos (h31.2 h2), if_pos (h30.2 (by omega))]
    have : (if group f = 2 then 3 else group f) = 3 := by split <;> omega
    rw [this]
  · rw [if_neg (fun h => h2 (h31.1 h))]
    rw [if_neg (by omega : ¬ group f = 2)]
    by_cases h1 : 1 ≤ group f
    · rw [if_pos (h30.2 h1)]
      have : group f = 1 := by omega
      rw [this]
    · rw [if_neg (fun h => h1 (h30.1 h))]
      have : group f = 0 := by omega
      rw [this]

/-! ## Agreement of model and specification states -/

/-- the names as the table holds them -/
def raw (names : List (List Byte × Flag)) : List (List Byte × Nat) := names.map fun p => (p.1, p.2.toNat)

theorem find_raw (names : List (List Byte × Flag)) (s : List Byte) :
    Spec.find (· == ·) (raw names) s = (Spec.find (· == ·) names s).map BitVec.toNat := by
  induction names with
  | nil => rfl
  | cons p m ih =>
    simp only [raw, List.map_cons, Spec.find] at *
    split
    · rfl
    · exact ih

theorem insert_raw (names : List (List Byte × Flag)) (s : List Byte) (f : Flag) :
    (Spec.insert (· == ·) (raw names) s f.toNat).1 = raw (Spec.insert (· == ·) names s f).1 := by
  unfold Spec.insert
  rw [find_raw]
  cases Spec.find (· == ·) names s <;> simp [raw]

/-- Model state and specification state agree. -/
structure Sim (σ : State) (S : Switches) : Prop where
  hash : match σ.hash with
    | none => S.names = []
    | some t => NameTab.NRep t (raw S.names) ∧ S.names ≠ []
  used : σ.usedFlags = fun _ => 0
  on : ∀ g b, g < 4 → b < 30 → (σ.setFlags g).getLsbD b = S.on g b
  flags : ∀ p ∈ S.names, OneLowBit p.2 ∧ p.2.toNat < 2 ^ 32

theorem Sim.init : Sim State.init Switches.init :=
  ⟨rfl, rfl, fun _ _ _ _ => by simp [State.init, Switches.init], by simp [Switches.init]⟩

theorem find_mem {m : List (List Byte × Flag)} {s : List Byte} {f : Flag} (h : Spec.find (· == ·) m s = some f) : (s, f) ∈ m := by
  induction m with
  | nil => simp [Spec.find] at h
  | cons p m ih =>
    obtain ⟨k, d⟩ := p
    simp only [Spec.find] at h
    split at h
    · rename_i e
      simp only [Option.some.injEq] at h
      have := eq_of_beq e
      subst this; subst h
      simp
    · simp [ih h]

theorem OneLowBit.ne_zero {f : Flag} (h : OneLowBit f) : f ≠ 0 := by
  rintro rfl
  obtain ⟨b, hb, h⟩ := h
  have := (h b hb).2 rfl
  simp at this

theorem put_names (S : Switches) (f : Flag) (v : Bool) : (S.put f v).names = S.names := rfl

theorem orFlag_sim {σ : State} {S : Switches} (h : Sim σ S) {f : Flag} (hf : f.toNat < 2 ^ 32) :
    ∃ σ', orFlag σ f = .ok σ' ∧ Sim σ' (S.put f true) := by
  unfold orFlag
  rw [index_eq hf]
  refine ⟨_, rfl, h.hash, h.used, ?_, h.flags⟩
  intro g b hg hb
  simp only [Switches.put]
  by_cases hgf : g = group f
  · subst hgf
    simp only [if_true, BitVec.getLsbD_or, true_and]
    rw [h.on _ _ hg hb]
    cases f.getLsbD b <;> simp
  · simp only [hgf, if_false, false_and]
    exact h.on _ _ hg hb

theorem clearFlag_sim {σ : State} {S : Switches} (h : Sim σ S) {f : Flag} (hf : f.toNat < 2 ^ 32) :
    ∃ σ', clearFlag σ f = .ok σ' ∧ Sim σ' (S.put f false) := by
  unfold clearFlag
  rw [index_eq hf]
  refine ⟨_, rfl, h.hash, h.used, ?_, h.flags⟩
  intro g b hg hb
  simp only [Switches.put]
  by_cases hgf : g = group f
  · subst hgf
    simp only [if_true, BitVec.getLsbD_and, true_and, BitVec.getLsbD_not]
    rw [h.on _ _ hg hb]
    have : b < 64 := by omega
    cases f.getLsbD b <;> simp [this]
  · simp only [hgf, if_false, false_and]
    exact h.on _ _ hg hb

theorem test_used {σ : State} {S : Switches} (h : Sim σ S) (f : Flag) : test f σ.usedFlags = 0 := by
  rw [h.used]
  unfold test
  split <;> split <;> simp

theorem test_sim {σ : State} {S : Switches} (h : Sim σ S) {f : Flag} (hf : f.toNat < 2 ^ 32) :
    (test f σ.setFlags != 0) = S.isOn (codeGroup (group f)) f := by
  rw [test_eq hf]
  unfold Switches.isOn
  have hg : codeGroup (group f) < 4 := by
    have := group_lt hf
    unfold codeGroup
    split <;> omega
  rw [Bool.eq_iff_iff, List.any_eq_true, List.any_eq_true]
  constructor <;> rintro ⟨b, hb, e⟩ <;> refine ⟨b, hb, ?_⟩ <;> simp only [List.mem_range] at hb
  · rwa [← h.on _ _ hg hb]
  · rwa [h.on _ _ hg hb]

theorem needHash_sim {σ : State} {S : Switches} (h : Sim σ S) : ∃ t, needHash σ = .ok t ∧ NameTab.NRep t (raw S.names) := by
  have h1 := h.hash
  unfold needHash
  cases hh : σ.hash with
  | some t => rw [hh] at h1; exact ⟨t, rfl, h1.1⟩
  | none =>
    rw [hh] at h1
    obtain ⟨t, ht1, ht2⟩ := NameTab.create_rep
    refine ⟨t, ht1, ?_⟩
    simp only at h1
    rw [h1]
    exact ht2

theorem insert_ne_nil (m : List (List Byte × Flag)) (s : List Byte) (f : Flag) : (Spec.insert (· == ·) m s f).1 ≠ [] := by
  unfold Spec.insert
  cases hf : Spec.find (· == ·) m s with
  | none => simp
  | some _ =>
    intro h
    simp only at h
    subst h
    simp [Spec.find] at hf

/-- the common body of the two registration functions -/
theorem register_sim {σ : State} {S : Switches} (h : Sim σ S) (f : Flag) (name : Option (List Byte))
    (hf : f.toNat < 2 ^ 32) (hn : ∀ s, name = some s → (0 : Byte) ∉ s) :
    Spec.ResRel Sim (flgRegister σ f (name.map CStr.ofStr)) (S.register f name) := by
  obtain ⟨t, ht, hr⟩ := needHash_sim h
  unfold flgRegister
  simp only
  by_cases ho : OneLowBit f
  · rw [if_neg (fun e => (malformed_iff f).1 e ho), ht]
    simp only [Res.bind]
    rw [if_neg (by rw [flgExists, test_used h]; simp)]
    cases name with
    | none =>
      simp only [Switches.register, if_pos ho, Option.map]
      exact trivial
    | some s =>
      have hs := hn s rfl
      obtain ⟨t', e1, e2⟩ := hr.insert hs [] f.toNat
      simp only [Switches.register, if_pos ho, Option.map]
      have e1' : NameTab.insert t (some (CStr.ofStr s)) f.toNat = _ := e1
      rw [e1']
      simp only
      rw [insert_raw] at e2
      refine ⟨⟨e2, insert_ne_nil _ _ _⟩, h.used, h.on, ?_⟩
      intro p hp
      simp only [Switches.addName, Spec.insert] at hp
      cases hfd : Spec.find (· == ·) S.names s with
      | some _ => rw [hfd] at hp; exact h.flags p hp
      | none =>
        rw [hfd] at hp
        rcases List.mem_cons.1 hp with rfl | hp
        · exact ⟨ho, hf⟩
        · exact h.flags p hp
  · rw [if_pos ((malformed_iff f).2 ho)]
    cases name <;> simp only [Switches.register, if_neg ho] <;> exact trivial

theorem isLit_eq {s lit : List Byte} (hs : (0 : Byte) ∉ s) : isLit (CStr.ofStr s) lit = .ok (s == lit) := by
  unfold isLit
  rw [CStr.cstr_ofStr s hs]
  rfl

theorem Sim.retrieve {σ : State} {S : Switches} (h : Sim σ S) {t : NameTab.Table} (ht : σ.hash = some t) {s : List Byte}
    (hs : (0 : Byte) ∉ s) (rest : List Byte) : ∃ t', NameTab.retrieve t (some (s ++ 0 :: rest)) =
      .ok (t', ((S.lookup s).map BitVec.toNat).getD 0) ∧ Sim { σ with hash := some t' } S := by
  have h1 := h.hash
  rw [ht] at h1
  obtain ⟨t', e1, e2⟩ := h1.1.retrieve hs rest
  rw [find_raw] at e1
  exact ⟨t', e1, ⟨e2, h1.2⟩, h.used, h.on, h.flags⟩

theorem Sim.lookup_ne {σ : State} {S : Switches} (h : Sim σ S) {s : List Byte} {f : Flag} (hf : S.lookup s = some f) :
    f.toNat ≠ 0 ∧ f.toNat < 2 ^ 32 := by
  have := h.flags _ (find_mem hf)
  refine ⟨fun e => OneLowBit.ne_zero this.1 (BitVec.eq_of_toNat_eq e), this.2⟩

theorem ofNat_toNat' (f : Flag) : BitVec.ofNat 64 f.toNat = f := by simp

theorem resRel_ok {α β : Type} {R : α → β → Prop} {x : Res α} {b : β} (h : ∃ a, x = .ok a ∧ R a b) : Spec.ResRel R x (.ok b) := by
  obtain ⟨a, rfl, h⟩ := h
  exact h

theorem okBind {α β : Type} (a : α) (f : α → Res β) : (Res.ok a).bind f = f a := rfl

theorem flgSet_sim {σ : State} {S : Switches} (h : Sim σ S) (s : List Byte) (hs : (0 : Byte) ∉ s) :
    Spec.ResRel Sim (flgSet σ (some (CStr.ofStr s))) (S.flgSet s) := by
  have h1 := h.hash
  unfold flgSet Switches.flgSet
  cases hh : σ.hash with
  | none =>
    rw [hh] at h1
    simp only at h1 ⊢
    rw [if_pos h1]
    exact trivial
  | some t =>
    rw [hh] at h1
    simp only
    rw [if_neg h1.2, isLit_eq hs, isLit_eq hs]
    simp only [okBind, Switches.setSpecial, Spec.noneName, Spec.allName, beq_iff_eq]
    by_cases hn : s = [110, 111, 110, 101]
    · simp only [hn, if_true]
      exact ⟨h1, h.used, fun _ _ _ _ => by simp, h.flags⟩
    simp only [hn, if_false]
    by_cases ha : s = [97, 108, 108]
    · simp only [ha, if_true]
      refine ⟨h1, h.used, fun g b _ hb => ?_, h.flags⟩
      simp only [BitVec.getLsbD_allOnes]
      simp; omega
    simp only [ha, if_false]
    obtain ⟨t', e1, hs'⟩ := h.retrieve hh hs []
    have e1' : NameTab.retrieve t (some (CStr.ofStr s)) = _ := e1
    rw [e1']
    simp only [okBind]
    cases hl : S.lookup s with
    | some f =>
      obtain ⟨k1, k2⟩ := h.lookup_ne hl
      simp only [Option.map_some, Option.getD_some, if_neg k1, ofNat_toNat']
      exact resRel_ok (orFlag_sim hs' k2)
    | none =>
      simp only [Option.map_none, Option.getD_none, if_true]
      cases s with
      | nil =>
        simp only [CStr.ofStr, List.nil_append, first, okBind]
        rw [if_pos (by decide)]
        exact trivial
      | cons c rest =>
        simp only [CStr.ofStr, List.cons_append, first, okBind, List.drop_succ_cons, List.drop_zero]
        have hrest : (0 : Byte) ∉ rest := fun h => hs (by simp [h])
        obtain ⟨t2, e2, hs2⟩ := hs'.retrieve rfl hrest []
        rw [e2]
        simp only [okBind]
        by_cases hc : c ≠ 45 ∧ c ≠ 43
        · rw [if_pos hc]
          have hp : c ≠ Spec.plus := hc.2
          have hm : c ≠ Spec.minus := hc.1
          cases hl2 : S.lookup rest with
          | none => exact trivial
          | some f => simp only [if_neg hp, if_neg hm]; exact trivial
        · rw [if_neg hc]
          cases hl2 : S.lookup rest with
          | none =>
            simp only [Option.map_none, Option.getD_none, if_true]
            exact trivial
          | some f =>
            obtain ⟨k1, k2⟩ := h.lookup_ne hl2
            simp only [Option.map_some, Option.getD_some, if_neg k1, ofNat_toNat']
            by_cases hp : c = 43
            · have hp' : c = Spec.plus := hp
              rw [if_pos hp, if_pos hp']
              exact resRel_ok (orFlag_sim hs2 k2)
            · have hp' : c ≠ Spec.plus := hp
              have hm : c = Spec.minus := by
                by_contra hm
                exact hc ⟨hm, hp⟩
              rw [if_neg hp, if_neg hp', if_pos hm]
              exact resRel_ok (clearFlag_sim hs2 k2)

theorem put_zero (S : Switches) (v : Bool) : S.put 0 v = S := by
  unfold Switches.put
  simp

theorem dbgSet_sim {σ : State} {S : Switches} (h : Sim σ S) (s : List Byte) (hs : (0 : Byte) ∉ s) :
    Spec.ResRel Sim (dbgSet σ (some (CStr.ofStr s))) (S.dbgSet s) := by
  have h1 := h.hash
  unfold dbgSet Switches.dbgSet
  cases hh : σ.hash with
  | none =>
    rw [hh] at h1
    simp only at h1 ⊢
    rw [if_pos h1]
    exact trivial
  | some t =>
    rw [hh] at h1
    simp only
    rw [if_neg h1.2, isLit_eq hs, isLit_eq hs]
    simp only [okBind, Switches.setSpecial, Spec.noneName, Spec.allName, beq_iff_eq]
    by_cases hn : s = [110, 111, 110, 101]
    · simp only [hn, if_true]
      exact ⟨h1, h.used, fun _ _ _ _ => by simp, h.flags⟩
    simp only [hn, if_false]
    by_cases ha : s = [97, 108, 108]
    · simp only [ha, if_true]
      refine ⟨h1, h.used, fun g b _ hb => ?_, h.flags⟩
      simp only [BitVec.getLsbD_allOnes]
      simp; omega
    simp only [ha, if_false]
    obtain ⟨t', e1, hs'⟩ := h.retrieve hh hs []
    have e1' : NameTab.retrieve t (some (CStr.ofStr s)) = _ := e1
    rw [e1']
    simp only [okBind]
    cases hl : S.lookup s with
    | some f =>
      obtain ⟨k1, k2⟩ := h.lookup_ne hl
      simp only [Option.map_some, Option.getD_some, if_neg k1, ofNat_toNat']
      exact resRel_ok (orFlag_sim hs' k2)
    | none =>
      simp only [Option.map_none, Option.getD_none, if_true]
      cases s with
      | nil => exact trivial
      | cons c rest =>
        simp only [CStr.ofStr, List.cons_append, first, okBind, List.drop_succ_cons, List.drop_zero]
        have hrest : (0 : Byte) ∉ rest := fun h => hs (by simp [h])
        obtain ⟨t2, e2, hs2⟩ := hs'.retrieve rfl hrest []
        rw [e2]
        simp only [okBind]
        cases hl2 : S.lookup rest with
        | none =>
          simp only [Option.map_none, Option.getD_none, true_and]
          by_cases hc : c ≠ 45 ∧ c ≠ 43
          · have hc' : ¬ (c = Spec.plus ∨ c = Spec.minus) := by
              rintro (h | h)
              · exact hc.2 h
              · exact hc.1 h
            rw [if_pos hc, if_neg hc']
            exact trivial
          · have hc' : c = Spec.plus ∨ c = Spec.minus := by
              by_contra h'
              rw [not_or] at h'
              exact hc ⟨h'.2, h'.1⟩
            rw [if_neg hc, if_pos hc']
            have o := orFlag_sim hs2 (f := BitVec.ofNat 64 0) (by simp)
            have k := clearFlag_sim hs2 (f := BitVec.ofNat 64 0) (by simp)
            rw [show (BitVec.ofNat 64 0 : Flag) = 0 from rfl, put_zero] at o k
            split
            · exact resRel_ok o
            · exact resRel_ok k
        | some f =>
          obtain ⟨k1, k2⟩ := h.lookup_ne hl2
          simp only [Option.map_some, Option.getD_some, k1, false_and, if_false, ofNat_toNat']
          by_cases hp : c = 43
          · have hp' : c = Spec.plus := hp
            rw [if_pos hp, if_pos hp']
            exact resRel_ok (orFlag_sim hs2 k2)
          · have hp' : c ≠ Spec.plus := hp
            rw [if_neg hp, if_neg hp']
            exact resRel_ok (clearFlag_sim hs2 k2)

theorem flgDestroy_sim {σ : State} {S : Switches} (h : Sim σ S) : flgDestroy σ = .ok State.init := by
  have h1 := h.hash
  unfold flgDestroy
  cases hh : σ.hash with
  | none => rfl
  | some t =>
    rw [hh] at h1
    simp only
    rw [h1.1.destroy]
    rfl

theorem resRel_bindOk {α β X : Type} {R : α → β → Prop} {x : Res α} {y : Res β} (o : X) (h : Spec.ResRel R x y) :
    Spec.ResRel (fun c b => c.2 = b.2 ∧ R c.1 b.1) (x.bind fun σ => .ok (σ, o)) (y.bind fun S => .ok (S, o)) :=
  h.bind fun _ _ h => ⟨rfl, h⟩

theorem flgStep_sim (σ : State) (S : Switches) (o : Spec.FlgOp) (hp : o.Proper) (h : Sim σ S) :
    Spec.ResRel (fun c b => c.2 = b.2 ∧ Sim c.1 b.1) (flgStep σ o) (Spec.flgStep codeGroup S o) := by
  cases o with
  | register f name => exact resRel_bindOk _ (register_sim h f name hp.1 hp.2)
  | set name =>
    cases name with
    | none => exact trivial
    | some s => exact resRel_bindOk _ (flgSet_sim h s (hp s rfl))
  | test f => exact ⟨test_sim h hp, h⟩
  | destroy =>
    simp only [flgStep, Spec.flgStep]
    rw [flgDestroy_sim h]
    exact ⟨rfl, Sim.init⟩

theorem dbgStep_sim (σ : State) (S : Switches) (o : Spec.DbgOp) (hp : o.Proper) (h : Sim σ S) :
    Spec.ResRel (fun c b => c.2 = b.2 ∧ Sim c.1 b.1) (dbgStep σ o) (Spec.dbgStep codeGroup S o) := by
  cases o with
  | register f name =>
    simp only [dbgStep, Spec.dbgStep, dbgRegister]
    by_cases hr : group f = 3
    · rw [if_pos ((reserved_iff hp.1).2 hr), if_pos hr]
      exact trivial
    · rw [if_neg (fun e => hr ((reserved_iff hp.1).1 e)), if_neg hr]
      exact resRel_bindOk _ (register_sim h f name hp.1 hp.2)
  | registerInternal f name => exact resRel_bindOk _ (register_sim h f name hp.1 hp.2)
  | set name =>
    cases name with
    | none => exact trivial
    | some s => exact resRel_bindOk _ (dbgSet_sim h s (hp s rfl))
  | setFlag f => exact resRel_bindOk _ (resRel_ok (orFlag_sim h hp))
  | unsetFlag f => exact resRel_bindOk _ (resRel_ok (clearFlag_sim h hp))
  | test f => exact ⟨test_sim h hp, h⟩
  | destroy =>
    simp only [dbgStep, Spec.dbgStep]
    have : dbgDestroy σ = .ok State.init := flgDestroy_sim h
    rw [this]
    exact ⟨rfl, Sim.init⟩

end Maa.Flags
