import Verif.Lemmas.Flags

/-! # Properties C41, C42, C43, C55, C56: run-time flags and debugging flags, maa/flags.c and maa/debug.c -/

namespace Maa.Flags

open Spec (Flag group OneLowBit Switches codeGroup FlgOp DbgOp)

/-! ## C41 -/

/-- C41, flags.c, what the code does: every history of calls with proper arguments (names are strings, flag words have
32 bits) ends and answers like a table of named switches — except that a test of a flag of group 2 looks at group 3. -/
theorem C41_flg_history_exact (hist : List FlgOp) (hp : ∀ o ∈ hist, o.Proper) :
    Spec.observe (Spec.run flgStep State.init hist) = Spec.observe (Spec.run (Spec.flgStep codeGroup) Switches.init hist) :=
  (Spec.run_sim_of FlgOp.Proper Sim _ _ flgStep_sim _ _ hist hp Sim.init).observe

/-- C41, debug.c, likewise. -/
theorem C41_dbg_history_exact (hist : List DbgOp) (hp : ∀ o ∈ hist, o.Proper) :
    Spec.observe (Spec.run dbgStep State.init hist) = Spec.observe (Spec.run (Spec.dbgStep codeGroup) Switches.init hist) :=
  (Spec.run_sim_of DbgOp.Proper Sim _ _ dbgStep_sim _ _ hist hp Sim.init).observe

theorem run_congr {S O X : Type} (f g : S → O → Res (S × X)) (hist : List O) (h : ∀ o ∈ hist, ∀ s, f s o = g s o) (s : S) :
    Spec.run f s hist = Spec.run g s hist := by
  induction hist generalizing s with
  | nil => rfl
  | cons o os ih =>
    simp only [Spec.run]
    rw [h o (by simp)]
    refine congrArg _ (funext fun r => ?_)
    rw [ih fun o ho => h o (by simp [ho])]

/-- C41, flags.c: histories that test no flag of group 2 behave exactly like independent named switches: setting turns on
the switch of that flag, `-name` turns it off, nothing else is affected, "none" and "all" affect all.
Missing for the full property: tests of group 2 (they are wrong, `C41_group_two_refuted`). -/
theorem C41_flg_history_partial (hist : List FlgOp) (hp : ∀ o ∈ hist, o.Proper) (h2 : ∀ f, FlgOp.test f ∈ hist → group f ≠ 2) :
    Spec.observe (Spec.run flgStep State.init hist) = Spec.observe (Spec.run (Spec.flgStep id) Switches.init hist) := by
  rw [C41_flg_history_exact hist hp]
  refine congrArg _ (run_congr _ _ hist ?_ _)
  intro o ho s
  cases o with
  | test f => simp only [Spec.flgStep, codeGroup, if_neg (h2 f ho), id]
  | set name => cases name <;> rfl
  | _ => rfl

/-- C41, debug.c: histories that test no flag of group 2 behave exactly like independent named switches.  Missing for the
full property: tests of group 2. -/
theorem C41_dbg_history_partial (hist : List DbgOp) (hp : ∀ o ∈ hist, o.Proper) (h2 : ∀ f, DbgOp.test f ∈ hist → group f ≠ 2) :
    Spec.observe (Spec.run dbgStep State.init hist) = Spec.observe (Spec.run (Spec.dbgStep id) Switches.init hist) := by
  rw [C41_dbg_history_exact hist hp]
  refine congrArg _ (run_congr _ _ hist ?_ _)
  intro o ho s
  cases o with
  | test f => simp only [Spec.dbgStep, codeGroup, if_neg (h2 f ho), id]
  | set name => cases name <;> rfl
  | _ => rfl

theorem isOn_iff (S : Switches) (g : Nat) (f : Flag) : S.isOn g f = true ↔ ∃ b, b < 30 ∧ f.getLsbD b = true ∧ S.on g b = true := by
  unfold Switches.isOn
  simp only [List.any_eq_true, List.mem_range, Bool.and_eq_true]

/-- C41: the specification used above means what the property says.  For well-formed flags `f`, `g`: after turning `f` on
(off), `f` tests true (false); a flag with another bit or another group tests as before. -/
theorem C41_spec_switches (S : Switches) (f g : Flag) (hf : OneLowBit f) (hg : OneLowBit g) (v : Bool) :
    (S.put f v).isOn (group f) f = v ∧ (f ≠ g → (S.put f v).isOn (group g) g = S.isOn (group g) g) := by
  obtain ⟨b, hb, hfb⟩ := hf
  obtain ⟨c, hc, hgc⟩ := hg
  have e : ∀ (T : Switches) (k : Nat) (x : Flag) (d : Nat), d < 30 → (∀ i, i < 30 → (x.getLsbD i = true ↔ i = d)) → T.isOn k x = T.on k d := by
    intro T k x d hd hx
    rw [Bool.eq_iff_iff, isOn_iff]
    constructor
    · rintro ⟨i, hi, h1, h2⟩
      rw [(hx i hi).1 h1] at h2
      exact h2
    · intro h
      exact ⟨d, hd, (hx d hd).2 rfl, h⟩
  rw [e _ _ f b hb hfb, e _ _ g c hc hgc, e _ _ g c hc hgc]
  refine ⟨by simp [Switches.put, (hfb b hb).2 rfl], fun hne => ?_⟩
  simp only [Switches.put]
  rw [if_neg]
  rintro ⟨h1, h2⟩
  have hbc := (hfb c hc).1 h2
  apply hne
  apply BitVec.eq_of_getLsbD_eq
  intro i hi
  by_cases h30 : i < 30
  · rw [Bool.eq_iff_iff, hfb i h30, hgc i h30, hbc]
  · have : f.toNat / 2 ^ 30 = g.toNat / 2 ^ 30 := h1.symm
    have hb := congrArg (fun n => n.testBit (i - 30)) this
    simp only [Nat.testBit_div_two_pow] at hb
    rw [show i - 30 + 30 = i by omega] at hb
    exact hb

/-- C41 fails for group 2: after `dbg_set_flag(f)` on a fresh library, `dbg_test(f)` is 0 for every flag of group 2. -/
theorem C41_group_two_refuted (f : Flag) (h : f.toNat < 2 ^ 32) (h2 : group f = 2) :
    Spec.observe (Spec.run dbgStep State.init [.setFlag f, .test f]) = .ok [false, false] := by
  have hp : ∀ o ∈ [DbgOp.setFlag f, DbgOp.test f], o.Proper := by
    intro o ho
    simp only [List.mem_cons, List.not_mem_nil, or_false] at ho
    rcases ho with rfl | rfl <;> exact h
  rw [C41_dbg_history_exact _ hp]
  simp only [Spec.run, Spec.dbgStep, Res.bind, Spec.observe, Res.ok.injEq, List.cons.injEq, true_and, and_true]
  rw [Bool.eq_false_iff]
  intro hon
  obtain ⟨b, -, -, hb⟩ := (isOn_iff _ _ _).1 hon
  simp [Switches.put, Switches.init, h2, codeGroup] at hb

/-- C41: and a flag of group 2 tests as set when the flag of group 3 with the same bit is (0x80000001 after 0xc0000001). -/
theorem C41_group_two_alias_refuted :
    Spec.observe (Spec.run dbgStep State.init [.setFlag 0xc0000001, .test 0x80000001]) = .ok [false, true] := by decide +kernel

/-- Non-vacuity: two registered flags in groups 0 and 1, set and cleared by name. -/
example : Spec.observe (Spec.run flgStep State.init
    [.register 1 (some [97]), .register 0x40000002 (some [98]), .set (some [97]), .set (some [43, 98]), .test 1, .test 0x40000002,
     .test 0x40000001, .set (some [45, 97]), .test 1, .test 0x40000002, .set (some [110, 111, 110, 101]), .test 0x40000002]) =
    .ok [false, false, false, false, true, true, false, false, false, true, false, false] := by decide +kernel

/-! ## C42 -/

/-- A state the library is in after some history of proper calls, with the switches and names that history describes. -/
def FlgReach (σ : State) (S : Switches) : Prop := ∃ hist xs ys, (∀ o ∈ hist, o.Proper) ∧
  Spec.run flgStep State.init hist = .ok (σ, xs) ∧ Spec.run (Spec.flgStep codeGroup) Switches.init hist = .ok (S, ys)

/-- The same for debug.c. -/
def DbgReach (σ : State) (S : Switches) : Prop := ∃ hist xs ys, (∀ o ∈ hist, o.Proper) ∧
  Spec.run dbgStep State.init hist = .ok (σ, xs) ∧ Spec.run (Spec.dbgStep codeGroup) Switches.init hist = .ok (S, ys)

theorem FlgReach.sim {σ : State} {S : Switches} (h : FlgReach σ S) : Sim σ S := by
  obtain ⟨hist, xs, ys, hp, h1, h2⟩ := h
  have := Spec.run_sim_of FlgOp.Proper Sim _ _ flgStep_sim _ _ hist hp Sim.init
  rw [h1, h2] at this
  exact this.2

theorem DbgReach.sim {σ : State} {S : Switches} (h : DbgReach σ S) : Sim σ S := by
  obtain ⟨hist, xs, ys, hp, h1, h2⟩ := h
  have := Spec.run_sim_of DbgOp.Proper Sim _ _ dbgStep_sim _ _ hist hp Sim.init
  rw [h1, h2] at this
  exact this.2

/-- what registration does, for every 64-bit flag -/
theorem register_exact {σ : State} {S : Switches} (h : Sim σ S) (f : Flag) (s : List Byte) (hs : (0 : Byte) ∉ s) :
    (¬ OneLowBit f → flgRegister σ f (some (CStr.ofStr s)) = .fatal) ∧
    (OneLowBit f → ∃ t, flgRegister σ f (some (CStr.ofStr s)) = .ok { σ with hash := some t } ∧
      NameTab.NRep t (raw (Spec.insert (· == ·) S.names s f).1)) := by
  obtain ⟨t, ht, hr⟩ := needHash_sim h
  unfold flgRegister
  simp only
  constructor
  · intro ho
    rw [if_pos ((malformed_iff f).2 ho)]
  · intro ho
    rw [if_neg (fun e => (malformed_iff f).1 e ho), ht]
    simp only [Res.bind]
    rw [if_neg (by rw [flgExists, test_used h]; simp)]
    obtain ⟨t', e1, e2⟩ := hr.insert hs [] f.toNat
    have e1' : NameTab.insert t (some (CStr.ofStr s)) f.toNat = _ := e1
    rw [e1', insert_raw] at *
    exact ⟨t', rfl, e2⟩

/-- C42, flags.c: after any history, for every 64-bit flag word and every name, `flg_register` ends the program exactly
when the low 30 bits do not contain exactly one set bit; otherwise it returns, the switches are as before, and the names
known are those known before and, unless it was taken, the new one (the names are read back with `flg_set`, see
`C42_flg_associates`).  Missing: the rejection of a flag that has been registered already (`C42_reuse_refuted`). -/
theorem C42_flg_register_partial (σ : State) (S : Switches) (h : FlgReach σ S) (f : Flag) (s : List Byte) (hs : (0 : Byte) ∉ s) :
    (flgRegister σ f (some (CStr.ofStr s)) = .fatal ↔ ¬ OneLowBit f) ∧
    (OneLowBit f → ∃ σ', flgRegister σ f (some (CStr.ofStr s)) = .ok σ' ∧ σ'.setFlags = σ.setFlags) := by
  obtain ⟨h1, h2⟩ := register_exact h.sim f s hs
  refine ⟨⟨fun e ho => ?_, h1⟩, fun ho => ?_⟩
  · obtain ⟨t, e2, -⟩ := h2 ho
    rw [e] at e2
    simp at e2
  · obtain ⟨t, e2, -⟩ := h2 ho
    exact ⟨_, e2, rfl⟩

/-- C42: registration associates the name with the flag: a new name other than "none" and "all", once registered, sets
exactly that flag. -/
theorem C42_flg_associates (σ : State) (S : Switches) (h : FlgReach σ S) (f : Flag) (ho : OneLowBit f) (f32 : f.toNat < 2 ^ 32)
    (s : List Byte) (hs : (0 : Byte) ∉ s) (hn : s ≠ Spec.noneName) (ha : s ≠ Spec.allName) (hnew : S.lookup s = none) :
    ∃ σ₁ σ₂ S₂, flgRegister σ f (some (CStr.ofStr s)) = .ok σ₁ ∧ flgSet σ₁ (some (CStr.ofStr s)) = .ok σ₂ ∧ FlgReach σ₂ S₂ ∧
      S₂.on = (S.put f true).on := by
  obtain ⟨hist, xs, ys, hp, h1, h2⟩ := h
  have hsim := FlgReach.sim (σ := σ) (S := S) ⟨hist, xs, ys, hp, h1, h2⟩
  have r1 := flgStep_sim σ S (.register f (some s)) ⟨f32, fun _ e => by cases e; exact hs⟩ hsim
  simp only [Spec.flgStep, Switches.register, if_pos ho, Res.bind] at r1
  cases hm : flgStep σ (.register f (some s)) <;> rw [hm] at r1 <;> simp only [Spec.ResRel] at r1
  rename_i c
  have r2 := flgStep_sim c.1 _ (.set (some s)) (fun _ e => by cases e; exact hs) r1.2
  have hne : (S.addName f s).names ≠ [] := insert_ne_nil _ _ _
  have hlook : (S.addName f s).lookup s = some f := by
    simp only [Switches.lookup, Switches.addName, Spec.insert] at hnew ⊢
    rw [hnew]
    simp [Spec.find]
  simp only [Spec.flgStep, Switches.flgSet, if_neg hne, Switches.setSpecial, if_neg hn, if_neg ha, hlook, Option.map_some, Res.bind] at r2
  cases hm2 : flgStep c.1 (.set (some s)) <;> rw [hm2] at r2 <;> simp only [Spec.ResRel] at r2
  rename_i d
  refine ⟨c.1, d.1, (S.addName f s).put f true, ?_, ?_, ?_, rfl⟩
  · simp only [flgStep, Option.map_some] at hm
    cases hx : flgRegister σ f (some (CStr.ofStr s)) <;> rw [hx] at hm <;> simp [Res.bind] at hm
    rw [← hm]
  · simp only [flgStep, Option.map_some] at hm2
    cases hx : flgSet c.1 (some (CStr.ofStr s)) <;> rw [hx] at hm2 <;> simp [Res.bind] at hm2
    rw [← hm2]
  · refine ⟨hist ++ [.register f (some s), .set (some s)], xs ++ [c.2, d.2], ys ++ [false, false], ?_, ?_, ?_⟩
    · intro o ho'
      rcases List.mem_append.1 ho' with ho' | ho'
      · exact hp o ho'
      · simp only [List.mem_cons, List.not_mem_nil, or_false] at ho'
        rcases ho' with rfl | rfl
        · exact ⟨f32, fun _ e => by cases e; exact hs⟩
        · exact fun _ e => by cases e; exact hs
    · rw [Spec.run_append, h1]
      simp only [Res.bind, Spec.run, hm, hm2]
    · rw [Spec.run_append, h2]
      simp only [Res.bind, Spec.run, Spec.flgStep, Switches.register, if_pos ho, Switches.flgSet, if_neg hne, Switches.setSpecial,
        if_neg hn, if_neg ha, hlook, Option.map_some]

/-- C42, debug.c: `dbg_register` ends the program exactly when the flag is malformed or has both high bits set;
`_dbg_register` exactly when it is malformed.  Missing: the rejection of a flag that has been registered already. -/
theorem C42_dbg_register_partial (σ : State) (S : Switches) (h : DbgReach σ S) (f : Flag) (s : List Byte) (hs : (0 : Byte) ∉ s) :
    (dbgRegister σ f (some (CStr.ofStr s)) = .fatal ↔ ¬ OneLowBit f ∨ (f.getLsbD 30 = true ∧ f.getLsbD 31 = true)) ∧
    (dbgRegisterInternal σ f (some (CStr.ofStr s)) = .fatal ↔ ¬ OneLowBit f) ∧
    (OneLowBit f → ∃ σ', dbgRegisterInternal σ f (some (CStr.ofStr s)) = .ok σ' ∧ σ'.setFlags = σ.setFlags) := by
  have e : dbgRegisterInternal σ f (some (CStr.ofStr s)) = flgRegister σ f (some (CStr.ofStr s)) := rfl
  obtain ⟨h1, h2⟩ := register_exact h.sim f s hs
  have hc : ∀ i, i < 64 → (0xc0000000 : BitVec 64).getLsbD i = (i == 30 || i == 31) := by decide
  have hb : f &&& 0xc0000000 = 0xc0000000 ↔ (f.getLsbD 30 = true ∧ f.getLsbD 31 = true) := by
    constructor
    · intro e
      have : ∀ i, i < 64 → (i == 30 || i == 31) = true → f.getLsbD i = true := by
        intro i hi h'
        have e2 := congrArg (fun v : BitVec 64 => v.getLsbD i) e
        simp only [BitVec.getLsbD_and] at e2
        rw [hc i hi, h'] at e2
        simpa using e2
      exact ⟨this 30 (by omega) (by decide), this 31 (by omega) (by decide)⟩
    · rintro ⟨e1, e2⟩
      apply BitVec.eq_of_getLsbD_eq
      intro i hi
      rw [BitVec.getLsbD_and, hc i hi]
      by_cases h30 : i = 30
      · subst h30; simpa using e1
      by_cases h31 : i = 31
      · subst h31; simpa using e2
      simp [h30, h31]
  have hreg : flgRegister σ f (some (CStr.ofStr s)) = .fatal ↔ ¬ OneLowBit f := by
    refine ⟨fun e' ho => ?_, h1⟩
    obtain ⟨t, e2, -⟩ := h2 ho
    rw [e'] at e2
    simp at e2
  refine ⟨?_, by rw [e]; exact hreg, fun ho => ?_⟩
  · unfold dbgRegister
    rw [e]
    by_cases hr : f.getLsbD 30 = true ∧ f.getLsbD 31 = true
    · rw [if_pos (hb.2 hr)]
      simp only [true_iff]
      exact Or.inr hr
    · rw [if_neg (fun x => hr (hb.1 x)), hreg]
      constructor
      · exact Or.inl
      · rintro (h | h)
        · exact h
        · exact absurd h hr
  · obtain ⟨t, e2, -⟩ := h2 ho
    exact ⟨_, e2, rfl⟩

/-- C42 fails for reuse: a well-formed flag can be registered again, under any name, after any history. -/
theorem C42_reuse_refuted (σ : State) (S : Switches) (h : FlgReach σ S) (f : Flag) (ho : OneLowBit f) (f32 : f.toNat < 2 ^ 32)
    (s s' : List Byte) (hs : (0 : Byte) ∉ s) (hs' : (0 : Byte) ∉ s') :
    ∃ σ₁ σ₂, flgRegister σ f (some (CStr.ofStr s)) = .ok σ₁ ∧ flgRegister σ₁ f (some (CStr.ofStr s')) = .ok σ₂ := by
  have r1 := register_sim h.sim f (some s) f32 (fun _ e => by cases e; exact hs)
  simp only [Switches.register, if_pos ho, Option.map_some] at r1
  cases hm : flgRegister σ f (some (CStr.ofStr s)) <;> rw [hm] at r1 <;> simp only [Spec.ResRel] at r1
  rename_i σ₁
  have r2 := register_sim r1 f (some s') f32 (fun _ e => by cases e; exact hs')
  simp only [Switches.register, if_pos ho, Option.map_some] at r2
  cases hm2 : flgRegister σ₁ f (some (CStr.ofStr s')) <;> rw [hm2] at r2 <;> simp only [Spec.ResRel] at r2
  rename_i σ₂
  exact ⟨σ₁, σ₂, rfl, hm2⟩

/-- Non-vacuity: 0x20000000 (bit 29 of group 0) is accepted, 3 and 0 are not, and the fresh state is reached. -/
example : FlgReach State.init Switches.init := ⟨[], [], [], by simp, rfl, rfl⟩
example : DbgReach State.init Switches.init := ⟨[], [], [], by simp, rfl, rfl⟩
example : OneLowBit 0x20000000 := (oneLowBit_iff _).2 ⟨29, by decide⟩
example : ¬ OneLowBit 3 := by
  rintro ⟨b, hb, h⟩
  have h0 := (h 0 (by omega)).1 (by decide)
  have h1 := (h 1 (by omega)).1 (by decide)
  omega

/-! ## C43 -/

/-- C43, flags.c: after any history, setting a name that is not "none" or "all", is not registered, and is not '+' or '-'
followed by a registered name, ends the program with an error. -/
theorem C43_flg_set_unknown (σ : State) (S : Switches) (h : FlgReach σ S) (s : List Byte) (hs : (0 : Byte) ∉ s)
    (hn : s ≠ Spec.noneName) (ha : s ≠ Spec.allName) (hl : S.lookup s = none)
    (hpm : ∀ c rest, s = c :: rest → c = Spec.plus ∨ c = Spec.minus → S.lookup rest = none) :
    flgSet σ (some (CStr.ofStr s)) = .fatal := by
  have r := flgSet_sim h.sim s hs
  have : S.flgSet s = .fatal := by
    unfold Switches.flgSet
    by_cases he : S.names = []
    · rw [if_pos he]
    · rw [if_neg he]
      simp only [Switches.setSpecial, if_neg hn, if_neg ha, hl, Option.map_none]
      cases s with
      | nil => rfl
      | cons c rest =>
        simp only
        cases hr : S.lookup rest with
        | none => rfl
        | some f =>
          have h1 : c ≠ Spec.plus := fun e => by rw [hpm c rest rfl (Or.inl e)] at hr; cases hr
          have h2 : c ≠ Spec.minus := fun e => by rw [hpm c rest rfl (Or.inr e)] at hr; cases hr
          simp only [if_neg h1, if_neg h2]
  rw [this] at r
  cases hm : flgSet σ (some (CStr.ofStr s)) <;> rw [hm] at r <;> simp only [Spec.ResRel] at r

/-- C43, debug.c: the same for `dbg_set` when the name does not start with '+' or '-' and what follows its first character
is not registered either.  Missing: the other unknown names (`C43_dbg_refuted`). -/
theorem C43_dbg_set_unknown_partial (σ : State) (S : Switches) (h : DbgReach σ S) (c : Byte) (rest : List Byte)
    (hs : (0 : Byte) ∉ c :: rest) (hn : c :: rest ≠ Spec.noneName) (ha : c :: rest ≠ Spec.allName) (hl : S.lookup (c :: rest) = none)
    (hc : c ≠ Spec.plus ∧ c ≠ Spec.minus) (hr : S.lookup rest = none) :
    dbgSet σ (some (CStr.ofStr (c :: rest))) = .fatal := by
  have r := dbgSet_sim h.sim (c :: rest) hs
  have : S.dbgSet (c :: rest) = .fatal := by
    unfold Switches.dbgSet
    by_cases he : S.names = []
    · rw [if_pos he]
    · rw [if_neg he]
      have : ¬ (c = Spec.plus ∨ c = Spec.minus) := by rintro (h | h); exact hc.1 h; exact hc.2 h
      simp only [Switches.setSpecial, if_neg hn, if_neg ha, hl, Option.map_none, hr, if_neg this]
  rw [this] at r
  cases hm : dbgSet σ (some (CStr.ofStr (c :: rest))) <;> rw [hm] at r <;> simp only [Spec.ResRel] at r

/-- C43 fails for `dbg_set`: with "a" registered and set, "xa" is accepted and clears it, "-b" is accepted, and "" makes it
read beyond the string. -/
theorem C43_dbg_refuted :
    Spec.observe (Spec.run dbgStep State.init [.register 1 (some [97]), .set (some [97]), .test 1, .set (some [45, 98]), .test 1, .set (some [120, 97]), .test 1]) =
      .ok [false, false, true, false, true, false, false] ∧
    Spec.observe (Spec.run dbgStep State.init [.register 1 (some [97]), .set (some [])]) = .ub := by
  constructor
  · decide +kernel
  · exact Res.eq_ub_of (by decide +kernel)

/-- Non-vacuity: with "a" registered, "b", "+b" and "" are fatal. -/
example : Spec.observe (Spec.run flgStep State.init [.register 1 (some [97]), .set (some [98])]) = .fatal ∧
    Spec.observe (Spec.run flgStep State.init [.register 1 (some [97]), .set (some [43, 98])]) = .fatal ∧
    Spec.observe (Spec.run flgStep State.init [.register 1 (some [97]), .set (some [])]) = .fatal := by decide +kernel

/-! ## C55: listing -/

theorem foldl_list (f : List Byte × Nat → List (List Byte)) (l : List (List Byte × Nat)) : ∀ out : List (List Byte),
    l.foldl (fun s p => s ++ f p) out = out ++ l.flatMap f := by
  induction l with
  | nil => simp
  | cons e l ih => intro out; simp [ih]

/-- the line for a user's flag, if it is one -/
def userLine (p : List Byte × Nat) : List (List Byte) :=
  if BitVec.ofNat 64 p.2 &&& 0xc0000000 ≠ 0xc0000000 then [[32, 32] ++ p.1 ++ [10]] else []

/-- the line for a built-in flag, if it is one -/
def ownLine (p : List Byte × Nat) : List (List Byte) :=
  if BitVec.ofNat 64 p.2 &&& 0xc0000000 = 0xc0000000 then [[32, 32] ++ p.1 ++ builtin ++ [10]] else []

/-- C55, flags.c: after any history in which some name is registered, `flg_list` prints exactly the registered names, one
line each, in some order, and changes nothing. -/
theorem C55_flg_list (σ : State) (S : Switches) (h : FlgReach σ S) (hne : S.names ≠ []) :
    ∃ out, flgList σ = .ok (σ, out) ∧ out.Perm (S.names.map fun p => [32, 32] ++ p.1 ++ [10]) := by
  have h1 := h.sim.hash
  unfold flgList
  cases hh : σ.hash with
  | none => rw [hh] at h1; exact absurd h1 hne
  | some t =>
    rw [hh] at h1
    obtain ⟨order, hp, e⟩ := h1.1.iterate_quiet (fun (out : List (List Byte)) p => out ++ [[32, 32] ++ p.1 ++ [10]]) []
    simp only [e, Res.bind]
    refine ⟨_, by rw [← hh], ?_⟩
    rw [foldl_list (fun p => [[32, 32] ++ p.1 ++ [10]])]
    have := (hp.map fun p => [32, 32] ++ p.1 ++ [10])
    simp only [raw, List.map_map, List.nil_append] at this ⊢
    rw [← List.map_eq_flatMap]
    exact this

/-- C55, debug.c: `dbg_list` prints the names of the user's flags in some order, then, marked "(builtin)", the names of
the flags with both high bits set in some order, each once; nothing changes. -/
theorem C55_dbg_list (σ : State) (S : Switches) (h : DbgReach σ S) (hne : S.names ≠ []) :
    ∃ user own, dbgList σ = .ok (σ, user ++ own) ∧
      user.Perm ((S.names.filter fun p => group p.2 ≠ 3).map fun p => [32, 32] ++ p.1 ++ [10]) ∧
      own.Perm ((S.names.filter fun p => group p.2 = 3).map fun p => [32, 32] ++ p.1 ++ " (builtin)".toUTF8.toList ++ [10]) := by
  have hb : " (builtin)".toUTF8.toList = builtin := by decide +kernel
  rw [hb]
  have h1 := h.sim.hash
  have hfl := h.sim.flags
  unfold dbgList
  cases hh : σ.hash with
  | none => rw [hh] at h1; exact absurd h1 hne
  | some t =>
    rw [hh] at h1
    have eu : dbgUser = fun out p => out ++ userLine p := by
      funext out p
      unfold dbgUser userLine
      by_cases hc : BitVec.ofNat 64 p.2 &&& 0xc0000000 ≠ 0xc0000000
      · rw [if_pos hc, if_pos hc]
      · rw [if_neg hc, if_neg hc, List.append_nil]
    have eb : dbgBuiltin = fun out p => out ++ ownLine p := by
      funext out p
      unfold dbgBuiltin ownLine
      by_cases hc : BitVec.ofNat 64 p.2 &&& 0xc0000000 = 0xc0000000
      · rw [if_pos hc, if_pos hc]
      · rw [if_neg hc, if_neg hc, List.append_nil]
    obtain ⟨o1, p1, e1⟩ := h1.1.iterate_quiet dbgUser []
    obtain ⟨o2, p2, e2⟩ := h1.1.iterate_quiet dbgBuiltin (o1.foldl dbgUser [])
    simp only [e1, e2, Res.bind]
    rw [eu, eb, foldl_list userLine, foldl_list ownLine, List.nil_append]
    refine ⟨_, _, by rw [← hh], ?_, ?_⟩
    · refine (p1.flatMap_right _).trans (List.Perm.of_eq ?_)
      have : ∀ p ∈ S.names, (BitVec.ofNat 64 p.2.toNat &&& 0xc0000000 ≠ 0xc0000000) = (group p.2 ≠ 3) := by
        intro p hp
        rw [ofNat_toNat', Ne, Ne, reserved_iff (hfl p hp).2]
      clear h1 hne hfl p1 p2 e1 e2
      generalize S.names = l at *
      induction l with
      | nil => rfl
      | cons p l ih =>
        have ih := ih fun q hq => this q (by simp [hq])
        simp only [raw, List.map_cons, List.flatMap_cons] at ih ⊢
        rw [ih, userLine]
        simp only [this p (by simp)]
        by_cases hg : group p.2 = 3 <;> simp [hg]
    · refine (p2.flatMap_right _).trans (List.Perm.of_eq ?_)
      have : ∀ p ∈ S.names, (BitVec.ofNat 64 p.2.toNat &&& 0xc0000000 = 0xc0000000) = (group p.2 = 3) := by
        intro p hp
        rw [ofNat_toNat', reserved_iff (hfl p hp).2]
      clear h1 hne hfl p1 p2 e1 e2
      generalize S.names = l at *
      induction l with
      | nil => rfl
      | cons p l ih =>
        have ih := ih fun q hq => this q (by simp [hq])
        simp only [raw, List.map_cons, List.flatMap_cons] at ih ⊢
        rw [ih, ownLine]
        simp only [this p (by simp)]
        by_cases hg : group p.2 = 3 <;> simp [hg]

/-- C55: before any name is registered (or after `flg_destroy` / `dbg_destroy`) both listings abort. -/
theorem C55_list_none_registered (σ : State) (S : Switches) (hne : S.names = []) :
    (FlgReach σ S → flgList σ = .abort) ∧ (DbgReach σ S → dbgList σ = .abort) := by
  constructor
  all_goals
    intro h
    have h1 := h.sim.hash
    cases hh : σ.hash with
    | none => simp only [flgList, dbgList, hh]
    | some t =>
      rw [hh] at h1
      exact absurd hne h1.2

/-! ## C56: `flg_name` -/

/-- C56: after any history in which some name is registered, `flg_name(f)` is a name registered for `f`, or "unknown flag"
(`none`) when there is none; nothing changes. -/
theorem C56_flg_name (σ : State) (S : Switches) (h : FlgReach σ S) (hne : S.names ≠ []) (f : Flag) :
    ∃ r, flgName σ f = .ok (σ, r) ∧ (∀ name, r = some name → (name, f) ∈ S.names) ∧ (r = none ↔ ∀ p ∈ S.names, p.2 ≠ f) := by
  have h1 := h.sim.hash
  unfold flgName
  cases hh : σ.hash with
  | none => rw [hh] at h1; exact absurd h1 hne
  | some t =>
    rw [hh] at h1
    obtain ⟨order, hperm, e⟩ := h1.1.scan fun p => f == BitVec.ofNat 64 p.2
    have hmem : ∀ p : List Byte × Nat, p ∈ order ↔ p ∈ raw S.names := fun p => hperm.mem_iff
    simp only [e, Res.bind]
    refine ⟨_, by rw [← hh], ?_, ?_⟩
    · intro name hn
      rw [Option.map_eq_some_iff] at hn
      obtain ⟨p, hp, rfl⟩ := hn
      have h2 := List.mem_of_find?_eq_some hp
      have h3 := List.find?_some hp
      rw [hmem, raw, List.mem_map] at h2
      obtain ⟨q, hq, rfl⟩ := h2
      simp only [ofNat_toNat', beq_iff_eq] at h3
      rw [h3]
      exact hq
    · rw [Option.map_eq_none_iff, List.find?_eq_none]
      constructor
      · intro hx p hp e
        refine hx (p.1, p.2.toNat) ((hmem _).2 (List.mem_map.2 ⟨p, hp, rfl⟩)) ?_
        simp [e]
      · intro hx p hp
        rw [hmem, raw, List.mem_map] at hp
        obtain ⟨q, hq, rfl⟩ := hp
        simp only [ofNat_toNat', beq_iff_eq]
        exact fun e => hx q hq e.symm

/-- C56: before any name is registered `flg_name` aborts. -/
theorem C56_none_registered (σ : State) (S : Switches) (h : FlgReach σ S) (hne : S.names = []) (f : Flag) : flgName σ f = .abort := by
  have h1 := h.sim.hash
  cases hh : σ.hash with
  | none => simp only [flgName, hh]
  | some t => rw [hh] at h1; exact absurd hne h1.2

/-- Non-vacuity of `S.names ≠ []`: after registering "a" and the built-in "b". -/
example : ∃ σ S, FlgReach σ S ∧ S.names ≠ [] := by
  have hp : ∀ o ∈ [FlgOp.register 1 (some [97])], o.Proper := by
    intro o ho
    simp only [List.mem_singleton] at ho
    subst ho
    exact ⟨by decide, fun s e => by cases e; decide⟩
  have h1 : OneLowBit 1 := (oneLowBit_iff _).2 ⟨0, by decide⟩
  have h := Spec.run_sim_of FlgOp.Proper Sim _ _ flgStep_sim _ _ _ hp Sim.init
  have e : Spec.run (Spec.flgStep codeGroup) Switches.init [FlgOp.register 1 (some [97])] = .ok (Switches.init.addName 1 [97], [false]) := by
    simp only [Spec.run, Spec.flgStep, Switches.register, if_pos h1, Res.bind]
  rw [e] at h
  cases hm : Spec.run flgStep State.init [FlgOp.register 1 (some [97])] <;> rw [hm] at h <;> simp only [Spec.ResRel] at h
  exact ⟨_, _, ⟨_, _, _, hp, hm, e⟩, insert_ne_nil _ _ _⟩

end Maa.Flags
