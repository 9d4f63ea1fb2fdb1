import Verif.Model.Maa
import Verif.Props.Pr
import Verif.Props.StrStats
import Verif.Props.ListsOwned
import Verif.Props.TimerPrint
import Verif.Props.Flags
import Verif.Props.Error

/-! # C53: starting and shutting down the library -/

namespace Maa.Lib

open Spec (Reading Timers TimOp PrOp FlgOp DbgOp Switches)

/-- A state of pr.c after some history of proper calls. -/
def PrReach (σ : Pr.State) : Prop := ∃ hist xs, (∀ o ∈ hist, o.Proper σ.maxFd) ∧
  Spec.run Pr.step (Pr.State.init σ.maxFd) hist = .ok (σ, xs)

/-- Every module is in a state some history of proper calls leads to; the timers in use are `T`.  `maa_init` and
`maa_shutdown` only make calls on the modules, so histories of whole programs are covered (`Reach` is kept by both, see below). -/
structure World.Reach (w : World) (T : Timers) : Prop where
  pr : PrReach w.pr
  str : StrPool.GReach w.str
  lst : ∃ S, Lst.Reachable w.lst S
  tim : Timer.Reach w.tim T
  flg : ∃ S, Flags.FlgReach w.flg S
  dbg : ∃ S, Flags.DbgReach w.dbg S

/-- The library holds nothing: as at program start, but for addresses and numbers already used up. -/
structure World.Clean (w : World) : Prop where
  pr : w.pr.objects = none
  str : w.str.pool = none
  strMem : ∀ a, w.str.mem.mem a = none
  strCells : ∀ a, w.str.cells.mem a = none
  lst : w.lst.mem = none
  lstMem : ∀ a, w.lst.heap.mem a = none
  sl : ∀ l, w.sl.lists l = none
  tim : w.tim.hash = none
  timMem : ∀ a, w.tim.mem a = none
  flg : w.flg = Flags.State.init
  dbg : w.dbg = Flags.State.init

/-- The library is clean at program start. -/
theorem clean_init (maxFd : Nat) (p1 p2 p3 : Policy) : (World.init maxFd p1 p2 p3).Clean :=
  ⟨rfl, rfl, fun _ => rfl, fun _ => rfl, rfl, fun _ => rfl, fun _ => rfl, rfl, fun _ => rfl, rfl, rfl⟩

theorem reach_init (maxFd : Nat) {p1 p2 p3 : Policy} (h1 : Heap.Allocator p1) (h2 : Heap.Allocator p2)
    (h3 : Heap.Allocator p3) : (World.init maxFd p1 p2 p3).Reach (fun _ => none) where
  pr := ⟨[], [], by simp, rfl⟩
  str := .start h1 h2
  lst := ⟨_, p3, [], h3, .nil _ _⟩
  tim := .init
  flg := ⟨_, [], [], [], by simp, rfl, rfl⟩
  dbg := ⟨_, [], [], [], by simp, rfl, rfl⟩

theorem run_snoc {S O X : Type} (step : S → O → Res (S × X)) (hist : List O) : ∀ {s s' s'' : S} {xs : List X} {o : O} {x : X},
    Spec.run step s hist = .ok (s', xs) → step s' o = .ok (s'', x) → Spec.run step s (hist ++ [o]) = .ok (s'', xs ++ [x]) := by
  induction hist with
  | nil =>
    intro s s' s'' xs o x h1 h2
    simp only [Spec.run, Res.ok.injEq, Prod.mk.injEq] at h1
    obtain ⟨rfl, rfl⟩ := h1
    simp [Spec.run, h2, Res.bind]
  | cons p hist ih =>
    intro s s' s'' xs o x h1 h2
    simp only [Spec.run] at h1
    cases hp : step s p with
    | ok r =>
      rw [hp] at h1
      simp only [Res.bind] at h1
      cases hr : Spec.run step r.1 hist with
      | ok q =>
        rw [hr] at h1
        simp only [Res.ok.injEq, Prod.mk.injEq] at h1
        obtain ⟨rfl, rfl⟩ := h1
        have := ih (s := r.1) (s' := q.1) (xs := q.2) (by rw [hr]) h2
        simp [Spec.run, hp, Res.bind, this]
      | _ => rw [hr] at h1; simp at h1
    | _ => rw [hp] at h1; simp [Res.bind] at h1

/-- one more timer call -/
theorem tim_call {σ : Timer.State} {T T' : Timers} (h : Timer.Reach σ T) {o : TimOp} (ho : o.Proper) {y : Int}
    (hs : Spec.timStep Timer.difftime T o = .ok (T', y)) : ∃ σ', Timer.step σ o = .ok (σ', y) ∧ Timer.Reach σ' T' := by
  have sim := Timer.step_sim σ T o ho h.sim
  rw [hs] at sim
  cases hm : Timer.step σ o with
  | ok q =>
    rw [hm] at sim
    simp only [Spec.ResRel] at sim
    exact ⟨q.1, by rw [← sim.1], h.call ho hm hs⟩
  | _ => rw [hm] at sim; exact absurd sim (by simp [Spec.ResRel])

/-- C53: the timer that the theorems below call `total`. -/
theorem C53_total_name : total = "total".toUTF8.toList := by decide +kernel

theorem total_nul : (0 : Byte) ∉ total := by decide

theorem bindOk_inv {α β : Type} {x : Res α} {c : β} {p : α × β} (h : (x.bind fun s => Res.ok (s, c)) = .ok p) :
    x = .ok p.1 := by
  cases x with
  | ok a => simp only [Res.bind, Res.ok.injEq] at h; rw [← h]
  | _ => simp [Res.bind] at h

/-- C53: each module alone: its shutdown function succeeds in every reachable state, leaves nothing behind, and calling it
again changes nothing. -/
theorem C53_parts (w : World) (T : Timers) (h : w.Reach T) :
    (∃ g, StrPool.strDestroy w.str = .ok g ∧ g.pool = none ∧ (∀ a, g.mem.mem a = none) ∧ (∀ a, g.cells.mem a = none) ∧
      StrPool.strDestroy g = .ok g) ∧
    (∃ l, Lst.lstShutdown w.lst = .ok l ∧ l.mem = none ∧ (∀ a, l.heap.mem a = none) ∧ Lst.lstShutdown l = .ok l) ∧
    (∃ t, Timer.timShutdown w.tim = .ok t ∧ t.hash = none ∧ (∀ a, t.mem a = none) ∧ Timer.timShutdown t = .ok t) ∧
    (Flags.flgDestroy w.flg = .ok Flags.State.init ∧ Flags.flgDestroy Flags.State.init = .ok Flags.State.init) ∧
    (Flags.dbgDestroy w.dbg = .ok Flags.State.init ∧ Flags.dbgDestroy Flags.State.init = .ok Flags.State.init) ∧
    ((Pr.shutdown w.pr).1.objects = none ∧ Pr.shutdown (Pr.shutdown w.pr).1 = ((Pr.shutdown w.pr).1, { ret := 0, events := [] })) ∧
    ((∀ l, (slShutdown w.sl).lists l = none) ∧ slShutdown (slShutdown w.sl) = slShutdown w.sl) := by
  refine ⟨?_, ?_, ?_, ?_, ?_, ?_, ?_⟩
  · obtain ⟨M, i⟩ := h.str.inv
    obtain ⟨g, e1, e2, e3, -⟩ := i.destroy
    unfold StrPool.GInv at e2
    rw [e3] at e2
    exact ⟨g, e1, e3, e2.1.2, e2.2.2.1, by simp [StrPool.strDestroy, e3]⟩
  · obtain ⟨S, place, hist, hp, f⟩ := h.lst
    have own : Lst.Owned w.lst := by
      clear h
      have : ∀ {σ σ' S S' hist}, Lst.Follows σ S hist σ' S' → Lst.Owned σ → Lst.Owned σ' := by
        intro σ σ' S S' hist f
        induction f with
        | nil => exact id
        | cons _ hs _ _ _ ih => exact fun ho => ih (Lst.step_owned ho _ _ hs)
      exact this f Lst.init_owned
    have rep := f.rep (Lst.init_rep hp)
    rcases Lst.shutdown_good rep with hu | ⟨σ', S', x, e1, -, -⟩ | ⟨e1, e2⟩ | ⟨e1, e2⟩
    · simp [Spec.Lists.Undefined, Spec.LstOp.handle] at hu
    · simp only [Lst.step] at e1
      have e := bindOk_inv e1
      simp only at e
      have hm : σ'.mem = none := by
        unfold Lst.lstShutdown at e
        cases hp : w.lst.mem with
        | none => rw [hp] at e; simp only [Res.ok.injEq] at e; rw [← e]; exact hp
        | some p =>
          rw [hp] at e
          simp only at e
          cases hd : Objects.destroy w.lst.heap p with
          | ok q => rw [hd] at e; simp only [Res.bind, Res.ok.injEq] at e; rw [← e]
          | _ => rw [hd] at e; simp [Res.bind] at e
      have ho := Lst.step_owned own .shutdown (σ', 0) (by simp only [Lst.step, e, Res.bind])
      refine ⟨σ', e, hm, fun a => ?_, by simp [Lst.lstShutdown, hm]⟩
      cases ha : σ'.heap.mem a with
      | none => rfl
      | some c =>
        obtain ⟨p, hp, -⟩ := ho a (by simp [ha])
        rw [hm] at hp
        cases hp
    · exact absurd e2 (by simp [Spec.Lists.Allowed])
    · exact absurd e2 (by simp [Spec.Lists.Allowed])
  · obtain ⟨t, e1, -, e2, -, e3⟩ := Timer.shutdown_sim h.tim.sim
    refine ⟨t, e1, e2, e3, ?_⟩
    simp only [Timer.timShutdown, e2]
    cases t
    simp only at e2
    rw [e2]
  · obtain ⟨S, hS⟩ := h.flg
    exact ⟨Flags.flgDestroy_sim hS.sim, rfl⟩
  · obtain ⟨S, hS⟩ := h.dbg
    have : Flags.dbgDestroy w.dbg = Flags.flgDestroy w.dbg := rfl
    exact ⟨this ▸ Flags.flgDestroy_sim hS.sim, rfl⟩
  · unfold Pr.shutdown
    cases hp : w.pr.objects <;> simp [hp]
  · exact ⟨fun _ => rfl, rfl⟩

/-- after the calls of `maa_shutdown` the modules are again in states of some history -/
theorem reach_shutdown {w : World} {T : Timers} (h : w.Reach T) {g : StrPool.Global} (hg : StrPool.strDestroy w.str = .ok g)
    {l : Lst.State} (hl : Lst.lstShutdown w.lst = .ok l) {t : Timer.State} (ht : Timer.Reach t (fun _ => none)) (sl : Sl.State) (prog : Err.Prog) :
    (World.mk (Pr.shutdown w.pr).1 g l sl t Flags.State.init Flags.State.init prog).Reach (fun _ => none) where
  pr := by
    obtain ⟨hist, xs, hp, h1⟩ := h.pr
    have hm : (Pr.shutdown w.pr).1.maxFd = w.pr.maxFd := by
      unfold Pr.shutdown; cases w.pr.objects <;> rfl
    refine ⟨hist ++ [.shutdown], xs ++ [(Pr.shutdown w.pr).2], ?_, ?_⟩
    · intro o ho
      simp only [hm]
      rcases List.mem_append.1 ho with h | h
      · exact hp _ h
      · rw [List.mem_singleton.1 h]; trivial
    · simp only [hm]
      exact run_snoc _ _ h1 rfl
  str := .call h.str (o := .destroy) trivial (by simp only [StrPool.gstep, hg, Res.bind]; rfl)
  lst := by
    obtain ⟨S, place, hist, hp, f⟩ := h.lst
    have rep := f.rep (Lst.init_rep hp)
    have hs : Lst.step w.lst .shutdown = .ok (l, 0) := by simp only [Lst.step, hl, Res.bind]
    rcases Lst.shutdown_good rep with hu | ⟨σ', S', x, e1, e2, e3⟩ | ⟨e1, e2⟩ | ⟨e1, e2⟩
    · simp [Spec.Lists.Undefined, Spec.LstOp.handle] at hu
    · rw [hs] at e1
      simp only [Res.ok.injEq, Prod.mk.injEq] at e1
      obtain ⟨rfl, rfl⟩ := e1
      exact ⟨S', place, hist ++ [.shutdown], hp, f.snoc (by simp [Spec.Lists.Undefined, Spec.LstOp.handle]) hs e2 (fun i l h => e3.match i l h)⟩
    · exact absurd e2 (by simp [Spec.Lists.Allowed])
    · exact absurd e2 (by simp [Spec.Lists.Allowed])
  tim := ht
  flg := ⟨_, [], [], [], by simp, rfl, rfl⟩
  dbg := ⟨_, [], [], [], by simp, rfl, rfl⟩

/-- whether a switch is on, as `dbg_test` sees it -/
theorem test_isOn {σ : Flags.State} {S : Switches} (h : Flags.DbgReach σ S) (f : Spec.Flag) (hf : f.toNat < 2 ^ 32) :
    (Flags.dbgTest σ f != 0) = S.isOn (Spec.codeGroup (Spec.group f)) f := by
  have := Flags.dbgStep_sim σ S (.test f) hf h.sim
  simp only [Flags.dbgStep, Spec.dbgStep, Spec.ResRel] at this
  exact this.1

/-- C53: `maa_shutdown` in any state in which the timer "total" exists (`maa_init` starts it) succeeds, leaves the library
clean and kills the children still open.  It prints the version when `.memory` or `.time` is on, then the statistics of the global
string pool when `.memory` is on, then, when `.time` is on, the lines of all existing timers, each once, "total" having been stopped. -/
theorem C53_maa_shutdown (w : World) (T : Timers) (h : w.Reach T) (ht : T total ≠ none) (r : Reading) (S : Switches)
    (hS : Flags.DbgReach w.dbg S) :
    ∃ (w' : World) (s : StrPool.Stats) (T' : Timers) (ls : List (List Byte × Spec.Timer)) (memory time : Bool),
      maaShutdown w r = .ok (w', (Pr.shutdown w.pr).2.events,
        (if memory || time then [Report.version] else []) ++ (if memory then [Report.strings s] else []) ++
          (if time then [Report.timers (ls.flatMap fun p => Spec.timerLine p.1 p.2)] else [])) ∧
      w'.Clean ∧ w'.Reach (fun _ => none) ∧ w'.prog = w.prog ∧
      memory = S.isOn 3 MAA_MEMORY ∧ time = S.isOn 3 MAA_TIME ∧ StrPool.strGetStats w.str = .ok s ∧
      Spec.timStep Timer.difftime T (.stop (some total) r) = .ok (T', 0) ∧
      (ls.map Prod.fst).Nodup ∧ ∀ n t, (n, t) ∈ ls ↔ T' n = some t := by
  obtain ⟨⟨g, g1, g2, g3, g4, -⟩, ⟨l, l1, l2, l3, -⟩, -, ⟨f1, -⟩, ⟨d1, -⟩, ⟨p1, -⟩, ⟨s1, -⟩⟩ := C53_parts w T h
  obtain ⟨⟨st, hst⟩, -⟩ := StrPool.C66_global w.str h.str
  obtain ⟨v, hv⟩ := Option.ne_none_iff_exists'.1 ht
  have hstop : ∃ T', Spec.timStep Timer.difftime T (.stop (some total) r) = .ok (T', 0) := by
    simp only [Spec.timStep, Timers.on, hv]
    exact ⟨_, rfl⟩
  obtain ⟨T', hs⟩ := hstop
  obtain ⟨t, t1, t2⟩ := tim_call h.tim (o := .stop (some total) r) (by intro s hs; simp only [TimOp.name, Option.some.injEq] at hs; rw [← hs]; exact total_nul) hs
  have t1' : Timer.timStop w.tim (some (CStr.ofStr total)) r = .ok t := by
    simp only [Timer.step, Option.map_some] at t1
    exact bindOk_inv t1
  obtain ⟨tp, ls, q1, q2, q3, q4⟩ := Timer.C65_print_timers t T' t2
  have hm := test_isOn hS MAA_MEMORY (by decide)
  have htm := test_isOn hS MAA_TIME (by decide)
  have c1 : Spec.codeGroup (Spec.group MAA_MEMORY) = 3 := by decide
  have c2 : Spec.codeGroup (Spec.group MAA_TIME) = 3 := by decide
  rw [c1] at hm
  rw [c2] at htm
  -- the timers after the printing, if any
  have hx : ∃ tx, Timer.Reach tx T' ∧
      (if S.isOn 3 MAA_TIME then (Timer.timPrintTimers t).bind fun q => .ok (q.1, [Report.timers q.2]) else .ok (t, [])) =
        Res.ok (tx, if S.isOn 3 MAA_TIME then [Report.timers (ls.flatMap fun p => Spec.timerLine p.1 p.2)] else []) := by
    cases S.isOn 3 MAA_TIME
    · exact ⟨t, t2, rfl⟩
    · exact ⟨tp, q2, by simp only [if_true, q1, Res.bind]⟩
  obtain ⟨tx, x1, x2⟩ := hx
  obtain ⟨t', u1, -, u2, -, u3⟩ := Timer.shutdown_sim x1.sim
  obtain ⟨t'', v1, v2⟩ := tim_call x1 (o := .shutdown) (by intro s hs; simp [TimOp.name] at hs) (y := 0) rfl
  have : t'' = t' := by
    simp only [Timer.step, u1, Res.bind, Res.ok.injEq, Prod.mk.injEq] at v1
    exact v1.1.symm
  subst this
  refine ⟨World.mk (Pr.shutdown w.pr).1 g l (slShutdown w.sl) t'' Flags.State.init Flags.State.init w.prog, st, T', ls,
    S.isOn 3 MAA_MEMORY, S.isOn 3 MAA_TIME, ?_,
    ⟨p1, g2, g3, g4, l2, l3, s1, u2, u3, rfl, rfl⟩, reach_shutdown h g1 l1 v2 _ _, rfl, rfl, rfl, hst, hs, q3, q4⟩
  have hy : (if S.isOn 3 MAA_MEMORY then (StrPool.strGetStats w.str).bind fun s => .ok [Report.strings s] else .ok []) =
      Res.ok (if S.isOn 3 MAA_MEMORY then [Report.strings st] else []) := by
    cases S.isOn 3 MAA_MEMORY
    · rfl
    · simp only [if_true, hst, Res.bind]
  have okB : ∀ {α β : Type} (a : α) (f : α → Res β), (Res.ok a).bind f = f a := fun _ _ => rfl
  simp only [maaShutdown, hm, htm, hy, okB, g1, l1, t1', x2, u1, f1, d1]

/-- The switches with the names of a list registered one after the other. -/
def addAll (S : Switches) (bs : List (BitVec 64 × List Byte)) : Switches := bs.foldl (fun S b => S.addName b.1 b.2) S

theorem registerAll_reach : ∀ (bs : List (BitVec 64 × List Byte)), (∀ b ∈ bs, b.1.toNat < 2 ^ 32 ∧ Spec.OneLowBit b.1 ∧ (0 : Byte) ∉ b.2) →
    ∀ σ S, Flags.DbgReach σ S → ∃ σ', registerAll bs σ = .ok σ' ∧ Flags.DbgReach σ' (addAll S bs) := by
  intro bs
  induction bs with
  | nil => intro _ σ S h; exact ⟨σ, rfl, h⟩
  | cons b bs ih =>
    intro hb σ S h
    obtain ⟨b1, b2, b3⟩ := hb b (by simp)
    have hpr : (DbgOp.registerInternal b.1 (some b.2)).Proper := ⟨b1, fun s hs => by cases hs; exact b3⟩
    have sim := Flags.dbgStep_sim σ S (.registerInternal b.1 (some b.2)) hpr h.sim
    have hspec : Spec.dbgStep Spec.codeGroup S (.registerInternal b.1 (some b.2)) = .ok (S.addName b.1 b.2, false) := by
      simp only [Spec.dbgStep, Switches.register, if_pos b2, Res.bind]
    rw [hspec] at sim
    cases hm : Flags.dbgStep σ (.registerInternal b.1 (some b.2)) with
    | ok q =>
      obtain ⟨hist, xs, ys, hp, h1, h2⟩ := h
      have hreach : Flags.DbgReach q.1 (S.addName b.1 b.2) := by
        refine ⟨hist ++ [.registerInternal b.1 (some b.2)], xs ++ [q.2], ys ++ [false], ?_, run_snoc _ _ h1 hm, run_snoc _ _ h2 hspec⟩
        intro o ho
        rcases List.mem_append.1 ho with h | h
        · exact hp _ h
        · rw [List.mem_singleton.1 h]; exact hpr
      obtain ⟨σ', k1, k2⟩ := ih (fun b hb' => hb b (by simp [hb'])) q.1 _ hreach
      refine ⟨σ', ?_, k2⟩
      have : Flags.dbgRegisterInternal σ b.1 (some (CStr.ofStr b.2)) = .ok q.1 := by
        simp only [Flags.dbgStep, Option.map_some] at hm
        exact bindOk_inv hm
      simp only [registerAll, this, Res.bind]
      exact k1
    | _ => rw [hm] at sim; exact absurd sim (by simp [Spec.ResRel])

theorem builtins_ok : ∀ b ∈ builtins, b.1.toNat < 2 ^ 32 ∧ Spec.OneLowBit b.1 ∧ (0 : Byte) ∉ b.2 := by
  have hone : ∀ f : BitVec 64, (∃ b, b < 30 ∧ f = BitVec.ofNat 64 (2 ^ 31 + 2 ^ 30 + 2 ^ b)) → f.toNat < 2 ^ 32 ∧ Spec.OneLowBit f := by
    rintro f ⟨b, hb, rfl⟩
    have hlt : (2 : Nat) ^ b < 2 ^ 30 := Nat.pow_lt_pow_right (by omega) hb
    refine ⟨?_, (Flags.oneLowBit_iff _).2 ⟨b, ?_⟩⟩
    · rw [BitVec.toNat_ofNat, Nat.mod_eq_of_lt (by omega)]
      omega
    · rw [BitVec.toNat_and, BitVec.toNat_ofNat, Nat.mod_eq_of_lt (by omega), show (0x3fffffff : BitVec 64).toNat = 2 ^ 30 - 1 by decide,
        Nat.and_two_pow_sub_one_eq_mod]
      generalize (2 : Nat) ^ b = c at *
      norm_num at *
      omega
  intro b hb
  have key : (∃ k, k < 30 ∧ b.1 = BitVec.ofNat 64 (2 ^ 31 + 2 ^ 30 + 2 ^ k)) ∧ (0 : Byte) ∉ b.2 := by
    simp only [builtins, List.mem_cons, List.not_mem_nil, or_false] at hb
    rcases hb with rfl | rfl | rfl | rfl | rfl | rfl
    · exact ⟨⟨29, by decide, by decide⟩, by decide⟩
    · exact ⟨⟨28, by decide, by decide⟩, by decide⟩
    · exact ⟨⟨27, by decide, by decide⟩, by decide⟩
    · exact ⟨⟨26, by decide, by decide⟩, by decide⟩
    · exact ⟨⟨24, by decide, by decide⟩, by decide⟩
    · exact ⟨⟨25, by decide, by decide⟩, by decide⟩
  exact ⟨(hone _ key.1).1, (hone _ key.1).2, key.2⟩

/-- The result of `maa_init` in terms of the modules. -/
theorem maaInit_reach (w : World) (T : Timers) (h : w.Reach T) (p rest : List Byte) (hp : (0 : Byte) ∉ p) (r : Reading) :
    ∃ w' T', maaInit w (some (p ++ 0 :: rest)) r = .ok w' ∧ w'.Reach T' ∧ T' total ≠ none ∧
      (∀ n, n ≠ total → T' n = T n) ∧ ∀ S, Flags.DbgReach w.dbg S → Flags.DbgReach w'.dbg (addAll S builtins) := by
  have hstart : ∃ T' y, Spec.timStep Timer.difftime T (.start (some total) r) = .ok (T', y) ∧ T' total ≠ none ∧ ∀ n, n ≠ total → T' n = T n := by
    simp only [Spec.timStep]
    cases T total with
    | none => exact ⟨_, _, rfl, by simp [Timers.set], fun n hn => by simp [Timers.set, hn]⟩
    | some t => exact ⟨_, _, rfl, by simp [Timers.set], fun n hn => by simp [Timers.set, hn]⟩
  obtain ⟨T', y, hs, ht, ho⟩ := hstart
  obtain ⟨t, t1, t2⟩ := tim_call h.tim (o := .start (some total) r) (by intro s hs; simp only [TimOp.name, Option.some.injEq] at hs; rw [← hs]; exact total_nul) hs
  have t1' : Timer.timStart w.tim (some (CStr.ofStr total)) r = .ok t := by
    simp only [Timer.step, Option.map_some] at t1
    exact bindOk_inv t1
  obtain ⟨S, hS⟩ := h.dbg
  obtain ⟨d, d1, d2⟩ := registerAll_reach builtins builtins_ok w.dbg S hS
  obtain ⟨prog, q, q1, -, -⟩ := Err.C51_basename p rest hp
  refine ⟨{ w with tim := t, prog := prog, dbg := d }, T', by simp only [maaInit, t1', q1, d1, Res.bind], ⟨h.pr, h.str, h.lst, t2, h.flg, ⟨_, d2⟩⟩, ht, ho, ?_⟩
  intro S2 hS2
  obtain ⟨d', d1', d2'⟩ := registerAll_reach builtins builtins_ok w.dbg S2 hS2
  rw [d1] at d1'
  cases d1'
  exact d2'

/-- C53: `maa_init` succeeds in every reachable state and starts the timer "total", whatever the program name. -/
theorem C53_maa_init (w : World) (T : Timers) (h : w.Reach T) (p rest : List Byte) (hp : (0 : Byte) ∉ p) (r : Reading) :
    ∃ w' T', maaInit w (some (p ++ 0 :: rest)) r = .ok w' ∧ w'.Reach T' ∧ T' total ≠ none ∧
      (∀ n, n ≠ total → T' n = T n) := by
  obtain ⟨w', T', h1, h2, h3, h4, -⟩ := maaInit_reach w T h p rest hp r
  exact ⟨w', T', h1, h2, h3, h4⟩

theorem find_insert_new (N : List (List Byte × BitVec 64)) (s t : List Byte) (f : BitVec 64) (h : Spec.find (· == ·) N s = none) :
    Spec.find (· == ·) (Spec.insert (· == ·) N s f).1 t = if t = s then some f else Spec.find (· == ·) N t := by
  simp only [Spec.insert, h]
  by_cases e : t = s
  · simp [Spec.find, e]
  · have : ¬ s = t := fun h => e h.symm
    simp [Spec.find, e, this]

theorem addAll_lookup : ∀ (bs : List (BitVec 64 × List Byte)) (S : Switches), (bs.map Prod.snd).Nodup → (∀ b ∈ bs, S.lookup b.2 = none) →
    (∀ b ∈ bs, (addAll S bs).lookup b.2 = some b.1) ∧ (∀ s, s ∉ bs.map Prod.snd → (addAll S bs).lookup s = S.lookup s) ∧ (addAll S bs).on = S.on := by
  intro bs
  induction bs with
  | nil => intro S _ _; exact ⟨by simp, fun _ _ => rfl, rfl⟩
  | cons b bs ih =>
    intro S hn hnew
    simp only [List.map_cons, List.nodup_cons] at hn
    have hl : ∀ t, (S.addName b.1 b.2).lookup t = if t = b.2 then some b.1 else S.lookup t :=
      fun t => find_insert_new S.names b.2 t b.1 (hnew b (by simp))
    obtain ⟨i1, i2, i3⟩ := ih (S.addName b.1 b.2) hn.2 (fun c hc => by
      rw [hl, if_neg]
      · exact hnew c (by simp [hc])
      · intro e
        exact hn.1 (e ▸ List.mem_map_of_mem hc))
    have e : addAll S (b :: bs) = addAll (S.addName b.1 b.2) bs := rfl
    rw [e]
    refine ⟨fun c hc => ?_, fun s hs => ?_, i3⟩
    · rcases List.mem_cons.1 hc with rfl | hc
      · rw [i2 _ hn.1, hl, if_pos rfl]
      · exact i1 c hc
    · simp only [List.map_cons, List.mem_cons, not_or] at hs
      rw [i2 _ hs.2, hl, if_neg hs.1]

/-- The switches of the library itself, as maa.h documents them: name and flag. -/
def documented : List (String × Nat) :=
  [(".memory", 0xe0000000), (".time", 0xd0000000), (".pr", 0xc8000000), (".sl", 0xc4000000), (".parse", 0xc2000000), (".src", 0xc1000000)]

/-- C53: `maa_init` registers the switches of the library: when their names were free, each documented name now stands for its
documented flag, no other name changes its meaning, and nothing is switched on or off. -/
theorem C53_maa_switches (w : World) (T : Timers) (h : w.Reach T) (S : Switches) (hS : Flags.DbgReach w.dbg S)
    (free : ∀ d ∈ documented, S.lookup d.1.toUTF8.toList = none)
    (p rest : List Byte) (hp : (0 : Byte) ∉ p) (r : Reading) :
    ∃ w' S', maaInit w (some (p ++ 0 :: rest)) r = .ok w' ∧ Flags.DbgReach w'.dbg S' ∧ S'.on = S.on ∧
      (∀ d ∈ documented, S'.lookup d.1.toUTF8.toList = some (BitVec.ofNat 64 d.2)) ∧
      (∀ s, (∀ d ∈ documented, s ≠ d.1.toUTF8.toList) → S'.lookup s = S.lookup s) := by
  obtain ⟨w', T', h1, -, -, -, h5⟩ := maaInit_reach w T h p rest hp r
  have hdoc : ∀ b ∈ builtins, ∃ d ∈ documented, b.2 = d.1.toUTF8.toList ∧ b.1 = BitVec.ofNat 64 d.2 := by
    decide +kernel
  have hdoc' : ∀ d ∈ documented, ∃ b ∈ builtins, b.2 = d.1.toUTF8.toList ∧ b.1 = BitVec.ofNat 64 d.2 := by
    decide +kernel
  obtain ⟨a1, a2, a3⟩ := addAll_lookup builtins S (by decide) (fun b hb => by
    obtain ⟨d, hd, e, -⟩ := hdoc b hb
    rw [e]; exact free d hd)
  refine ⟨w', _, h1, h5 S hS, a3, fun d hd => ?_, fun s hs => a2 s fun hm => ?_⟩
  · obtain ⟨b, hb, e1, e2⟩ := hdoc' d hd
    rw [← e1, ← e2]
    exact a1 b hb
  · obtain ⟨b, hb, rfl⟩ := List.mem_map.1 hm
    obtain ⟨d, hd, e, -⟩ := hdoc b hb
    exact hs d hd e

/-- Non-vacuity: at program start all names are free; afterwards `dbg_set(".pr")` switches exactly MAA_PR on. -/
example : ∀ d ∈ documented, Switches.init.lookup d.1.toUTF8.toList = none := by
  intro d _
  rfl

/-- C53: the timer "total" stays until the timers are shut down, so `maa_init`, any calls, `maa_shutdown` works. -/
theorem C53_total_stays (hist : List TimOp) (hs : TimOp.shutdown ∉ hist) : ∀ (T T' : Timers) (ys : List Int), T total ≠ none →
    Spec.run (Spec.timStep Timer.difftime) T hist = .ok (T', ys) → T' total ≠ none := by
  induction hist with
  | nil => intro T T' ys h e; simp only [Spec.run, Res.ok.injEq, Prod.mk.injEq] at e; exact e.1 ▸ h
  | cons o os ih =>
    intro T T' ys h e
    have hos : TimOp.shutdown ∉ os := fun hm => hs (List.mem_cons_of_mem _ hm)
    have ho : o ≠ .shutdown := fun he => hs (by simp [he])
    simp only [Spec.run] at e
    have set_ne : ∀ n t, (T.set n t) total ≠ none := by
      intro n t
      unfold Timers.set
      split
      · simp
      · exact h
    have one : ∀ q, Spec.timStep Timer.difftime T o = .ok q → q.1 total ≠ none := by
      intro q hq
      cases o with
      | shutdown => exact absurd rfl ho
      | start name r =>
        cases name with
        | none => simp [Spec.timStep] at hq
        | some n =>
          simp only [Spec.timStep] at hq
          split at hq <;> (simp only [Res.ok.injEq] at hq; rw [← hq]; exact set_ne _ _)
      | _ name =>
        cases name with
        | none => simp [Spec.timStep, Timers.on] at hq
        | some n =>
          simp only [Spec.timStep, Timers.on] at hq
          split at hq
          · simp at hq
          · simp only [Res.ok.injEq] at hq
            rw [← hq]
            first | exact set_ne _ _ | exact h
    cases hq : Spec.timStep Timer.difftime T o with
    | ok q =>
      rw [hq] at e
      simp only [Res.bind] at e
      cases hr : Spec.run (Spec.timStep Timer.difftime) q.1 os with
      | ok p =>
        rw [hr] at e
        simp only [Res.ok.injEq, Prod.mk.injEq] at e
        exact e.1 ▸ ih hos q.1 p.1 p.2 (one q hq) hr
      | _ => rw [hr] at e; simp at e
    | _ => rw [hq] at e; simp [Res.bind] at e

/-- C53 refuted for `maa_shutdown` as a whole: where the timer "total" does not exist — after a first `maa_shutdown`, or
without `maa_init` — it aborts. -/
theorem C53_maa_again_refuted (w : World) (T : Timers) (h : w.Reach T) (ht : T total = none) (r : Reading) :
    maaShutdown w r = .abort := by
  obtain ⟨⟨g, g1, -⟩, ⟨l, l1, -⟩, -⟩ := C53_parts w T h
  have sim := Timer.step_sim w.tim T (.stop (some total) r) (by intro s hs; simp only [TimOp.name, Option.some.injEq] at hs; rw [← hs]; exact total_nul) h.tim.sim
  have : Spec.timStep Timer.difftime T (.stop (some total) r) = .abort := by simp only [Spec.timStep, Timers.on, ht]
  rw [this] at sim
  have hst : Timer.timStop w.tim (some (CStr.ofStr total)) r = .abort := by
    simp only [Timer.step, Option.map_some] at sim
    cases hm : Timer.timStop w.tim (some (CStr.ofStr total)) r with
    | abort => rfl
    | _ => rw [hm] at sim; exact absurd sim (by simp [Spec.ResRel, Res.bind])
  obtain ⟨⟨st, hstats⟩, -⟩ := StrPool.C66_global w.str h.str
  unfold maaShutdown
  cases Flags.dbgTest w.dbg MAA_MEMORY != 0
  · simp [g1, l1, hst, Res.bind]
  · simp [hstats, g1, l1, hst, Res.bind]

/-- Non-vacuity: from program start, init and shutdown, twice; a third shutdown aborts. -/
example (r : Reading) : ∃ w1 w2 w3 w4 e2 e4, maaInit (World.init 16) (some [112, 0]) r = .ok w1 ∧ maaShutdown w1 r = .ok (w2, e2) ∧ w2.Clean ∧
    maaInit w2 (some [112, 0]) r = .ok w3 ∧ maaShutdown w3 r = .ok (w4, e4) ∧ w4.Clean ∧ maaShutdown w4 r = .abort := by
  obtain ⟨w1, T1, a1, a2, a3, -⟩ := C53_maa_init (World.init 16) _ (reach_init 16 Heap.neverAgain_ok Heap.neverAgain_ok Heap.neverAgain_ok) [112] [] (by simp) r
  obtain ⟨S1, s1⟩ := a2.dbg
  obtain ⟨w2, _, _, _, _, _, b1, b2, b3, -⟩ := C53_maa_shutdown w1 T1 a2 a3 r S1 s1
  obtain ⟨w3, T3, c1, c2, c3, -⟩ := C53_maa_init w2 _ b3 [112] [] (by simp) r
  obtain ⟨S3, s3⟩ := c2.dbg
  obtain ⟨w4, _, _, _, _, _, d1, d2, d3, -⟩ := C53_maa_shutdown w3 T3 c2 c3 r S3 s3
  exact ⟨w1, w2, w3, w4, _, _, a1, b1, b2, c1, d1, d2, C53_maa_again_refuted w4 _ d3 rfl r⟩

end Maa.Lib
