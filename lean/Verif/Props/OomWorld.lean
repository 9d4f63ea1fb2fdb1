import Verif.Lemmas.OomWorld
import Verif.Props.OomNames
import Verif.Props.Names
import Verif.Props.PrExec
import Verif.Props.Maa

/-! # Property C78, continued: the global string pool, the log, the source manager, child processes, maa_init -/

namespace Maa.Spec

/-- The requests of one call on the source manager: six to create it (one for the lines, two for a string memory, three for an object pool), two for a
line or a token, one more when the line fills the array, one for an answer of `src_get_stats` and two more when the manager exists. -/
def srcCost (S : Src) : SrcOp → Nat
  | .create => 6
  | .line _ _ => (if S.alive then 0 else 6) + 2 + (if (S.used + 1) % 1000 = 0 then 1 else 0)
  | .get _ => 2
  | .stats => if S.alive then 3 else 1
  | _ => 0

/-- The requests of a history. -/
def srcCosts (S : Src) : List SrcOp → Nat
  | [] => 0
  | o :: os => srcCost S o + match srcStep S o with
    | .ok r => srcCosts r.1 os
    | _ => 0

/-- How often a file was opened. -/
def opened (events : List LogEvent) : Nat := events.countP fun e => match e with | .opened _ _ => true | _ => false

/-- The requests of one call on the log that had the effects `events`, but for those of the string pool: two buffers for the names of a log file, a copy of the
name when a file is opened; a message takes none, unless it goes to a new file. -/
def logCost : LogOp → List LogEvent → Nat
  | .file (some _) (some _) _, events => 2 + opened events
  | _, events => opened events

/-- The requests of one call that answered `out`, but for those of the string pool. -/
def nameCost (S : Src) : NameOp → NameOut → Nat
  | .log o, .log events => logCost o events
  | .src o, _ => srcCost S o
  | _, _ => 0

/-- The requests of a history, but for those of the string pool. -/
def nameCosts (facilities : List (List Byte × Int)) (s : Sinks × Src) : List NameOp → Nat
  | [] => 0
  | o :: os => match nameStep facilities s o with
    | .ok r => nameCost s.2 o r.2 + nameCosts facilities r.1 os
    | _ => 0

end Maa.Spec

namespace Maa.Oom

open Spec (run observe OrderlyEnd EndsAtFailure CallEnds CallEndsOrderly onlyFirst NameOp NameOut Sinks Src Safe LogEvent PrFlags PrEnv PrOut Ended ResRel)
open StrPool (Global GReach)
open Names (World)

/-! ## The global string pool, the log and the source manager -/

/-- **C78, the global string pool** (partial): whichever requests are refused, any history of calls of `str_*` from any state of the pool either ends at
the first request refused, with a message or in undefined behaviour, or returns what it returns with enough memory (C26 to C29). -/
theorem C78_global_strings_partial (fails : Fails) (g : Global) (hist : List Spec.GlobalOp) :
    EndsAtFailure fails (run (globalStep fails) (g, 0) hist) (observe (run StrPool.gstep g hist)) :=
  start_ends global_follows hist (mk := .ok (g, 0)) (y := .ok g) (.ok rfl)

/-- **C78, strings, log and source manager together** (partial): whichever requests are refused, a program that uses them (as in C84) either ends at the
first request refused, with a message or in undefined behaviour, or logs and answers what it does with enough memory. -/
theorem C78_names_partial (fails : Fails) (g : Global) (r : GReach g) (hist : List NameOp)
    (safe : Safe Log.facilitynames g.pool.isSome (Sinks.init, Src.init) hist) :
    EndsAtFailure fails (run (worldStep fails) (World.start g, 0) hist)
      (observe (run (Spec.nameStep Log.facilitynames) (Sinks.init, Src.init) hist)) := by
  rw [← (Names.C84_names g r hist safe).1]
  exact start_ends world_follows hist (mk := .ok (World.start g, 0)) (y := .ok (World.start g)) (.ok rfl)

/-- **C78 refuted**: on every source manager, a token with memory for the token but not for the bookkeeping is undefined behaviour; and so is a line
that could be stored. -/
theorem C78_token_refuted (fails : Fails) (w : World) (n : Nat) (hl : w.src.lines ≠ none) (hf : fails n = false) (hg : fails (n + 1) = true) (k : Int)
    (buf : List Byte) (len : Nat) :
    worldStep fails (w, n) (.src (.get k)) = .ub ∧ worldStep fails (w, n) (.src (.line buf len)) = .ub := by
  obtain ⟨a, ha⟩ : ∃ a, w.src.lines = some a := by cases h : w.src.lines <;> simp_all
  constructor
  · simp [worldStep, srcStep, srcGet, ha, xreq, hf, bareReq, hg, Res.bind]
  · simp only [worldStep, srcStep, srcLine, srcEnsure, ha, xreq, hf, Res.bind]
    cases hc : Source.copy buf len <;> simp [bareReq, hg]
    · simp only [Source.copy] at hc; split at hc <;> cases hc
    · simp only [Source.copy] at hc; split at hc <;> cases hc

/-- With no memory at all, in any state, the program ends with a message: the manager is not created, a token or a line is not made; the statistics are not
returned. -/
theorem C78_nothing_left (w : World) (n : Nat) (k : Int) (buf : List Byte) (len : Nat) :
    worldStep (fun _ => true) (w, n) (.src .create) = .fatal ∧
    worldStep (fun _ => true) (w, n) (.src (.line buf len)) = .fatal ∧
    worldStep (fun _ => true) (w, n) (.src (.get k)) = .fatal ∧
    worldStep (fun _ => true) (w, n) (.src .stats) = .fatal := by
  refine ⟨?_, ?_, ?_, ?_⟩
  · simp only [worldStep, srcStep, srcCreate]
    split <;> simp [xreq, Res.bind]
  · simp only [worldStep, srcStep, srcLine, srcEnsure, srcCreate]
    cases w.src.lines <;> simp [xreq, Res.bind]
  · simp only [worldStep, srcStep, srcGet]
    split <;> simp [xreq, Res.bind]
  · simp [worldStep, srcStep, srcStats, xreq, Res.bind]

/-! ### How many requests the source manager makes -/

theorem src_count {fails : Fails} {g : Global} {σ : Source.StateOf Ptr} {S : Src} {n n' : Nat} {o : Spec.SrcOp} (ho : ∀ f, o ≠ .newFile f)
    {r : (Global × Source.StateOf Ptr) × Spec.SrcVal} (halive : S.alive = σ.lines.isSome) (hused : σ.used = S.used)
    (hcount : ∀ a, σ.lines = some a → S.room = true → σ.count = 1000 * (S.used / 1000 + 1))
    (hroom : ∀ a, σ.lines = some a → S.room = false → a.length ≤ S.used)
    (e : srcStep fails g σ n o = .ok (r, n')) : n' = n + Spec.srcCost S o := by
  have hcr : ∀ {τ : Source.StateOf Ptr} {n n' : Nat}, srcCreate fails σ n = .ok (τ, n') →
      n' = n + 6 ∧ σ.lines = none ∧ τ.lines = some (List.replicate 1000 none) ∧ τ.count = 1000 ∧ τ.used = σ.used := by
    intro τ n n' e
    unfold srcCreate at e
    cases hl : σ.lines with
    | some a => rw [hl] at e; cases e
    | none =>
      rw [hl] at e
      simp only [createStrings, createObjects, Res.bind_ok_iff, xreq_ok, Res.ok.injEq, quiet_ok] at e
      obtain ⟨_, ⟨-, rfl⟩, p, ⟨_, ⟨-, rfl⟩, _, ⟨-, rfl⟩, e1⟩, q, ⟨_, ⟨-, rfl⟩, _, ⟨-, rfl⟩, _, ⟨-, rfl⟩, e2⟩, e3, e4⟩ := e
      subst e1; subst e2
      simp only [Source.srcCreate, hl, Res.ok.injEq] at e3
      subst e3
      exact ⟨by omega, rfl, rfl, rfl, rfl⟩
  cases o with
  | create =>
    simp only [srcStep, Res.bind_ok_iff, Res.ok.injEq, Prod.mk.injEq] at e
    obtain ⟨⟨τ, m⟩, e1, -, rfl⟩ := e
    exact (hcr e1).1
  | line buf len =>
    simp only [srcStep, srcLine, Res.bind_ok_iff, xreq_ok, bareReq_ok, Res.ok.injEq, Prod.mk.injEq] at e
    obtain ⟨⟨q, m⟩, ⟨⟨τ, m1⟩, e1, _, ⟨-, rfl⟩, s, e2, _, ⟨-, rfl⟩, s', e3, a, e4, m2, e5, t, e6, e7, rfl⟩, -, rfl⟩ := e
    simp only at e4 e5 e6
    -- the manager
    obtain ⟨h1, h2, h3⟩ : m1 = n + (if S.alive then 0 else 6) ∧ τ.used = S.used ∧ τ.count = 1000 * (S.used / 1000 + 1) := by
      have hlen : τ.used < (Source.arr τ).length := by
        unfold Source.setLine at e4
        split at e4
        · assumption
        · cases e4
      unfold srcEnsure at e1
      cases hl : σ.lines with
      | some a =>
        rw [hl] at e1
        simp only [Res.ok.injEq, Prod.mk.injEq] at e1
        obtain ⟨rfl, rfl⟩ := e1
        rw [hl] at halive
        refine ⟨by rw [halive]; rfl, hused, hcount a hl ?_⟩
        by_contra hr
        have hr : S.room = false := by simpa using hr
        have := hroom a hl hr
        rw [Source.arr, hl] at hlen
        simp only [Option.getD_some] at hlen
        omega
      | none =>
        rw [hl] at e1
        simp only at e1
        obtain ⟨k1, -, k2, k3, k4⟩ := hcr e1
        rw [hl] at halive
        refine ⟨by rw [halive]; exact k1, by rw [k4, hused], ?_⟩
        rw [Source.arr, k2, k4, hused] at hlen
        simp only [Option.getD_some, List.length_replicate] at hlen
        rw [k3]
        omega
    rw [h2, h3] at e5
    show _ = n + ((if S.alive then 0 else 6) + 2 + (if (S.used + 1) % 1000 = 0 then 1 else 0))
    by_cases h : S.used + 1 ≥ 1000 * (S.used / 1000 + 1)
    · rw [if_pos h] at e5
      rw [xreq_ok] at e5
      have h0 : (S.used + 1) % 1000 = 0 := by omega
      rw [if_pos h0]
      omega
    · rw [if_neg h] at e5
      have e5 := Res.ok.inj e5
      have h0 : ¬ (S.used + 1) % 1000 = 0 := by omega
      rw [if_neg h0]
      omega
  | newFile f => exact absurd rfl (ho f)
  | get k =>
    simp only [srcStep, srcGet, Res.bind_ok_iff, Res.ok.injEq, Prod.mk.injEq] at e
    obtain ⟨⟨τ, m⟩, e1, -, rfl⟩ := e
    split at e1
    · cases e1
    · simp only [Res.bind_ok_iff, xreq_ok, bareReq_ok, quiet_ok] at e1
      obtain ⟨_, ⟨-, rfl⟩, _, ⟨-, rfl⟩, -, rfl⟩ := e1
      rfl
  | stats =>
    simp only [srcStep, srcStats, Res.bind_ok_iff, xreq_ok, Res.ok.injEq, Prod.mk.injEq] at e
    obtain ⟨⟨τ, m⟩, ⟨_, ⟨-, rfl⟩, e1⟩, -, rfl⟩ := e
    show m = n + if S.alive then 3 else 1
    rw [halive]
    split at e1
    · rename_i h
      simp only [Res.bind_ok_iff, xreq_ok, Res.ok.injEq, Prod.mk.injEq] at e1
      obtain ⟨_, ⟨-, rfl⟩, _, ⟨-, rfl⟩, -, rfl⟩ := e1
      rw [h]; rfl
    · rename_i h
      simp only [Res.ok.injEq, Prod.mk.injEq] at e1
      rw [h, ← e1.2]; rfl
  | destroy => exact (quiet_ok.1 e).2
  | newLine k => exact (quiet_ok.1 e).2
  | advance k => exact (quiet_ok.1 e).2
  | filename h => exact (quiet_ok.1 e).2
  | linenumber h => exact (quiet_ok.1 e).2
  | offset h => exact (quiet_ok.1 e).2
  | length h => exact (quiet_ok.1 e).2
  | sourceLine h => exact (quiet_ok.1 e).2
  | printLine h => exact (quiet_ok.1 e).2
  | printError s h m => exact (quiet_ok.1 e).2
  | printMessage s h m => exact (quiet_ok.1 e).2

/-- A step with requests that succeeds is a step without. -/
theorem world_ok {fails : Fails} {w w' : World} {n n' : Nat} {o : NameOp} {x : NameOut} (e : worldStep fails (w, n) o = .ok ((w', n'), x)) :
    Names.step w o = .ok (w', x) := by
  obtain ⟨y, hy, m, -, -, h | h⟩ := world_follows (fails := fails) w w n o rfl
  · rw [e] at hy
    rcases h.2 with rfl | ⟨-, rfl⟩ <;> cases hy
  · rw [e] at hy
    cases y with
    | ok a =>
      have hy := Res.ok.inj hy
      cases hs : Names.step w o with
      | ok b =>
        rw [hs] at h
        obtain ⟨-, h1, h2⟩ := h
        have e1 : w' = a.1.1 := congrArg (fun t => t.1.1) hy
        have e2 : x = a.1.2 := congrArg (fun t => t.2) hy
        rw [e1, e2, h1, h2]
      | _ => rw [hs] at h; exact h.elim
    | _ => cases hy

theorem world_src_count {fails : Fails} {g0 : Global} {w : World} {s : Sinks × Src} (h : Names.Rel g0 w s) {o : Spec.SrcOp} (ho : ∀ f, o ≠ .newFile f)
    {n m : Nat} {q : (Global × Source.StateOf Ptr) × Spec.SrcVal} (e1 : srcStep fails w.pool w.src n o = .ok (q, m)) : m = n + Spec.srcCost s.2 o := by
  obtain ⟨⟨M, -, -, τ, k1, k2⟩, -⟩ := h
  have hm := k2.main
  rw [← k1.lines] at hm
  refine src_count ho ?_ (by rw [k1.used, k2.used]) ?_ ?_ e1
  · cases hl : w.src.lines <;> rw [hl] at hm <;> exact hm.1
  · intro a hl hr
    rw [hl] at hm
    rw [k1.count, hm.2.count, Spec.Src.allocated, if_pos hr]
  · intro a hl hr
    rw [hl] at hm
    rw [hm.2.len, hm.2.count, Spec.Src.allocated, if_neg (by simp [hr])]
    exact hm.2.full hr

theorem src_costs {fails : Fails} {g0 : Global} (hist : List Spec.SrcOp) (hd : ∀ o ∈ hist, ∀ f, o ≠ .newFile f) : ∀ {w w' : World} {s : Sinks × Src} {n n' : Nat}
    {xs : List NameOut}, Names.Rel g0 w s → run (worldStep fails) (w, n) (hist.map .src) = .ok ((w', n'), xs) → n' = n + Spec.srcCosts s.2 hist := by
  induction hist with
  | nil =>
    intro w w' s n n' xs h e
    have := Res.ok.inj e
    simp only [Prod.mk.injEq] at this
    simp only [Spec.srcCosts]
    omega
  | cons o os ih =>
    intro w w' s n n' xs h e
    have ho : ∀ f, o ≠ .newFile f := hd o List.mem_cons_self
    simp only [List.map_cons, Spec.run, Res.bind_ok_iff, Res.ok.injEq, Prod.mk.injEq] at e
    obtain ⟨⟨⟨w1, n1⟩, x⟩, e1, ⟨⟨w2, n2⟩, ys⟩, e2, e3, -⟩ := e
    obtain ⟨rfl, rfl⟩ := e3
    have hstr : (NameOp.src o).Strings := by cases o <;> first | trivial | exact absurd rfl (ho _)
    have hrel := Names.step_rel h (.src o) (b := false) (by simp) hstr trivial (by intro h; cases o <;> cases h) (by simp)
    rw [world_ok e1] at hrel
    have hc : n1 = n + Spec.srcCost s.2 o := by
      simp only [worldStep, Res.bind_ok_iff, Res.ok.injEq, Prod.mk.injEq] at e1
      obtain ⟨⟨q, m⟩, e1, ⟨-, rfl⟩, -⟩ := e1
      exact world_src_count h ho e1
    simp only [Spec.srcCosts]
    cases hS : Spec.nameStep Log.facilitynames s (.src o) with
    | ok d =>
      rw [hS] at hrel
      obtain ⟨-, hr, -⟩ := hrel
      simp only [Spec.nameStep, Res.bind_ok_iff, Res.ok.injEq] at hS
      obtain ⟨q, hq, rfl⟩ := hS
      rw [hq]
      have := ih (fun o ho => hd o (List.mem_cons_of_mem _ ho)) hr e2
      simp only at this ⊢
      omega
    | _ => rw [hS] at hrel; exact hrel.elim

/-- C78: the requests the source manager makes, in any history without file names: `srcCosts`. -/
theorem C78_source_requests (fails : Fails) (g : Global) (r : GReach g) (hist : List Spec.SrcOp) (hd : ∀ o ∈ hist, ∀ f, o ≠ .newFile f)
    (w : World) (n : Nat) (xs : List NameOut) (hr : run (worldStep fails) (World.start g, 0) (hist.map .src) = .ok ((w, n), xs)) :
    n = Spec.srcCosts Src.init hist := by
  have := src_costs hist hd (Names.Rel.start r) hr
  simpa using this

/-- Two lines, a token, the statistics: 6 + 2 + 2 + 2 + 3. -/
example : Spec.srcCosts Src.init [.line [120, 10, 0] 2, .line [121, 10, 0] 2, .get 1, .stats, .destroy, .stats] = 16 := by decide +kernel

/-! ### How many requests strings, log and source manager make together -/

/-- What the global pool has asked for up to a constant, while it exists: two requests for every string made, one for every entry of its table, two for every
growth of the table, and five for itself. -/
def poolCost (g : Global) : Nat := 2 * g.mem.clock + g.cells.clock + match g.pool with | none => 0 | some p => 5 + 2 * p.2.resizings

theorem checkGlobal_count {fails : Fails} {g g' : Global} {n n' : Nat} (e : checkGlobal fails g n = .ok (g', n')) :
    n' + poolCost g = n + poolCost g' := by
  unfold checkGlobal at e
  cases hp : g.pool with
  | some p =>
    rw [hp] at e
    obtain ⟨rfl, rfl⟩ := Prod.mk.inj (Res.ok.inj e)
    rfl
  | none =>
    rw [hp] at e
    simp only [poolCreate, createStrings, Res.bind_ok_iff, xreq_ok, Res.ok.injEq, Prod.mk.injEq] at e
    obtain ⟨⟨p, m⟩, ⟨_, ⟨-, rfl⟩, ⟨i, m1⟩, ⟨_, ⟨-, rfl⟩, _, ⟨-, rfl⟩, rfl, rfl⟩, ⟨t, m2⟩, e1, rfl, rfl⟩, rfl, rfl⟩ := e
    obtain ⟨h1, h2⟩ := create_count e1
    simp only at h1
    simp only [poolCost, hp, h2]
    omega

theorem withGlobal_count {α : Type} {g : Global} {f : StrPool.Pool → Nat → Res ((StrPool.Pool × α) × Nat)} {n n' : Nat} {r : Global × α}
    (hf : ∀ {p n r n' c b}, PoolCount c b p n → f p n = .ok (r, n') → PoolCount c b r.1 n') (e : withGlobal g f n = .ok (r, n')) :
    n' + poolCost g = n + poolCost r.1 := by
  unfold withGlobal at e
  cases hp : g.pool with
  | none => rw [hp] at e; cases e
  | some p =>
    rw [hp] at e
    simp only [Res.bind_ok_iff, Res.ok.injEq, Prod.mk.injEq] at e
    obtain ⟨⟨q, m⟩, e1, rfl, rfl⟩ := e
    have := hf (c := 2 * g.mem.clock + g.cells.clock + 2 * p.2.resizings) (b := n) (by unfold PoolCount; simp only; omega) e1
    unfold PoolCount at this
    simp only [poolCost, hp]
    omega

theorem find_count {fails : Fails} {p : StrPool.Pool} {s : List Byte} {n n' c b : Nat} {r : StrPool.Pool × Nat} (I : PoolCount c b p n)
    (e : find fails p s n = .ok (r, n')) : PoolCount c b r.1 n' :=
  pool_count (fails := fails) (o := .find s) (x := .ptr r.2) I (by simp only [poolStep, e]; rfl)

theorem strFind_count {fails : Fails} {g : Global} {s : List Byte} {n n' : Nat} {r : Global × Nat} (e : strFind fails g s n = .ok (r, n')) :
    n' + poolCost g = n + poolCost r.1 := by
  simp only [strFind, Res.bind_ok_iff] at e
  obtain ⟨⟨g1, n1⟩, e1, e2⟩ := e
  have h1 := checkGlobal_count e1
  have h2 := withGlobal_count find_count e2
  simp only at h2
  omega

theorem strExists_count {g : Global} {s : List Byte} {r : Global × Int} (e : StrPool.strExists g s = .ok r) : poolCost r.1 = poolCost g := by
  simp only [StrPool.strExists, StrPool.withGlobal] at e
  cases hp : g.pool with
  | none => rw [hp] at e; cases e
  | some p =>
    rw [hp] at e
    simp only [Res.bind_ok_iff, Res.ok.injEq] at e
    obtain ⟨q, e1, rfl⟩ := e
    have := pool_count (fails := fun _ => false) (p := StrPool.Pool.mk g.mem p.1 g.cells p.2) (n := 0)
      (c := 2 * g.mem.clock + g.cells.clock + 2 * p.2.resizings) (b := 0) (o := .exists_ s) (x := .int q.2) (p' := q.1) (n' := 0)
      (by unfold PoolCount; simp only; omega)
      (by simp only [poolStep, StrPool.step, e1]; rfl)
    unfold PoolCount at this
    simp only [poolCost, hp]
    omega

theorem uniqueLoop_count (pre : List Byte) (k : Nat) : ∀ {g : Global} {r : Global × List Byte}, StrPool.uniqueLoop pre k g = .ok r →
    poolCost r.1 = poolCost g := by
  induction k with
  | zero => intro g r e; cases e
  | succ k ih =>
    intro g r e
    simp only [StrPool.uniqueLoop, Res.bind_ok_iff] at e
    obtain ⟨q, e1, e2⟩ := e
    have h1 : poolCost q.1 = poolCost g := (strExists_count e1).trans rfl
    split at e2
    · rw [ih e2, h1]
    · rw [← Res.ok.inj e2]; exact h1

theorem global_count {fails : Fails} {g g' : Global} {n n' : Nat} {o : Spec.GlobalOp} {x : Spec.Ret} (ho : o ≠ .destroy)
    (e : globalStep fails (g, n) o = .ok ((g', n'), x)) : n' + poolCost g = n + poolCost g' := by
  cases o with
  | destroy => exact absurd rfl ho
  | exists_ s =>
    simp only [globalStep, out_ok, quiet_ok, StrPool.gstep, Res.bind_ok_iff, Res.ok.injEq, Prod.mk.injEq] at e
    obtain ⟨⟨q, e1, rfl, -⟩, rfl⟩ := e
    rw [strExists_count e1]
  | find s =>
    simp only [globalStep, Res.bind_ok_iff, Res.ok.injEq, Prod.mk.injEq] at e
    obtain ⟨q, e1, ⟨rfl, rfl⟩, -⟩ := e
    exact strFind_count e1
  | unique s =>
    simp only [globalStep, strUnique, Res.bind_ok_iff, Res.ok.injEq, Prod.mk.injEq] at e
    obtain ⟨q, ⟨t, -, u, e2, e1⟩, ⟨rfl, rfl⟩, -⟩ := e
    rw [← uniqueLoop_count _ _ e2]
    exact strFind_count e1
  | findn s k =>
    simp only [globalStep, strFindn, Res.bind_ok_iff, Res.ok.injEq, Prod.mk.injEq] at e
    obtain ⟨q, ⟨⟨g1, n1⟩, e1, t, -, e2⟩, ⟨rfl, rfl⟩, -⟩ := e
    have h1 := checkGlobal_count e1
    have h2 := withGlobal_count find_count e2
    simp only at h2
    omega
  | copy s =>
    simp only [globalStep, strCopy, Res.bind_ok_iff, Res.ok.injEq, Prod.mk.injEq] at e
    obtain ⟨q, ⟨⟨g1, n1⟩, e1, e2⟩, ⟨rfl, rfl⟩, -⟩ := e
    have h1 := checkGlobal_count e1
    have h2 := withGlobal_count (fun {p n r n' c b} I e => pool_count (fails := fails) (o := .copy s) (x := .ptr r.2) I (by simp only [poolStep, e]; rfl)) e2
    simp only at h2
    omega
  | copyn s k =>
    simp only [globalStep, strCopyn, Res.bind_ok_iff, Res.ok.injEq, Prod.mk.injEq] at e
    obtain ⟨q, e2, ⟨rfl, rfl⟩, -⟩ := e
    exact withGlobal_count (fun {p n r n' c b} I e => pool_count (fails := fails) (o := .copyn s k) (x := .ptr r.2) I (by simp only [poolStep, e]; rfl)) e2
  | grow s k =>
    simp only [globalStep, strGrow, Res.bind_ok_iff, Res.ok.injEq, Prod.mk.injEq] at e
    obtain ⟨q, ⟨⟨g1, n1⟩, e1, e2⟩, ⟨rfl, rfl⟩, -⟩ := e
    have h1 := checkGlobal_count e1
    have h2 := withGlobal_count (fun {p n r n' c b} I e => by
      simp only [Res.bind_ok_iff, Res.ok.injEq, Prod.mk.injEq] at e
      obtain ⟨⟨u, m⟩, e3, rfl, rfl⟩ := e
      exact pool_count (fails := fails) (o := .grow s k) (x := .int 0) I (by simp only [poolStep, e3]; rfl)) e2
    simp only at h2
    omega
  | finish =>
    simp only [globalStep, strFinish, Res.bind_ok_iff, Res.ok.injEq, Prod.mk.injEq] at e
    obtain ⟨q, ⟨⟨g1, n1⟩, e1, e2⟩, ⟨rfl, rfl⟩, -⟩ := e
    have h1 := checkGlobal_count e1
    have h2 := withGlobal_count (fun {p n r n' c b} I e => pool_count (fails := fails) (o := .finish) (x := .ptr r.2) I (by simp only [poolStep, e]; rfl)) e2
    simp only at h2
    omega

/-- C78: the requests the functions of the global pool make, in any history without `str_destroy`: two for every string made, one for every entry of the
table, two for every growth of the table, five when the pool is made. -/
theorem C78_global_requests (fails : Fails) (g g' : Global) (hist : List Spec.GlobalOp) (hd : Spec.GlobalOp.destroy ∉ hist) (n : Nat) (xs : List Spec.Ret)
    (hr : run (globalStep fails) (g, 0) hist = .ok ((g', n), xs)) : n + poolCost g = poolCost g' := by
  have := Spec.run_measure_of (fun o => o ≠ Spec.GlobalOp.destroy) (fun _ (s : Global × Nat) => s.2 + poolCost g = poolCost s.1) (fun _ => 0) (globalStep fails)
    (fun _ s o s' x ho hs he => by
      have := global_count (g := s.1) (n := s.2) (g' := s'.1) (n' := s'.2) ho he
      omega) hist (fun o ho h => hd (h ▸ ho)) 0 _ _ xs (by simp) hr
  exact this

/-! #### The log -/

theorem mkpath_opened (name : List Byte) : ∀ d, Spec.opened (Log.mkpathLoop d name) = 0 := by
  induction name with
  | nil => intro d; rfl
  | cons c cs ih =>
    intro d
    simp only [Log.mkpathLoop]
    split
    · exact ih _
    · exact ih _

theorem opened_append (a b : List LogEvent) : Spec.opened (a ++ b) = Spec.opened a + Spec.opened b := by
  simp [Spec.opened, List.countP_append]

theorem check_count {fails : Fails} {g : Global} {s : Names.LogVars} {env : Spec.LogEnv} {n n' : Nat} {r : Names.LogVars × List LogEvent}
    (e : checkFilename fails g s env n = .ok (r, n')) : n' = n + Spec.opened r.2 := by
  unfold checkFilename at e
  split at e
  · rename_i f t hf ht
    split at e
    · obtain ⟨rfl, rfl⟩ := Prod.mk.inj (Res.ok.inj e); rfl
    · rename_i hz
      simp only [Res.bind_ok_iff, Res.ok.injEq, Prod.mk.injEq] at e
      obtain ⟨orig, -, ⟨q, m⟩, e, rfl, rfl⟩ := e
      simp only [logCheck, hf, ht, if_neg hz, Log.checkFilename] at e
      split at e
      · cases e
      · split at e
        · simp only [Res.bind_ok_iff, xreq_ok, quiet_ok] at e
          obtain ⟨_, ⟨-, rfl⟩, e, rfl⟩ := e
          split at e
          · cases e
          · cases e
            simp only [opened_append, Log.mkpath, mkpath_opened]
            split <;> rfl
        · simp only [quiet_ok, Res.ok.injEq] at e
          obtain ⟨rfl, rfl⟩ := e
          rfl
  · obtain ⟨rfl, rfl⟩ := Prod.mk.inj (Res.ok.inj e); rfl

theorem log_count {fails : Fails} {g : Global} {s : Names.LogVars} {n n' : Nat} {o : Spec.LogOp} {r : (Global × Names.LogVars) × List LogEvent}
    (e : logStep fails g s n o = .ok (r, n')) : n' + poolCost g = n + poolCost r.1.1 + Spec.logCost o r.2 := by
  have hsys : ∀ {σ : Log.State} {i : Option (List Byte)} {r : Log.State × List LogEvent}, Log.logSyslog σ i = .ok r → Spec.opened r.2 = 0 := by
    intro σ i r e
    unfold Log.logSyslog at e
    split at e
    · split at e
      · cases e
      · cases e; rfl
    · split at e <;> (cases e; rfl)
  have hfile : ∀ {σ : Log.State} {env : Spec.LogEnv} {r : Log.State × List LogEvent}, Log.logFile σ none none env = .ok r → Spec.opened r.2 = 0 := by
    intro σ env r e
    simp only [Log.logFile] at e
    split at e <;> (cases e; rfl)
  have hstream : ∀ {σ : Log.State} {env : Spec.LogEnv} {r : Log.State × List LogEvent}, Log.logStream σ none none env = .ok r → Spec.opened r.2 = 0 := by
    intro σ env r e
    simp only [Log.logStream] at e
    split at e
    · cases e; rfl
    · cases e; simp only; split <;> rfl
  cases o with
  | file ident name env =>
    simp only [logStep] at e
    unfold logFile at e
    split at e
    · rename_i i f
      split at e
      · cases e
      · simp only [Res.bind_ok_iff, xreq_ok, Res.ok.injEq, Prod.mk.injEq] at e
        obtain ⟨⟨a, na⟩, e1, ⟨b, nb⟩, e2, _, ⟨-, rfl⟩, _, ⟨-, rfl⟩, ⟨c, nc⟩, e3, rfl, rfl⟩ := e
        have h1 := strFind_count e1
        have h2 := strFind_count e2
        have h3 := check_count e3
        simp only [Spec.logCost] at *
        omega
    · rename_i hno
      simp only [quiet_ok, Res.bind_ok_iff, Res.ok.injEq] at e
      obtain ⟨⟨q, e, rfl⟩, rfl⟩ := e
      have := hfile e
      cases ident <;> cases name <;> first | (exact absurd rfl (hno _ _ rfl)) | (simp only [Spec.logCost]; omega)
  | stream ident f env =>
    simp only [logStep] at e
    unfold logStream at e
    split at e
    · split at e
      · cases e
      · simp only [Res.bind_ok_iff, Res.ok.injEq, Prod.mk.injEq] at e
        obtain ⟨⟨a, na⟩, e1, rfl, rfl⟩ := e
        have h1 := strFind_count e1
        simpa [Spec.logCost, Spec.opened] using h1
    · simp only [quiet_ok, Res.bind_ok_iff, Res.ok.injEq] at e
      obtain ⟨⟨q, e, rfl⟩, rfl⟩ := e
      have := hstream e
      simp only [Spec.logCost]; omega
  | message routine level text env =>
    simp only [logStep, Res.bind_ok_iff, Res.ok.injEq, Prod.mk.injEq] at e
    obtain ⟨⟨q, m⟩, e, rfl, rfl⟩ := e
    simp only [Spec.logCost]
    suffices m = n + Spec.opened q.2 by omega
    unfold logBase at e
    split at e
    · obtain ⟨rfl, rfl⟩ := Prod.mk.inj (Res.ok.inj e); rfl
    · simp only [Res.bind_ok_iff] at e
      obtain ⟨⟨c, nc⟩, e1, e2⟩ := e
      have hc : nc = n + Spec.opened c.2 := by
        split at e1
        · simp only [Res.bind_ok_iff] at e1
          obtain ⟨pre, -, ⟨d, nd⟩, e3, e4⟩ := e1
          have hd : nd = n + Spec.opened d.2 := by
            split at e3
            · simp only [Res.bind_ok_iff, Res.ok.injEq, Prod.mk.injEq] at e3
              obtain ⟨⟨u, nu⟩, e5, rfl, rfl⟩ := e3
              have := check_count e5
              simpa [opened_append, Spec.opened] using this
            · obtain ⟨rfl, rfl⟩ := Prod.mk.inj (Res.ok.inj e3); rfl
          split at e4
          · obtain ⟨rfl, rfl⟩ := Prod.mk.inj (Res.ok.inj e4); exact hd
          · split at e4 <;> (obtain ⟨rfl, rfl⟩ := Prod.mk.inj (Res.ok.inj e4); simpa [opened_append, Spec.opened] using hd)
        · obtain ⟨rfl, rfl⟩ := Prod.mk.inj (Res.ok.inj e1); rfl
      split at e2
      · obtain ⟨rfl, rfl⟩ := Prod.mk.inj (Res.ok.inj e2); simpa [opened_append, Spec.opened] using hc
      · obtain ⟨rfl, rfl⟩ := Prod.mk.inj (Res.ok.inj e2); exact hc
  | syslog i =>
    simp only [logStep, quiet_ok, Names.logStep, Log.step, Res.bind_ok_iff, Res.ok.injEq] at e
    obtain ⟨⟨q, e, rfl⟩, rfl⟩ := e
    have := hsys e
    simp only [Spec.logCost]; omega
  | close =>
    simp only [logStep, quiet_ok, Names.logStep, Log.step, Log.logClose, Res.bind_ok_iff, Res.ok.injEq] at e
    obtain ⟨⟨q, ⟨a, e1, b, e2, c, e3, rfl⟩, rfl⟩, rfl⟩ := e
    have h1 := hfile e1
    have h2 := hstream e2
    have h3 := hsys e3
    simp only [Spec.logCost, opened_append]; omega
  | option k =>
    simp only [logStep, quiet_ok, Names.logStep, Log.step, Res.bind_ok_iff, Res.ok.injEq] at e
    obtain ⟨⟨q, e, rfl⟩, rfl⟩ := e
    cases e
    rfl
  | facility k =>
    simp only [logStep, quiet_ok, Names.logStep, Log.step, Res.bind_ok_iff, Res.ok.injEq] at e
    obtain ⟨⟨q, ⟨_, -, rfl⟩, rfl⟩, rfl⟩ := e
    rfl

/-! #### Together -/

theorem src_pool {g : Global} {σ : Source.StateOf Ptr} {o : Spec.SrcOp} (ho : ∀ f, o ≠ .newFile f) {q : (Global × Source.StateOf Ptr) × Spec.SrcVal}
    (e : Names.srcStep g σ o = .ok q) : q.1.1 = g := by
  cases o with
  | newFile f => exact absurd rfl (ho f)
  | destroy | newLine | advance | stats => cases e; rfl
  | _ =>
    simp only [Names.srcStep, Res.bind_ok_iff, Res.ok.injEq] at e
    first
    | (obtain ⟨_, -, rfl⟩ := e; rfl)
    | (obtain ⟨_, -, _, -, _, -, rfl⟩ := e; rfl)

theorem name_costs {fails : Fails} {g0 : Global} (hist : List NameOp) (hd : NameOp.str .destroy ∉ hist) : ∀ {w w' : World} {s : Sinks × Src} {b : Bool} {n n' : Nat}
    {xs : List NameOut}, Names.Rel g0 w s → (b = true → w.pool.pool.isSome) → Safe Log.facilitynames b s hist →
    run (worldStep fails) (w, n) hist = .ok ((w', n'), xs) → n' + poolCost w.pool = n + poolCost w'.pool + Spec.nameCosts Log.facilitynames s hist := by
  induction hist with
  | nil =>
    intro w w' s b n n' xs h _ _ e
    have := Res.ok.inj e
    simp only [Prod.mk.injEq] at this
    simp only [Spec.nameCosts]
    rw [this.1.1, this.1.2]
    rfl
  | cons o os ih =>
    intro w w' s b n n' xs h hb ⟨h1, h2, h3, h4, h5⟩ e
    simp only [Spec.run, Res.bind_ok_iff, Res.ok.injEq, Prod.mk.injEq] at e
    obtain ⟨⟨⟨w1, n1⟩, x⟩, e1, ⟨⟨w2, n2⟩, ys⟩, e2, e3, -⟩ := e
    obtain ⟨rfl, rfl⟩ := e3
    have hrel := Names.step_rel h o hb h1 h2 h3 h4
    rw [world_ok e1] at hrel
    cases hS : Spec.nameStep Log.facilitynames s o with
    | ok d =>
      rw [hS] at hrel
      obtain ⟨hx, hr, hb'⟩ := hrel
      simp only at hx hr hb'
      have hc : n1 + poolCost w.pool = n + poolCost w1.pool + Spec.nameCost s.2 o d.2 := by
        rw [← hx]
        cases o with
        | str o =>
          simp only [worldStep, Res.bind_ok_iff, Res.ok.injEq, Prod.mk.injEq] at e1
          obtain ⟨⟨⟨q, m⟩, y⟩, e1, ⟨rfl, rfl⟩, -⟩ := e1
          exact global_count (fun e => hd (e ▸ List.mem_cons_self)) e1
        | log o =>
          simp only [worldStep, Res.bind_ok_iff, Res.ok.injEq, Prod.mk.injEq] at e1
          obtain ⟨⟨q, m⟩, e1, ⟨rfl, rfl⟩, rfl⟩ := e1
          exact log_count e1
        | src o =>
          simp only [worldStep, Res.bind_ok_iff, Res.ok.injEq, Prod.mk.injEq] at e1
          obtain ⟨⟨q, m⟩, e1, ⟨rfl, rfl⟩, rfl⟩ := e1
          by_cases ho : ∃ f, o = .newFile f
          · obtain ⟨f, rfl⟩ := ho
            simp only [srcStep, Res.bind_ok_iff, Res.ok.injEq, Prod.mk.injEq] at e1
            obtain ⟨⟨a, na⟩, e1, rfl, rfl⟩ := e1
            exact strFind_count e1
          · have ho : ∀ f, o ≠ .newFile f := fun f e => ho ⟨f, e⟩
            have := world_src_count h ho e1
            have hp : q.1.1 = w.pool := by
              cases o with
              | newFile f => exact absurd rfl (ho f)
              | create | line | get | stats =>
                simp only [srcStep, Res.bind_ok_iff, Res.ok.injEq, Prod.mk.injEq] at e1
                obtain ⟨t, -, rfl, -⟩ := e1
                rfl
              | _ =>
                simp only [srcStep, quiet_ok] at e1
                exact src_pool ho e1.1
            simp only [Spec.nameCost, hp]
            omega
      simp only [Spec.nameCosts, hS]
      have := ih (fun hm => hd (List.mem_cons_of_mem _ hm)) hr hb' (h5 d hS) e2
      omega
    | _ => rw [hS] at hrel; exact hrel.elim

/-- **C78, the requests of a program** that uses strings, log and source manager (as in C84) and does not destroy the pool: those of the string pool, and those of the
calls on the log and the source manager. -/
theorem C78_names_requests (fails : Fails) (g : Global) (r : GReach g) (hist : List NameOp) (hd : NameOp.str .destroy ∉ hist)
    (safe : Safe Log.facilitynames g.pool.isSome (Sinks.init, Src.init) hist)
    (w : World) (n : Nat) (xs : List NameOut) (hr : run (worldStep fails) (World.start g, 0) hist = .ok ((w, n), xs)) :
    n + poolCost g = poolCost w.pool + Spec.nameCosts Log.facilitynames (Sinks.init, Src.init) hist := by
  have := name_costs hist hd (Names.Rel.start r) (b := g.pool.isSome) id safe hr
  simpa [World.start] using this

/-- The history of C84 (a stream, strings, a line, a file name, a token, a message) and what it takes: the pool 5 and the ident 3; "b" 6, because the table
grows for it; the manager 6 and the line 2; the file name 7; "a1" 3, the token 2.  It ends at whichever of these is refused first: the bookkeeping of the
token is not checked, the token is. -/
example : ∀ r ∈ [(34, Res.ok 34), (33, .ub), (32, .fatal), (30, .ub), (29, .fatal), (8, .fatal), (0, .fatal)],
    (run (worldStep (onlyFirst r.1)) (World.start (Global.init Heap.neverAgain Heap.neverAgain), 0) Names.exHist).bind (fun r => .ok r.1.2) = r.2 := by
  decide +kernel

/-- The part of the log and of the source manager: six for the manager, two for the line, two for the token. -/
example : Spec.nameCosts Log.facilitynames (Sinks.init, Src.init) Names.exHist = 10 := by decide +kernel

/-- A log file whose name is a date takes three requests beside its two strings, a message on the same day none, a message on the next day one. -/
example : let day (d : Byte) : Spec.LogEnv := { Names.exSys with expand := fun _ => [108, d], fd := 3 }
    Spec.nameCosts Log.facilitynames (Sinks.init, Src.init) [.log (.file (some [97]) (some [37, 100]) (day 1))] = 3 ∧
    Spec.nameCosts Log.facilitynames (Sinks.init, Src.init) [.log (.file (some [97]) (some [37, 100]) (day 1)), .log (.message none 6 [109] (day 1))] = 3 ∧
    Spec.nameCosts Log.facilitynames (Sinks.init, Src.init) [.log (.file (some [97]) (some [37, 100]) (day 1)), .log (.message none 6 [109] (day 2))] = 4 := by
  decide +kernel

/-- With memory for the log file, but not for the new name of the next day, the message ends the program. -/
example : let day (d : Byte) : Spec.LogEnv := { Names.exSys with expand := fun _ => [108, d], fd := 3 }
    let g : Global := Global.init Heap.neverAgain Heap.neverAgain
    (run (worldStep (onlyFirst 17)) (World.start g, 0) [.log (.file (some [97]) (some [37, 100]) (day 1)), .log (.message none 6 [109] (day 1))]).bind
      (fun r => .ok r.1.2) = .ok 17 ∧
    (run (worldStep (onlyFirst 17)) (World.start g, 0) [.log (.file (some [97]) (some [37, 100]) (day 1)), .log (.message none 6 [109] (day 2))]).bind
      (fun r => .ok r.1.2) = .fatal := by
  decide +kernel

/-! ## Child processes -/

theorem Follows.call {α : Type} {fails : Fails} {x : Res (α × Nat)} {y : Res α} (h : Follows fails true Eq 0 x y) : CallEnds fails x y := by
  obtain ⟨m, -, hk, h⟩ := h
  refine ⟨m, fun k hm => hk k (Nat.zero_le k) hm, ?_⟩
  rcases h with h | h
  · exact .inl ⟨h.1, h.2.imp id And.right⟩
  · right
    cases x <;> cases y <;> first | exact h.elim | rfl | skip
    rename_i a b
    show Res.ok a = Res.ok (b, m)
    rw [← h.1, ← h.2]

theorem Follows.callOrderly {α : Type} {fails : Fails} {x : Res (α × Nat)} {y : Res α} (h : Follows fails false Eq 0 x y) : CallEndsOrderly fails x y := by
  obtain ⟨m, -, hk, h⟩ := h
  refine ⟨m, fun k hm => hk k (Nat.zero_le k) hm, ?_⟩
  rcases h with h | h
  · exact .inl ⟨h.1, h.2.resolve_right fun e => by simp at e⟩
  · right
    cases x <;> cases y <;> first | exact h.elim | rfl | skip
    rename_i a b
    show Res.ok a = Res.ok (b, m)
    rw [← h.1, ← h.2]

/-- **C78, pr_open and pr_spawn** (partial): whichever requests are refused, the call ends the program at the first of them, with a message or in
undefined behaviour, or does what it does with enough memory (C81). -/
theorem C78_children_partial (fails : Fails) (h : StrMem.Mem) (σ : Pr.State) (command : List Byte) (flags : PrFlags) (infd outfd errfd : Option Int) (env : PrEnv)
    (pid : Option Nat) (k : Nat) (programs : PrExec.Exec → Option Ended) :
    CallEnds fails (openCommand fails h σ command flags infd outfd errfd env 0) (PrExec.openCommand h σ command flags infd outfd errfd env) ∧
    CallEnds fails (spawnCommand fails h σ command pid k programs 0) (PrExec.spawnCommand h σ command pid k programs) :=
  ⟨(openCommand_follows h σ command flags infd outfd errfd env 0).call, (spawnCommand_follows h σ command pid k programs 0).call⟩

theorem argAct_count {fails : Fails} {string : List Byte} {pt : Nat} {last : Option Nat} {σ : StrMem.Mem × Arg.ArgList} {n n' : Nat} {a : Arg.Act}
    {r : Option Nat × (StrMem.Mem × Arg.ArgList)} (e : argAct fails string pt last σ n a = .ok (r, n')) :
    ∃ d, r.2.2.argm = σ.2.argm * 2 ^ d ∧ n' + 2 * σ.1.clock = n + 2 * r.2.1.clock + d := by
  cases a with
  | incl => cases e; exact ⟨0, by simp, by simp⟩
  | skip =>
    cases last with
    | none => cases e; exact ⟨0, by simp, by simp⟩
    | some l =>
      simp only [argAct, argGrow, Res.bind_ok_iff, Res.ok.injEq, Prod.mk.injEq] at e
      obtain ⟨⟨q, m⟩, ⟨⟨u, m1⟩, e1, rfl, rfl⟩, rfl, rfl⟩ := e
      have h1 := grow_count e1
      exact ⟨0, by simp, by simp only; omega⟩
  | finish =>
    cases last with
    | none => cases e; exact ⟨0, by simp, by simp⟩
    | some l =>
      simp only [argAct, argGrow, argFinish, Res.bind_ok_iff, Res.ok.injEq, Prod.mk.injEq] at e
      obtain ⟨⟨q, m⟩, ⟨⟨u, m1⟩, e1, rfl, rfl⟩, ⟨v, m2⟩, ⟨⟨w, m3⟩, e2, ⟨x, m4⟩, e3, rfl, rfl⟩, rfl, rfl⟩ := e
      have h1 := grow_count e1
      have h2 := finish_count e2
      have h3 := argAppend_count e3
      simp only at h1 h2 h3 ⊢
      rcases h3 with h3 | h3
      · exact ⟨0, by rw [h3.1]; simp, by omega⟩
      · exact ⟨1, by rw [h3.1]; omega, by omega⟩

theorem argLoop_count {fails : Fails} {quoteStyle : Nat} {string : List Byte} (l : List Byte) : ∀ {pt : Nat} {st : Arg.St} {last : Option Nat}
    {σ σ' : StrMem.Mem × Arg.ArgList} {n n' : Nat}, argLoop fails quoteStyle string l pt st last σ n = .ok (σ', n') →
    ∃ d, σ'.2.argm = σ.2.argm * 2 ^ d ∧ n' + 2 * σ.1.clock = n + 2 * σ'.1.clock + d := by
  induction l with
  | nil => intro pt st last σ σ' n n' e; cases e
  | cons c cs ih =>
    intro pt st last σ σ' n n' e
    simp only [argLoop, Res.bind_ok_iff] at e
    obtain ⟨⟨r, m⟩, e1, e2⟩ := e
    obtain ⟨d, h1, h2⟩ := argAct_count e1
    split at e2
    · split at e2
      · obtain ⟨d', h3, h4⟩ := ih e2
        exact ⟨d + d', by rw [h3, h1, Nat.pow_add, Nat.mul_assoc], by simp only at h4; omega⟩
      · cases e2
    · obtain ⟨rfl, rfl⟩ := Prod.mk.inj (Res.ok.inj e2); exact ⟨d, h1, h2⟩
    · obtain ⟨rfl, rfl⟩ := Prod.mk.inj (Res.ok.inj e2); exact ⟨d, h1, h2⟩

/-- C78: the requests of `arg_argify`: four for the list, two for every piece of a string that is made, one every time the vector is doubled. -/
theorem C78_argify_requests (fails : Fails) (h : StrMem.Mem) (text : List Byte) (quoteStyle n : Nat) (s : StrMem.Mem × Arg.ArgList)
    (hr : argify fails h text quoteStyle 0 = .ok (s, n)) : ∃ d, s.2.argm = 2 * 2 ^ d ∧ n + 2 * h.clock = 4 + 2 * s.1.clock + d := by
  simp only [argify, argCreate, createStrings, Res.bind_ok_iff, xreq_ok, Res.ok.injEq] at hr
  obtain ⟨⟨a, m⟩, ⟨_, ⟨-, rfl⟩, _, ⟨-, rfl⟩, ⟨i, m'⟩, ⟨_, ⟨-, rfl⟩, _, ⟨-, rfl⟩, e1⟩, e2⟩, hr⟩ := hr
  obtain ⟨rfl, rfl⟩ := Prod.mk.inj e1
  obtain ⟨rfl, rfl⟩ := Prod.mk.inj e2
  exact argLoop_count _ hr

/-- C78: `pr_open` and `pr_spawn` make one request for the table of children, the first time, and those of `arg_argify`. -/
theorem C78_children_requests (fails : Fails) (h : StrMem.Mem) (σ : Pr.State) (command : List Byte) (flags : PrFlags) (infd outfd errfd : Option Int) (env : PrEnv)
    (pid : Option Nat) (k : Nat) (programs : PrExec.Exec → Option Ended) (r : StrMem.Mem × Pr.State × PrOut × PrExec.Exec) (n : Nat)
    (hr : openCommand fails h σ command flags infd outfd errfd env 0 = .ok (r, n) ∨ spawnCommand fails h σ command pid k programs 0 = .ok (r, n)) :
    (σ.objects = none → fails 0 = false) ∧
    ∃ l, argify fails h command 0 (if σ.objects.isSome then 0 else 1) = .ok (l, n) := by
  have hi : ∀ {τ : Pr.State} {m : Nat}, prInit fails σ 0 = .ok (τ, m) → (σ.objects = none → fails 0 = false) ∧ m = if σ.objects.isSome then 0 else 1 := by
    intro τ m e
    unfold prInit at e
    cases ho : σ.objects with
    | none =>
      rw [ho] at e
      simp only [Res.bind_ok_iff, xreq_ok, Res.ok.injEq, Prod.mk.injEq] at e
      obtain ⟨_, ⟨h1, rfl⟩, -, rfl⟩ := e
      exact ⟨fun _ => h1, rfl⟩
    | some o =>
      rw [ho] at e
      simp only [Res.ok.injEq, Prod.mk.injEq] at e
      exact ⟨by simp, by rw [← e.2]; rfl⟩
  rcases hr with hr | hr
  · simp only [openCommand, Res.bind_ok_iff] at hr
    obtain ⟨⟨τ, m⟩, e1, e2⟩ := hr
    obtain ⟨h1, rfl⟩ := hi e1
    split at e2
    · cases e2
    · simp only [Res.bind_ok_iff, quiet_ok] at e2
      obtain ⟨⟨l, m⟩, e2, -, rfl⟩ := e2
      exact ⟨h1, l, e2⟩
  · simp only [spawnCommand, Res.bind_ok_iff, quiet_ok] at hr
    obtain ⟨⟨τ, m⟩, e1, ⟨l, m'⟩, e2, -, rfl⟩ := hr
    obtain ⟨h1, rfl⟩ := hi e1
    exact ⟨h1, l, e2⟩

/-- `pr_spawn("a")` at program start: one request for the table of children, eight for the list of arguments and its only item. -/
example : (spawnCommand (onlyFirst 10) Heap.init (Pr.State.init 16) [97, 0] (some 5) 0 (fun _ => some (.exited 3)) 0).bind (fun r => .ok (r.1.2.2.1.ret, r.2)) =
      .ok (3, 10) ∧
    (spawnCommand (onlyFirst 9) Heap.init (Pr.State.init 16) [97, 0] (some 5) 0 (fun _ => some (.exited 3)) 0).bind (fun r => .ok r.2) = .fatal ∧
    (spawnCommand (onlyFirst 8) Heap.init (Pr.State.init 16) [97, 0] (some 5) 0 (fun _ => some (.exited 3)) 0).bind (fun r => .ok r.2) = .ub ∧
    (spawnCommand (onlyFirst 0) Heap.init (Pr.State.init 16) [97, 0] (some 5) 0 (fun _ => some (.exited 3)) 0).bind (fun r => .ok r.2) = .fatal := by
  refine ⟨?_, ?_, ?_, ?_⟩
  all_goals decide +kernel

/-! ## maa_init -/

/-- **C78, maa_init**: whichever requests are refused, `maa_init` in any reachable state either ends the program with a message at the first of them, or
does what C53 says. -/
theorem C78_maa_init (fails : Fails) (w : Lib.World) (T : Spec.Timers) (h : w.Reach T) (p rest : List Byte) (hp : (0 : Byte) ∉ p) (r : Spec.Reading) :
    ∃ w' T' m, (∀ k, k < m → fails k = false) ∧ w'.Reach T' ∧ T' Lib.total ≠ none ∧ (∀ n, n ≠ Lib.total → T' n = T n) ∧
      ((fails m = true ∧ maaInit fails w (some (p ++ 0 :: rest)) r 0 = .fatal) ∨ maaInit fails w (some (p ++ 0 :: rest)) r 0 = .ok (w', m)) := by
  obtain ⟨w', T', h1, h2, h3, h4⟩ := Lib.C53_maa_init w T h p rest hp r
  obtain ⟨m, hk, hm⟩ := (maaInit_follows (fails := fails) w (some (p ++ 0 :: rest)) r 0).callOrderly
  refine ⟨w', T', m, hk, h2, h3, h4, hm.imp id fun hm => ?_⟩
  rw [hm, h1]
  rfl

theorem registerAll_count {fails : Fails} (l : List (BitVec 64 × List Byte)) : ∀ {σ σ' : Flags.State} {n n' : Nat}, registerAll fails l σ n = .ok (σ', n') →
    n' + forTable σ.hash = n + forTable σ'.hash := by
  induction l with
  | nil => intro σ σ' n n' e; cases e; rfl
  | cons b bs ih =>
    intro σ σ' n n' e
    simp only [registerAll, Res.bind_ok_iff] at e
    obtain ⟨⟨τ, m⟩, e1, e2⟩ := e
    have h1 := dbgRegisterInternal_count e1
    have h2 := ih e2
    simp only at h2
    omega

theorem timStart_count {fails : Fails} {σ σ' : Timer.State} {name : Option (List Byte)} {r : Spec.Reading} {n n' : Nat}
    (e : timStart fails σ name r n = .ok (σ', n')) : n' + forTable σ.hash + σ.fresh = n + forTable σ'.hash + σ'.fresh := by
  simp only [timStart, Res.bind_ok_iff] at e
  obtain ⟨⟨t, m⟩, e1, q, e2, e⟩ := e
  have h1 := nameTable_count e1
  have h2 := retrieve_count e2
  simp only at h1 h2
  split at e
  · simp only [Res.bind_ok_iff, xreq_ok, Res.ok.injEq, Prod.mk.injEq] at e
    obtain ⟨k, ⟨-, rfl⟩, ⟨i, j⟩, e3, rfl, rfl⟩ := e
    have h3 := nameInsert_count e3
    simp only [Timer.store] at h3 ⊢
    omega
  · simp only [quiet_ok, Res.bind_ok_iff, Res.ok.injEq] at e
    obtain ⟨⟨a, -, rfl⟩, rfl⟩ := e
    simp only [Timer.store]
    omega

/-- C78: `maa_init` makes the requests of the two tables of names and one for the timer, if it is new. -/
theorem C78_maa_init_requests (fails : Fails) (w w' : Lib.World) (name : Option (List Byte)) (r : Spec.Reading) (n : Nat)
    (hr : maaInit fails w name r 0 = .ok (w', n)) :
    n + forTable w.dbg.hash + forTable w.tim.hash + w.tim.fresh = forTable w'.dbg.hash + forTable w'.tim.hash + w'.tim.fresh := by
  simp only [maaInit, Res.bind_ok_iff, Res.ok.injEq, Prod.mk.injEq] at hr
  obtain ⟨⟨t, m⟩, e1, p, -, ⟨d, m'⟩, e2, rfl, rfl⟩ := hr
  have h1 := timStart_count e1
  have h2 := registerAll_count _ e2
  simp only at h2 ⊢
  omega

/-- At program start `maa_init("p")` makes 19 requests; with fewer the program ends with a message. -/
example : (maaInit (onlyFirst 19) (Lib.World.init 16) (some [112, 0]) (Timer.all ⟨3, 0⟩) 0).bind (fun r => .ok r.2) = .ok 19 ∧
    (maaInit (onlyFirst 18) (Lib.World.init 16) (some [112, 0]) (Timer.all ⟨3, 0⟩) 0).bind (fun r => .ok r.2) = .fatal ∧
    (maaInit (onlyFirst 3) (Lib.World.init 16) (some [112, 0]) (Timer.all ⟨3, 0⟩) 0).bind (fun r => .ok r.2) = .fatal := by
  decide +kernel

end Maa.Oom
