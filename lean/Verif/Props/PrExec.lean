import Verif.Model.PrExec
import Verif.Props.Arg
import Verif.Props.Pr

/-! # C81: the commands run by `pr_open` and `pr_spawn` -/

namespace Maa.PrExec

open Spec (PrFlags PrEnv PrOut Ended WaitEnd Splits Style Part)
open StrMem (Mem)
open Pr (State)
open Arg (argify Contains)

/-- Quotes quote and backslashes escape. -/
def plainStyle : Style := { escape := true, quote := true }

theorem vals_noNul {st : Style} : ∀ {ps : List Part}, (∀ p ∈ ps, p.Ok st) → (0 : Byte) ∉ Spec.vals ps := by
  intro ps h hm
  obtain ⟨p, hp, hc⟩ := List.mem_flatMap.1 hm
  have := h p hp
  cases p with
  | plain c => simp only [Part.val, List.mem_singleton] at hc; exact this.1 hc.symm
  | escaped c => simp only [Part.val, List.mem_singleton] at hc; exact this.1 hc.symm
  | quoted d b => exact this.2.2.2 hc

theorem splits_noNul {st : Style} {text : List Byte} {items : List (List Byte)} (h : Splits st text items) : ∀ w ∈ items, (0 : Byte) ∉ w := by
  induction h with
  | nil => simp
  | blank b t items _ _ ih => exact ih
  | word ps t items _ h1 _ _ ih =>
    intro w hw
    rcases List.mem_cons.1 hw with rfl | hw
    · exact vals_noNul h1
    · exact ih w hw
  | openEscape ps h1 _ =>
    intro w hw
    rw [List.mem_singleton.1 hw]; exact vals_noNul h1
  | openQuote ps d body h1 _ _ _ h2 =>
    intro w hw
    rw [List.mem_singleton.1 hw]
    simp only [List.mem_append, not_or]
    exact ⟨vals_noNul h1, h2⟩

theorem readVector_ok (h : Mem) : ∀ (items : List (List Byte)) (v : List (Option Nat)), (∀ w ∈ items, (0 : Byte) ∉ w) →
    (∀ (k : Nat) (w : List Byte), items[k]? = some w → ∃ p, v[k]? = some (some p) ∧ p ≠ 0 ∧ h.mem p = some (w ++ [0], 0)) →
    v[items.length]? = some (some 0) → readVector h v = .ok items := by
  intro items
  induction items with
  | nil =>
    intro v _ _ h2
    cases v with
    | nil => simp at h2
    | cons x v =>
      simp only [List.length_nil, List.getElem?_cons_zero, Option.some.injEq] at h2
      subst h2
      rfl
  | cons w ws ih =>
    intro v h0 h1 h2
    obtain ⟨p, e1, e2, e3⟩ := h1 0 w rfl
    cases v with
    | nil => simp at e1
    | cons x v =>
      simp only [List.getElem?_cons_zero, Option.some.injEq] at e1
      subst e1
      have e4 : CStr.cstr (w ++ [0]) = .ok w := CStr.cstr_append w (h0 w (by simp)) []
      have e5 := ih v (fun x hx => h0 x (by simp [hx])) (fun k x hk => by simpa using h1 (k + 1) x (by simpa using hk)) (by simpa using h2)
      simp only [readVector, if_neg e2, e3, e4, e5, Res.bind]

theorem contains_exec {h : Mem} {a : Arg.ArgList} {w : List Byte} {ws : List (List Byte)} (hn : ∀ x ∈ w :: ws, (0 : Byte) ∉ x)
    (hc : Contains h a ((w :: ws).map (· ++ [0]))) : execArgs h (Arg.getVector a).2 = .ok { file := w, argv := w :: ws } := by
  have : readVector h (Arg.getVector a).2 = .ok (w :: ws) := by
    apply readVector_ok h _ _ hn
    · intro k x hk
      obtain ⟨p, e1, e2, e3⟩ := hc.item k (x ++ [0]) (by rw [List.getElem?_map, hk]; rfl)
      refine ⟨p, ?_, e3, e2⟩
      unfold Arg.get at e1
      split at e1
      · cases e1
      · simp only [Int.toNat_natCast, Arg.load] at e1
        split at e1
        · rename_i q hq; cases e1; exact hq
        · cases e1
    · have := hc.vector.2.1
      simpa using this
  simp only [execArgs, this, Res.bind]

theorem contains_none {h : Mem} {a : Arg.ArgList} (hc : Contains h a []) : execArgs h (Arg.getVector a).2 = .ub := by
  have : readVector h (Arg.getVector a).2 = .ok [] := by
    apply readVector_ok h [] _ (by simp) (by simp)
    simpa using hc.vector.2.1
  simp only [execArgs, this, Res.bind]

/-- splitting a command: the words, and the memory given back -/
theorem split_ok (h0 : Mem) (ok0 : h0.Ok) (command rest : List Byte) (hc : (0 : Byte) ∉ command) (words : List (List Byte))
    (hs : Splits plainStyle command words) :
    ∃ l h', argify h0 (command ++ 0 :: rest) 0 = .ok l ∧ Contains l.1 l.2 (words.map (· ++ [0])) ∧ Arg.destroy l.1 l.2 = .ok h' ∧ h'.mem = h0.mem := by
  obtain ⟨σ, v, h1, h2, h3⟩ := Arg.argify_ok h0 ok0 0 command rest hc
  obtain ⟨m, h4, h5⟩ := h2.destroy
  have h6 := h2.contains
  rw [h3, Arg.scan_splits 0 hs (Or.inl rfl)] at h6
  exact ⟨σ, m, h1, h6, h4, h5⟩

/-- **C81, `pr_open`**: when the command has words, they are what the child executes: the program is the first, the argument vector is all of them.
The call otherwise behaves as `C46`/`C48` say, and all memory it allocated is given back. -/
theorem C81_open (h0 : Mem) (ok0 : h0.Ok) (σ σ' : State) (command rest : List Byte) (hc : (0 : Byte) ∉ command) (w : List Byte) (ws : List (List Byte))
    (hs : Splits plainStyle command (w :: ws)) (f : PrFlags) (infd outfd errfd : Option Int) (env : PrEnv) (out : PrOut)
    (ho : Pr.prOpen σ f infd outfd errfd env = .ok (σ', out)) :
    ∃ h', openCommand h0 σ (command ++ 0 :: rest) f infd outfd errfd env = .ok (h', σ', out, { file := w, argv := w :: ws }) ∧ h'.mem = h0.mem := by
  obtain ⟨l, h', h1, h2, h3, h4⟩ := split_ok h0 ok0 command rest hc _ hs
  have hb : ¬ Pr.badFlags f = true := by
    intro hb
    rw [Pr.prOpen, if_pos hb] at ho
    cases ho
  refine ⟨h', ?_, h4⟩
  rw [openCommand, if_neg hb]
  simp only [h1, ho, contains_exec (splits_noNul hs) h2, h3, Res.bind]

/-- **C81, `pr_spawn`**: likewise; what is returned is how that program ended, 127 when there is no such program. -/
theorem C81_spawn (h0 : Mem) (ok0 : h0.Ok) (σ : State) (command rest : List Byte) (hc : (0 : Byte) ∉ command) (w : List Byte) (ws : List (List Byte))
    (hs : Splits plainStyle command (w :: ws)) (p n : Nat) (programs : Exec → Option Ended) (hp : ∀ e r, programs e = some r → r.Proper) :
    ∃ h' σ' out, spawnCommand h0 σ (command ++ 0 :: rest) (some p) n programs = .ok (h', σ', out, { file := w, argv := w :: ws }) ∧ h'.mem = h0.mem ∧
      out.ret = (match programs { file := w, argv := w :: ws } with | some r => r.report | none => 127) := by
  obtain ⟨l, h', h1, h2, h3, h4⟩ := split_ok h0 ok0 command rest hc _ hs
  have he : (WaitEnd.ended (childEnd programs { file := w, argv := w :: ws })).Proper := by
    show (childEnd programs _).Proper
    unfold childEnd
    split
    · rename_i r hr; exact hp _ r hr
    · show 127 < 256; decide
  refine ⟨h', Pr.prInit σ, { ret := Pr.prWait n (.ended (childEnd programs { file := w, argv := w :: ws })), events := [.waited p] }, ?_, h4, ?_⟩
  · simp only [spawnCommand, h1, contains_exec (splits_noNul hs) h2, h3, Pr.prSpawn, Res.bind]
  · show Pr.prWait n _ = _
    rw [Pr.prWait_eq n _ he]
    unfold childEnd
    split <;> simp_all [WaitEnd.report, Ended.report]

/-- **C81, no word is lost or changed**: any vector of arguments without NUL, quoted as in `C32`, is what is executed. -/
theorem C81_quoted (h0 : Mem) (ok0 : h0.Ok) (σ : State) (w : List Byte) (ws : List (List Byte)) (hw : ∀ x ∈ w :: ws, (0 : Byte) ∉ x) (rest : List Byte)
    (p n : Nat) (programs : Exec → Option Ended) :
    ∃ h' σ' out, spawnCommand h0 σ (Spec.quoteLine (w :: ws) ++ 0 :: rest) (some p) n programs = .ok (h', σ', out, { file := w, argv := w :: ws }) := by
  obtain ⟨s, h1, h2⟩ := Arg.C32_round_trip h0 ok0 (w :: ws) hw rest
  have hd : ∃ h', Arg.destroy s.1 s.2 = .ok h' := by
    have hnul : (0 : Byte) ∉ Spec.quoteLine (w :: ws) := Arg.quoteLine_noNul _ hw
    obtain ⟨σ', v, e1, e2, -⟩ := Arg.argify_ok h0 ok0 0 (Spec.quoteLine (w :: ws)) rest hnul
    rw [h1] at e1
    cases e1
    obtain ⟨m, e3, -⟩ := e2.destroy
    exact ⟨m, e3⟩
  obtain ⟨h', hd⟩ := hd
  refine ⟨h', Pr.prInit σ, { ret := Pr.prWait n (.ended (childEnd programs { file := w, argv := w :: ws })), events := [.waited p] }, ?_⟩
  simp only [spawnCommand, h1, contains_exec hw h2, hd, Pr.prSpawn, Res.bind]

/-- **C81, calls that cannot be made**: with a combination of flags that is not legal `pr_open` ends the program before anything is done with the
command, whatever it is; if no child can be created, `pr_spawn` ends the program with a message. -/
theorem C81_refused (h0 : Mem) (σ : State) (command : List Byte) (f : PrFlags) (hf : ¬ f.Legal) (infd outfd errfd : Option Int) (env : PrEnv) :
    openCommand h0 σ command f infd outfd errfd env = .abort := by
  rw [openCommand, if_pos ((Pr.badFlags_iff f).2 hf)]

theorem C81_no_child (h0 : Mem) (ok0 : h0.Ok) (σ : State) (command rest : List Byte) (hc : (0 : Byte) ∉ command) (n : Nat) (programs : Exec → Option Ended) :
    spawnCommand h0 σ (command ++ 0 :: rest) none n programs = .fatal := by
  obtain ⟨l, v, h1, -, -⟩ := Arg.argify_ok h0 ok0 0 command rest hc
  simp only [spawnCommand, h1, Res.bind]

/-- **C81, commands without words** (empty, or only blanks): the child passes NULL to `execvp`. -/
theorem C81_empty_undefined (h0 : Mem) (ok0 : h0.Ok) (σ σ' : State) (command rest : List Byte) (hc : (0 : Byte) ∉ command) (hs : Splits plainStyle command [])
    (f : PrFlags) (infd outfd errfd : Option Int) (env : PrEnv) (out : PrOut) (ho : Pr.prOpen σ f infd outfd errfd env = .ok (σ', out))
    (p n : Nat) (programs : Exec → Option Ended) :
    openCommand h0 σ (command ++ 0 :: rest) f infd outfd errfd env = .ub ∧ spawnCommand h0 σ (command ++ 0 :: rest) (some p) n programs = .ub := by
  obtain ⟨l, h', h1, h2, h3, h4⟩ := split_ok h0 ok0 command rest hc _ hs
  have hb : ¬ Pr.badFlags f = true := by
    intro hb
    rw [Pr.prOpen, if_pos hb] at ho
    cases ho
  constructor
  · rw [openCommand, if_neg hb]
    simp only [h1, ho, contains_none h2, Res.bind]
  · simp only [spawnCommand, h1, contains_none h2, Res.bind]

/-- "a 'b c'" is two words; a program that ends with 3, and no program. -/
example : Splits plainStyle [97, 32, 39, 98, 32, 99, 39] [[97], [98, 32, 99]] ∧
    (∃ h' σ' out e, spawnCommand Heap.init (State.init 8) [97, 32, 39, 98, 32, 99, 39, 0] (some 7) 2 (fun _ => some (.exited 3)) = .ok (h', σ', out, e) ∧
      out.ret = 3 ∧ e = { file := [97], argv := [[97], [98, 32, 99]] }) ∧
    (∃ h' σ' out e, spawnCommand Heap.init (State.init 8) [97, 32, 39, 98, 32, 99, 39, 0] (some 7) 2 (fun _ => none) = .ok (h', σ', out, e) ∧
      out.ret = 127) := by
  refine ⟨?_, ⟨_, _, _, _, rfl, rfl, by decide +kernel⟩, ⟨_, _, _, _, rfl, rfl⟩⟩
  refine .word [.plain 97] _ _ (by decide) ?_ (by decide) (.blank 32 _ _ rfl ?_)
  · intro p hp; cases List.mem_singleton.1 hp; exact ⟨by decide, rfl, fun _ => rfl, fun _ => by decide⟩
  · refine .word [.quoted 39 [98, 32, 99]] [] [] (by decide) ?_ (by simp) .nil
    intro p hp; cases List.mem_singleton.1 hp; exact ⟨rfl, rfl, by decide, by decide⟩

/-- An open that succeeds, and a command of blanks. -/
example : Splits plainStyle [32, 9] [] ∧ ∃ σ' out, Pr.prOpen (State.init 8) 0x20 none (some 0) none ⟨none, some (3, 7), none, some 101⟩ = .ok (σ', out) :=
  ⟨.blank 32 _ _ rfl (.blank 9 _ _ rfl .nil), _, _, rfl⟩

end Maa.PrExec
