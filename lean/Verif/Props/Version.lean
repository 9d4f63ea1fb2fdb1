import Verif.Model.Version
import Verif.Props.Maa
import Verif.Props.PrintStats
import Verif.Props.UniqueCounter
import Verif.Props.SourceErr

/-! # C98: the version string, and the text `maa_shutdown` writes -/

namespace Maa.Version

open Spec (Reading Timers TimOp Switches decimal decimalInt versionText IsInt)
open PrintStats (lit)

theorem put_ok (t : List Byte) : ∀ (buf : List Byte) (i : Nat), i + t.length < buf.length →
    put buf i t = .ok (buf.take i ++ t ++ [0] ++ buf.drop (i + t.length + 1)) := by
  induction t with
  | nil =>
    intro buf i h
    simp only [List.length_nil, Nat.add_zero] at h
    simp only [put, if_pos h, List.length_nil, Nat.add_zero, List.append_nil, Res.ok.injEq]
    rw [List.set_eq_take_append_cons_drop, if_pos h]
    simp
  | cons b t ih =>
    intro buf i h
    simp only [List.length_cons] at h
    have hi : i < buf.length := by omega
    simp only [put, if_pos hi]
    rw [ih (buf.set i b) (i + 1) (by simp only [List.length_set]; omega)]
    congr 1
    have e1 : (buf.set i b).take (i + 1) = buf.take i ++ [b] := by
      rw [List.set_eq_take_append_cons_drop, if_pos hi, List.take_append]
      have : (buf.take i).length = i := by simp; omega
      rw [this, List.take_of_length_le (by omega)]
      simp
    have e2 : (buf.set i b).drop (i + 1 + t.length + 1) = buf.drop (i + (b :: t).length + 1) := by
      rw [List.drop_set_of_lt (by omega)]
      simp only [List.length_cons]
      congr 1
      omega
    rw [e1, e2]
    simp

theorem decimalInt_length (n : Int) (h : IsInt n) : (decimalInt n).length ≤ 11 := by
  unfold decimalInt IsInt at *
  have := StrPool.decimal_length 9 n.natAbs (by omega)
  split
  · simp only [List.length_cons]; omega
  · omega

theorem decimalInt_noNul (n : Int) : (0 : Byte) ∉ decimalInt n := by
  unfold decimalInt
  have := StrPool.decimal_noNul n.natAbs
  split
  · simp only [List.mem_cons, not_or]; exact ⟨by decide, this⟩
  · exact this

/-- no dot in a number -/
theorem decimalInt_noDot (n : Int) : (46 : Byte) ∉ decimalInt n := by
  have h : ∀ m, (46 : Byte) ∉ decimal m := fun m hm => by
    have := (Source.decimal_digits m).1 _ hm
    simp at this
  unfold decimalInt
  split
  · simp only [List.mem_cons, not_or]; exact ⟨by decide, h _⟩
  · exact h _

theorem decimalInt_inj {m n : Int} (h : decimalInt m = decimalInt n) : m = n := by
  have hm : ∀ k : Nat, (45 : Byte) ∉ decimal k := fun k hk => by
    have := (Source.decimal_digits k).1 _ hk
    simp at this
  unfold decimalInt at h
  split at h <;> split at h
  · have := StrPool.decimal_inj (List.cons.inj h).2; omega
  · exact absurd (by rw [← h]; simp) (hm n.natAbs)
  · exact absurd (by rw [h]; simp) (hm m.natAbs)
  · have := StrPool.decimal_inj h; omega

theorem text_noNul (a b c : Int) : (0 : Byte) ∉ versionText a b c := by
  have h1 : (0 : Byte) ∉ Spec.Report.ascii "Libmaa " := by decide +kernel
  have h2 : (0 : Byte) ∉ Spec.Report.ascii "." := by decide +kernel
  simp only [versionText, List.mem_append, not_or]
  exact ⟨⟨⟨⟨⟨h1, decimalInt_noNul a⟩, h2⟩, decimalInt_noNul b⟩, h2⟩, decimalInt_noNul c⟩

theorem text_length (a b c : Int) (ha : IsInt a) (hb : IsInt b) (hc : IsInt c) : (versionText a b c).length ≤ 42 := by
  have h1 : (Spec.Report.ascii "Libmaa ").length = 7 := by decide +kernel
  have h2 : (Spec.Report.ascii ".").length = 1 := by decide +kernel
  have := decimalInt_length a ha
  have := decimalInt_length b hb
  have := decimalInt_length c hc
  simp only [versionText, List.length_append, h1, h2]
  omega

theorem cstr_text {s : List Byte} (h : (0 : Byte) ∉ s) (r : List Byte) : CStr.cstr (s ++ 0 :: r) = .ok s := by
  induction s with
  | nil => simp [CStr.cstr]
  | cons b s ih =>
    simp only [List.mem_cons, not_or] at h
    simp only [List.cons_append, CStr.cstr, if_neg (Ne.symm h.1), ih h.2, Res.bind]

theorem of_eq (a b c : Int) (buf : List Byte) (h : (versionText a b c).length < buf.length) :
    maaVersionOf a b c buf = .ok (versionText a b c ++ [0] ++ buf.drop ((versionText a b c).length + 1)) := by
  have e : lit "Libmaa " ++ (decimalInt a ++ (lit "." ++ (decimalInt b ++ (lit "." ++ decimalInt c)))) = versionText a b c := by
    simp [versionText, lit, Spec.Report.ascii]
  unfold maaVersionOf
  rw [e, put_ok _ _ _ (by omega)]
  simp

/-- **C98**: whatever numbers the library was built with, the text fits into the buffer with room to spare, and reading the buffer gives
"Libmaa", the three numbers in decimal, separated by dots. -/
theorem C98_version (major minor teeny : Int) (h1 : IsInt major) (h2 : IsInt minor) (h3 : IsInt teeny) (buf : List Byte) (hb : buf.length = 80) :
    ∃ buf', maaVersionOf major minor teeny buf = .ok buf' ∧ buf'.length = 80 ∧ buf'.drop 43 = buf.drop 43 ∧
      CStr.cstr buf' = .ok (versionText major minor teeny) := by
  have hl := text_length major minor teeny h1 h2 h3
  refine ⟨_, of_eq major minor teeny buf (by omega), ?_, ?_, ?_⟩
  · simp only [List.length_append, List.length_drop, List.length_singleton]; omega
  · rw [List.drop_append, List.drop_of_length_le (by simp only [List.length_append, List.length_singleton]; omega), List.nil_append, List.drop_drop]
    congr 1
    simp only [List.length_append, List.length_singleton]
    omega
  · rw [List.append_assoc]
    exact cstr_text (text_noNul _ _ _) _

theorem split_dot {a b x y : List Byte} (ha : (46 : Byte) ∉ a) (hb : (46 : Byte) ∉ b) (h : a ++ 46 :: x = b ++ 46 :: y) : a = b ∧ x = y := by
  induction a generalizing b with
  | nil =>
    cases b with
    | nil => simpa using h
    | cons c b => simp only [List.nil_append, List.cons_append, List.cons.injEq] at h; simp [← h.1] at hb
  | cons c a ih =>
    cases b with
    | nil => simp only [List.nil_append, List.cons_append, List.cons.injEq] at h; simp [h.1] at ha
    | cons d b =>
      simp only [List.cons_append, List.cons.injEq] at h
      simp only [List.mem_cons, not_or] at ha hb
      obtain ⟨h1, h2⟩ := ih ha.2 hb.2 h.2
      exact ⟨by rw [h.1, h1], h2⟩

/-- **C98**: the three numbers can be read back from the text: two versions have the same text only if all numbers are the same. -/
theorem C98_numbers (a b c a' b' c' : Int) : versionText a b c = versionText a' b' c' ↔ a = a' ∧ b = b' ∧ c = c' := by
  constructor
  · intro h
    have hd : Spec.Report.ascii "." = [46] := by decide +kernel
    simp only [versionText, hd, List.append_assoc, List.singleton_append] at h
    have h := List.append_cancel_left h
    obtain ⟨h1, h⟩ := split_dot (decimalInt_noDot a) (decimalInt_noDot a') h
    obtain ⟨h2, h3⟩ := split_dot (decimalInt_noDot b) (decimalInt_noDot b') h
    exact ⟨decimalInt_inj h1, decimalInt_inj h2, decimalInt_inj h3⟩
  · rintro ⟨rfl, rfl, rfl⟩; rfl

/-- **C98**: writing the text again over the text changes no byte, so what an earlier call of `maa_version` returned stays as it is. -/
theorem C98_again (major minor teeny : Int) (h1 : IsInt major) (h2 : IsInt minor) (h3 : IsInt teeny) (buf buf' : List Byte)
    (hb : buf.length = 80) (h : maaVersionOf major minor teeny buf = .ok buf') : maaVersionOf major minor teeny buf' = .ok buf' := by
  have hl := text_length major minor teeny h1 h2 h3
  rw [of_eq major minor teeny buf (by omega)] at h
  simp only [Res.ok.injEq] at h
  subst h
  rw [of_eq _ _ _ _ (by simp only [List.length_append, List.length_drop, List.length_singleton]; omega)]
  congr 2
  rw [List.drop_append, List.drop_of_length_le (by simp), List.nil_append]
  simp

/-- A number of calls of `maa_version` in a row: the buffer after each. -/
def calls : Nat → List Byte → Res (List (List Byte))
  | 0, _ => .ok []
  | n + 1, buf => (maaVersion buf).bind fun b => (calls n b).bind fun bs => .ok (b :: bs)

theorem ints : IsInt MAA_MAJOR ∧ IsInt MAA_MINOR ∧ IsInt MAA_TEENY := by
  unfold IsInt MAA_MAJOR MAA_MINOR MAA_TEENY; omega

/-- **C98**: however often `maa_version` is called, every call succeeds, and after each of them the string is "Libmaa" with the
numbers `maa_version_major`, `maa_version_minor` and `maa_version_teeny` return, and the buffer is what it was after the first. -/
theorem C98_calls (n : Nat) : ∃ b, calls n buffer0 = .ok (List.replicate n b) ∧
    CStr.cstr b = .ok (versionText maaVersionMajor maaVersionMinor maaVersionTeeny) := by
  obtain ⟨i1, i2, i3⟩ := ints
  obtain ⟨b, hb, hl, -, hc⟩ := C98_version MAA_MAJOR MAA_MINOR MAA_TEENY i1 i2 i3 buffer0 (by simp [buffer0])
  have ha := C98_again MAA_MAJOR MAA_MINOR MAA_TEENY i1 i2 i3 buffer0 b (by simp [buffer0]) hb
  refine ⟨b, ?_, hc⟩
  have hrep : ∀ n, calls n b = .ok (List.replicate n b) := by
    intro n
    induction n with
    | zero => rfl
    | succ n ih => simp only [calls, maaVersion, ha, Res.bind, ih, List.replicate_succ]
  cases n with
  | zero => rfl
  | succ n => simp only [calls, maaVersion, hb, Res.bind, hrep, List.replicate_succ]

/-- At this commit the text is that of version 4.1.0, and the call writes 13 bytes of the buffer. -/
example : maaVersion buffer0 = .ok (Spec.Report.ascii "Libmaa 4.1.0" ++ List.replicate 68 0) ∧
    versionText maaVersionMajor maaVersionMinor maaVersionTeeny = Spec.Report.ascii "Libmaa 4.1.0" := by
  decide +kernel

/-- The longest text: 42 bytes. -/
example : IsInt (-2147483648) ∧ (versionText (-2147483648) (-2147483648) (-2147483648)).length = 42 := by
  refine ⟨by unfold IsInt; omega, by decide +kernel⟩

/-- A buffer of 42 bytes would not have been enough for it, one of 43 is. -/
example : maaVersionOf (-2147483648) (-2147483648) (-2147483648) (List.replicate 42 0) = .ub ∧
    maaVersionOf (-2147483648) (-2147483648) (-2147483648) (List.replicate 43 0) ≠ .ub := by
  decide +kernel

/-- **C98**: everything `maa_shutdown` writes, in any state in which the timer "total" exists: the line with the version when `.memory` or
`.time` is on; then, when `.memory` is on, the numbers `str_get_stats` returns, of the global string pool; then, when `.time` is on, a line for each
timer, "total" having been stopped. -/
theorem C98_shutdown (w : Lib.World) (T : Timers) (h : w.Reach T) (ht : T Lib.total ≠ none) (r : Reading) (S : Switches)
    (hS : Flags.DbgReach w.dbg S) (showP : Nat → List Byte) (global stdout stderr : Nat) (he : stderr ≠ 0) (buf : List Byte) (hb : buf.length = 80) :
    ∃ (out : List (Nat × List Byte)) (s : StrPool.Stats) (T' : Timers) (ls : List (List Byte × Spec.Timer)) (memory time : Bool),
      shutdownText showP global stdout stderr w r buf = .ok out ∧ (∀ p ∈ out, p.1 = stderr) ∧
      out.flatMap Prod.snd = (Spec.goodbye (versionText maaVersionMajor maaVersionMinor maaVersionTeeny) (showP global)
        (memory || time) (if memory then some (s.count, s.bytes, s.retrievals, s.hits, s.misses) else none) (if time then some ls else none)) ∧
      memory = S.isOn 3 Lib.MAA_MEMORY ∧ time = S.isOn 3 Lib.MAA_TIME ∧ StrPool.strGetStats w.str = .ok s ∧
      Spec.timStep Timer.difftime T (.stop (some Lib.total) r) = .ok (T', 0) ∧
      (ls.map Prod.fst).Nodup ∧ ∀ n t, (n, t) ∈ ls ↔ T' n = some t := by
  obtain ⟨s, hs, hp, -⟩ := PrintStats.C72_global w.str h.str showP global stdout stderr
  obtain ⟨v, hv⟩ := Option.ne_none_iff_exists'.1 ht
  have hstop : ∃ T', Spec.timStep Timer.difftime T (.stop (some Lib.total) r) = .ok (T', 0) := by
    simp only [Spec.timStep, Timers.on, hv]
    exact ⟨_, rfl⟩
  obtain ⟨T', hs'⟩ := hstop
  obtain ⟨t, t1, t2⟩ := Lib.tim_call h.tim (o := .stop (some Lib.total) r)
    (by intro s hs; simp only [TimOp.name, Option.some.injEq] at hs; rw [← hs]; exact Lib.total_nul) hs'
  have t1' : Timer.timStop w.tim (some (CStr.ofStr Lib.total)) r = .ok t := by
    simp only [Timer.step, Option.map_some] at t1
    exact Lib.bindOk_inv t1
  obtain ⟨tp, ls, q1, -, q3, q4⟩ := Timer.C65_print_timers t T' t2
  have hm := Lib.test_isOn hS Lib.MAA_MEMORY (by decide)
  have htm := Lib.test_isOn hS Lib.MAA_TIME (by decide)
  have c1 : Spec.codeGroup (Spec.group Lib.MAA_MEMORY) = 3 := by decide
  have c2 : Spec.codeGroup (Spec.group Lib.MAA_TIME) = 3 := by decide
  rw [c1] at hm
  rw [c2] at htm
  obtain ⟨i1, i2, i3⟩ := ints
  obtain ⟨b, hb, -, -, hc⟩ := C98_version MAA_MAJOR MAA_MINOR MAA_TEENY i1 i2 i3 buf hb
  have hb : maaVersion buf = .ok b := hb
  have hc : CStr.cstr b = .ok (versionText maaVersionMajor maaVersionMinor maaVersionTeeny) := hc
  have hn : lit "\n" = [10] := by decide +kernel
  refine ⟨(if S.isOn 3 Lib.MAA_MEMORY || S.isOn 3 Lib.MAA_TIME then
      [(stderr, versionText maaVersionMajor maaVersionMinor maaVersionTeeny ++ [10])] else []) ++
      (if S.isOn 3 Lib.MAA_MEMORY then [(stderr, Spec.Report.pool true (showP global) s.count s.bytes s.retrievals s.hits s.misses)] else []) ++
      (if S.isOn 3 Lib.MAA_TIME then [(stderr, ls.flatMap fun p => Spec.timerLine p.1 p.2)] else []),
    s, T', ls, S.isOn 3 Lib.MAA_MEMORY, S.isOn 3 Lib.MAA_TIME, ?_, ?_, ?_, rfl, rfl, hs, hs', q3, q4⟩
  · simp only [if_neg he] at hp
    simp only [shutdownText, hm, htm, hp, hb, t1']
    cases S.isOn 3 Lib.MAA_MEMORY <;> cases S.isOn 3 Lib.MAA_TIME <;>
      simp [Res.bind, hn, hc, q1]
  · intro p hp
    simp only [List.mem_append, List.mem_ite_nil_right, List.mem_singleton] at hp
    rcases hp with (⟨-, rfl⟩ | ⟨-, rfl⟩) | ⟨-, rfl⟩ <;> rfl
  · cases S.isOn 3 Lib.MAA_MEMORY <;> cases S.isOn 3 Lib.MAA_TIME <;> simp [Spec.goodbye]

/-- A program that calls `maa_init`, switches `.memory` and `.time` on and calls `maa_shutdown`. -/
def prog98 : Res (List (Nat × List Byte)) :=
  (Lib.maaInit (Lib.World.init 16) (some [112, 0]) ⟨⟨10, 0⟩, ⟨1, 0⟩, ⟨1, 0⟩, ⟨0, 0⟩, ⟨0, 0⟩⟩).bind fun w =>
  (Flags.dbgStep w.dbg (.set (some (lit ".memory")))).bind fun d =>
  (Flags.dbgStep d.1 (.set (some (lit ".time")))).bind fun d =>
  shutdownText (fun _ => lit "P") 5 1 2 { w with dbg := d.1 } ⟨⟨12, 0⟩, ⟨2, 0⟩, ⟨1, 0⟩, ⟨0, 0⟩, ⟨0, 0⟩⟩ buffer0

example : prog98 = .ok [(2, lit "Libmaa 4.1.0\n"),
    (2, lit ("Statistics for global string pool at P:\n   0 strings using 0 bytes\n" ++ "   0 retrievals (0 from top, 0 failed)\n")),
    (2, lit "total                2.000r 1.000u 0.000s\n")] := by
  decide +kernel

end Maa.Version
