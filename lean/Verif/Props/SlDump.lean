import Verif.Model.SlDump
import Verif.Props.SlDebug
import Verif.Props.PrintStats

/-! # Property C72, `_sl_dump` -/

namespace Maa.PrintStats

open Sl (Node Rep Linked NodeOk nxt hd)
open Spec (SlProg)

variable {σ : Type}

theorem slDumpLoop_ok (showP : Nat → List Byte) {s : Sl.SList} {h : Sl.Heap} : ∀ (xs : List Node) (fuel count : Nat) (out : List Byte),
    xs.length < fuel → Linked h xs → (∀ n ∈ xs, n.id ≠ 0) →
    slDumpLoop showP s h fuel (nxt 0 xs) count out =
      .ok (out ++ Spec.Report.lines (Spec.Report.entries showP s.key count (xs.map fun n => (n.id, n.datum)))) := by
  have e : Spec.Report.ascii = lit := rfl
  have e1 : lit ")\n" = lit ")" ++ [10] := by decide +kernel
  intro xs
  induction xs with
  | nil =>
    intro fuel count out hf _ _
    cases fuel with
    | zero => simp at hf
    | succ fuel => simp [slDumpLoop, nxt, Spec.Report.entries, Spec.Report.lines]
  | cons n xs ih =>
    intro fuel count out hf hl h0
    cases fuel with
    | zero => simp at hf
    | succ fuel =>
      rw [Sl.nxt_zero_cons]
      simp only [slDumpLoop]
      rw [if_neg (h0 n (by simp)), hl.datum (n := n) (by simp), Sl.okBind, (hl [] n xs rfl).fwd (Nat.zero_le _), Sl.okBind,
        ih fuel (count + 1) _ (by simpa using hf) (Linked.suffix (a := [n]) hl) (fun m hm => h0 m (by simp [hm]))]
      by_cases hd : n.datum = 0 <;> simp [Spec.Report.entries, Spec.Report.lines, e, e1, hd]

/-- **C72**, `_sl_dump`: after every program, with any comparison functions, an existing list is printed as it is: its level, at most 16, the
number of its data, and the data in the sequence in which a walk visits them, each with the address of its entry; the addresses are different
and none is NULL. -/
theorem C72_skip_list (showP : Nat → List Byte) (place : Policy) (hp : Heap.Allocator place) (p : SlProg σ) (s : Sl.State) (x : σ × Int)
    (h : Sl.exec p (Sl.State.init place) = .ok (s, x)) (l : Nat) (o : Sl.SList) (hl : s.lists l = some o) :
    ∃ level head data, slDump showP s l = .ok (Spec.Report.skipList showP o.key level head data) ∧ level ≤ 16 ∧
      Sl.exec (Sl.collect l) s = .ok (s, data.map Prod.snd, 0) ∧ (head :: data.map Prod.fst).Nodup ∧ ∀ a ∈ head :: data.map Prod.fst, a ≠ 0 := by
  obtain ⟨r, h1, h2⟩ := Sl.exec_loose p _ _ _ (Sl.inv_init hp)
  rw [h] at h2
  cases r <;> simp only [Spec.ResRel] at h2
  obtain ⟨-, N, I⟩ := h2
  have h0 : l ≠ 0 := Nat.ne_of_gt (I.small l o hl).1
  have r : Rep s.heap o (N l) := I.rep l o hl
  have hch : s.check l = .ok o := by unfold Sl.State.check; rw [if_neg h0, hl]
  have e : Spec.Report.ascii = lit := rfl
  have e1 : lit "\n" = [10] := by decide +kernel
  refine ⟨o.level, o.head, (N l).map fun n => (n.id, n.datum), ?_, r.top, ?_, ?_, ?_⟩
  · unfold slDump
    rw [hch, Sl.okBind]
    have := slDumpLoop_ok showP (s := o) (hd o :: N l) (s.heap.clock + 1) 0 (lit "Level = " ++ Spec.decimalInt o.level ++ lit ", count = " ++ Spec.decimalInt o.count ++ lit "\n")
      (by have := r.few; simp; omega) r.linked (fun n hn => Nat.ne_of_gt (r.pos n hn))
    rw [Sl.nxt_zero_cons] at this
    rw [show o.head = (hd o).id from rfl, this, r.size]
    have d1 : ∀ n : Nat, Spec.decimalInt (n : Int) = Spec.decimal n := by intro n; unfold Spec.decimalInt; rw [if_neg (by omega)]; simp
    simp [Spec.Report.skipList, Spec.Report.lines, e, e1, d1, hd]
  · rw [Sl.collect_ok h0 hl r]; simp [Function.comp_def]
  · have := r.nodup
    simpa [Sl.ids, Function.comp_def, hd] using this
  · intro a ha
    have : a ∈ Sl.ids (hd o :: N l) := by simpa [Sl.ids, Function.comp_def, hd] using ha
    unfold Sl.ids at this
    rw [List.mem_map] at this
    obtain ⟨n, hn, rfl⟩ := this
    exact Nat.ne_of_gt (r.pos n hn)

/-- a list with two data, of which one is NULL, printed -/
example : (match Sl.exec (.call Sl.byNumber fun l => .call (.insert l 7 fun _ => 0) fun _ => .call (.insert l 0 fun _ => 0x80) fun _ => SlProg.ret () 0) Sl.State.init with
    | .ok (s, _) => slDump (fun a => lit "@" ++ Spec.decimal a) s 1
    | _ => .ub) = .ok (lit "Level = 2, count = 2\n  Entry @1 (0/@0/0x@0=0)\n  Entry @3 (1/@0/0x@0=0)\n  Entry @2 (2/@7/0x@7=7)\n") := by
  decide +kernel

end Maa.PrintStats
