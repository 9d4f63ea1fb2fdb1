import Verif.Model.PrintStats
import Verif.Spec.Report
import Verif.Props.HashStats
import Verif.Props.Objects
import Verif.Props.Source
import Verif.Props.Lists
import Verif.Props.StrMem
import Verif.Props.StrStats

/-! # Property C72: printed statistics -/

namespace Maa.PrintStats

open HashHeap (HTab hcreate heapStep setHeapStep hgetStats TrueNumbers)
open Tab (Entry)
open Spec (decimal decimalInt)

variable {K D α : Type}

/-- where a report goes: to the stream given, to `stdout` if none is given -/
theorem pick_eq (stdout stream : Nat) : pick stdout stream = if stream = 0 then stdout else stream := by
  unfold pick; by_cases h : stream = 0 <;> simp [h]

theorem printTable_eq (kind : String) (showP : Nat → List Byte) (showF : Nat → Nat → List Byte) (h : Heap (Entry K D)) (pt : Nat)
    (t : HTab) (stdout stream : Nat) (hpt : pt ≠ 0) (s : Tab.Stats) (hs : hgetStats h t = .ok s) :
    printTable kind showP showF h pt t stdout stream = .ok (if stream = 0 then stdout else stream,
      Spec.Report.table kind (showP pt) s.resizings s.size s.entries s.buckets_used s.singletons s.maximum_length s.retrievals s.hits
        s.misses (if s.buckets_used = 0 then none else some (showF s.entries s.buckets_used))) := by
  unfold printTable
  rw [if_neg hpt, hs]
  have e1 : lit ":\n" = lit ":" ++ [10] := by decide +kernel
  have e2 : lit " total\n" = lit " total" ++ [10] := by decide +kernel
  have e3 : lit " without overflow)\n" = lit " without overflow)" ++ [10] := by decide +kernel
  have e4 : lit ")\n" = lit ")" ++ [10] := by decide +kernel
  have e5 : lit "\n" = [10] := by decide +kernel
  have e6 : lit " failed)\n" = lit " failed)" ++ [10] := by decide +kernel
  have e : Spec.Report.ascii = lit := rfl
  simp only [Res.bind, pick_eq, Spec.Report.table, Spec.Report.lines, e1, e2, e3, e4, e5, e6, e]
  by_cases hb : s.buckets_used = 0
  · simp [hb]
  · simp [hb]

/-- **C72**, `hsh_print_stats`: after any history it writes, to the stream given or to `stdout`, the report of the true numbers: the chains
in memory, the number of pairs in the map, the number of retrievals and of failed ones; the average is given exactly when there is
an entry. -/
theorem C72_hash (ops : KeyOps K) (law : ops.Lawful) (h0 : Heap (Entry K Ptr)) (ok0 : h0.Ok)
    (hist : List (Spec.HashOp K)) (t0 t : HTab) (h : Heap (Entry K Ptr)) (outs : List Spec.Ret)
    (hc : hcreate 0 = .ok t0) (hr : Spec.run (heapStep ops) (h0, t0) hist = .ok ((h, t), outs))
    (showP : Nat → List Byte) (showF : Nat → Nat → List Byte) (pt : Nat) (hpt : pt ≠ 0) (stdout stream : Nat) :
    ∃ (s : Tab.Stats) (m : Spec.MapState K), TrueNumbers h t s ∧ Spec.run (Spec.hashStep (eqv ops)) {} hist = .ok (m, outs) ∧
      s.hits + m.misses ≤ m.retrievals ∧
      printTable "hash table" showP showF h pt t stdout stream = .ok (if stream = 0 then stdout else stream,
        Spec.Report.table "hash table" (showP pt) s.resizings s.size m.map.length s.buckets_used s.singletons s.maximum_length
          m.retrievals s.hits m.misses (if m.map = [] then none else some (showF m.map.length s.buckets_used))) := by
  obtain ⟨s, m, h1, h2, h3, h4, h5, h6, h7⟩ := HashHeap.C06_pointers ops law h0 ok0 hist t0 t h outs hc hr
  refine ⟨s, m, h2, h3, by rw [← h5, ← h6]; exact h7, ?_⟩
  rw [printTable_eq _ _ _ _ _ _ _ _ hpt s h1, h4, h5, h6]
  have hb : s.buckets_used = 0 ↔ m.map = [] := by
    obtain ⟨len, -, -, k2, k3, -⟩ := h2
    rw [k3, List.countP_eq_zero, ← List.length_eq_zero_iff, ← h4, k2, List.sum_eq_zero_iff]
    simp
  by_cases hm : m.map = []
  · rw [if_pos (hb.2 hm), if_pos hm]
  · rw [if_neg (fun hq => hm (hb.1 hq)), if_neg hm]

/-- **C72**, `set_print_stats`. -/
theorem C72_set (ops : KeyOps K) (law : ops.Lawful) (h0 : Heap (Entry K Unit)) (ok0 : h0.Ok)
    (hist : List (Spec.OneSetOp K)) (t0 t : HTab) (h : Heap (Entry K Unit)) (outs : List Int)
    (hc : hcreate 0 = .ok t0) (hr : Spec.run (setHeapStep ops) (h0, t0) hist = .ok ((h, t), outs))
    (showP : Nat → List Byte) (showF : Nat → Nat → List Byte) (pt : Nat) (hpt : pt ≠ 0) (stdout stream : Nat) :
    ∃ (s : Tab.Stats) (m : Spec.OneSet K), TrueNumbers h t s ∧ Spec.run (Spec.oneSetStep (eqv ops)) {} hist = .ok (m, outs) ∧
      printTable "set" showP showF h pt t stdout stream = .ok (if stream = 0 then stdout else stream,
        Spec.Report.table "set" (showP pt) s.resizings s.size m.elems.length s.buckets_used s.singletons s.maximum_length
          s.retrievals s.hits s.misses (if m.elems = [] then none else some (showF m.elems.length s.buckets_used))) := by
  obtain ⟨s, m, h1, h2, h3, h4, -⟩ := HashHeap.C15_pointers ops law h0 ok0 hist t0 t h outs hc hr
  refine ⟨s, m, h2, h3, ?_⟩
  rw [printTable_eq _ _ _ _ _ _ _ _ hpt s h1, h4]
  have hb : s.buckets_used = 0 ↔ m.elems = [] := by
    obtain ⟨len, -, -, k2, k3, -⟩ := h2
    rw [k3, List.countP_eq_zero, ← List.length_eq_zero_iff, ← h4, k2, List.sum_eq_zero_iff]
    simp
  by_cases hm : m.elems = []
  · rw [if_pos (hb.2 hm), if_pos hm]
  · rw [if_neg (fun hq => hm (hb.1 hq)), if_neg hm]

/-- **C72**, `mem_print_object_stats`: the true numbers of objects ever allocated (the largest number in use at one time), in use, and
handed out again. -/
theorem C72_objects (h0 : Heap α) (ok0 : h0.Ok) (zero junk : α × Nat) (size : Int)
    (hist : List Spec.ObjOp) (s : Heap α × Objects.Pool) (outs : List Nat) (c : Spec.Client)
    (hr : Spec.run (Objects.step zero junk) (h0, Objects.create size) hist = .ok (s, outs))
    (hc : Spec.Client.after {} hist outs = some c) (showP : Nat → List Byte) (info : Nat) (hi : info ≠ 0) (stdout stream : Nat) :
    printObjects showP info s.2 stdout stream = .ok (if stream = 0 then stdout else stream,
      Spec.Report.objects (showP info) c.peak c.held.length (c.gets - c.peak)) := by
  obtain ⟨-, -, h1, -⟩ := Objects.C22_pool_books h0 ok0 zero junk size hist s outs c hr hc
  have e1 : lit ":\n" = lit ":" ++ [10] := by decide +kernel
  have e2 : lit " are in use\n" = lit " are in use" ++ [10] := by decide +kernel
  have e3 : lit " objects have been reused\n" = lit " objects have been reused" ++ [10] := by decide +kernel
  have e : Spec.Report.ascii = lit := rfl
  unfold printObjects
  simp [if_neg hi, h1, pick_eq, Spec.Report.objects, Spec.Report.lines, e1, e2, e3, e]

/-- **C72**, `mem_print_string_stats`: the true numbers of strings and bytes. -/
theorem C72_strings (h0 : StrMem.Mem) (ok0 : h0.Ok) (s : StrMem.Mem × StrMem.SInfo) (v : Spec.StrView) (r : StrMem.Reaches h0 s v)
    (showP : Nat → List Byte) (info : Nat) (hi : info ≠ 0) (stdout stream : Nat) :
    printStrings showP info s.2 stdout stream = .ok (if stream = 0 then stdout else stream,
      Spec.Report.strings (showP info) v.strings.length
        ((v.strings.map fun p => p.2.length).sum + v.pending.length + v.abandoned)) := by
  have h1 := StrMem.C25_stats h0 ok0 s v r
  have e1 : lit ":\n" = lit ":" ++ [10] := by decide +kernel
  have e2 : lit " bytes\n" = lit " bytes" ++ [10] := by decide +kernel
  have e : Spec.Report.ascii = lit := rfl
  unfold printStrings
  simp [if_neg hi, h1, pick_eq, Spec.Report.strings, Spec.Report.lines, e1, e2, e]

theorem printPool_eq (showP : Nat → List Byte) (global pool : Nat) (p : Option StrPool.Pool) (stdout stream : Nat) (s : StrPool.Stats)
    (hs : StrPool.getStats p = .ok s) :
    printPool showP global pool p stdout stream = .ok (if stream = 0 then stdout else stream,
      Spec.Report.pool (decide (pool = global)) (showP pool) s.count s.bytes s.retrievals s.hits s.misses) := by
  have e1 : lit ":\n" = lit ":" ++ [10] := by decide +kernel
  have e2 : lit " bytes\n" = lit " bytes" ++ [10] := by decide +kernel
  have e3 : lit " failed)\n" = lit " failed)" ++ [10] := by decide +kernel
  have e : Spec.Report.ascii = lit := rfl
  unfold printPool
  by_cases hg : pool = global <;> simp [hs, Res.bind, hg, pick_eq, Spec.Report.pool, Spec.Report.lines, e1, e2, e3, e]

/-- **C72**, `str_pool_print_stats` after any history of permitted calls: it prints what `str_pool_get_stats` returns (C66 says that these
numbers are true), and names the global pool. -/
theorem C72_pool {h0 : StrMem.Mem} {hh0} (st : StrPool.Start h0 hh0) (hist : List Spec.PoolOp) (p : StrPool.Pool) (outs : List Spec.Ret)
    (r : StrPool.Reaches h0 hh0 hist p outs) (showP : Nat → List Byte) (global pool stdout stream : Nat) :
    ∃ s, StrPool.getStats (some p) = .ok s ∧
      printPool showP global pool (some p) stdout stream = .ok (if stream = 0 then stdout else stream,
        Spec.Report.pool (decide (pool = global)) (showP pool) s.count s.bytes s.retrievals s.hits s.misses) := by
  obtain ⟨v, M, ro, i, -⟩ := r.inv st
  exact ⟨_, i.stats, printPool_eq _ _ _ _ _ _ _ i.stats⟩

/-- **C72**, `str_print_stats`: never fails; without a global pool it reports zeros. -/
theorem C72_global (g : StrPool.Global) (r : StrPool.GReach g) (showP : Nat → List Byte) (global stdout stream : Nat) :
    ∃ s, StrPool.strGetStats g = .ok s ∧
      printGlobal showP global g stdout stream = .ok (if stream = 0 then stdout else stream,
        Spec.Report.pool true (showP global) s.count s.bytes s.retrievals s.hits s.misses) ∧
      (g.pool = none → s = { count := 0, bytes := 0, retrievals := 0, hits := 0, misses := 0 }) := by
  obtain ⟨⟨s, h1⟩, h2⟩ := StrPool.C66_global g r
  refine ⟨s, h1, ?_, fun hn => ?_⟩
  · have := printPool_eq showP global global _ stdout stream s h1
    simpa [printGlobal] using this
  · have := h2 hn
    rw [h1] at this
    cases this
    rfl

/-- **C72**, `src_print_stats`: after any history of the source manager the numbers are those of the lines stored (also by earlier
managers), the characters stored and the tokens made by the present manager, zeros when there is none. -/
theorem C72_source (hist : List Spec.SrcOp) (σ : Source.State) (outs : List Spec.SrcVal)
    (hr : Spec.run Source.step Source.State.init hist = .ok (σ, outs)) (size stdout stream : Nat) :
    ∃ S, Spec.run Spec.srcStep Spec.Src.init hist = .ok (S, outs) ∧
      printSource size σ stdout stream = (if stream = 0 then stdout else stream,
        if S.alive then Spec.Report.source S.used S.bytes S.allocated S.total size 0 else Spec.Report.source 0 0 0 0 size 0) := by
  have h := Spec.run_sim Source.Sim Source.step Spec.srcStep Source.step_sim Source.State.init Spec.Src.init hist Source.Sim.init
  rw [hr] at h
  cases hs : Spec.run Spec.srcStep Spec.Src.init hist <;> rw [hs] at h <;> simp only [Spec.ResRel] at h <;> try contradiction
  rename_i b
  obtain ⟨S, vs⟩ := b
  obtain ⟨h1, h2⟩ := h
  refine ⟨S, by rw [h1], ?_⟩
  have e1 : lit "Statistics for source manager:\n" = lit "Statistics for source manager:" ++ [10] := by decide +kernel
  have e2 : lit " allocated)\n" = lit " allocated)" ++ [10] := by decide +kernel
  have e3 : lit " reused)\n" = lit " reused)" ++ [10] := by decide +kernel
  have e : Spec.Report.ascii = lit := rfl
  have hm := h2.main
  have hu := h2.used
  simp only at hu
  cases hl : σ.lines with
  | none =>
    rw [hl] at hm
    have ha : S.alive = false := hm.1
    simp [printSource, Source.srcStats, hl, ha, pick_eq, Spec.Report.source, Spec.Report.lines, e1, e2, e3, e]
  | some a =>
    rw [hl] at hm
    have ha : S.alive = true := hm.1
    simp [printSource, Source.srcStats, hl, ha, pick_eq, Spec.Report.source, Spec.Report.lines, e1, e2, e3, e, hu, hm.2.count,
      hm.2.bytes, hm.2.total]

theorem visit_dump (showP : Nat → List Byte) (ds : List Nat) : ∀ out : List Byte,
    (Lst.visit (dumpNode showP) ds out).1 = out ++ Spec.Report.lines (ds.map fun d => [lit " 0x", showP d]) := by
  have e1 : lit "\n" = [10] := by decide +kernel
  induction ds with
  | nil => intro out; simp [Lst.visit, Spec.Report.lines]
  | cons d ds ih => intro out; simp [Lst.visit, dumpNode, Spec.Report.lines] at ih ⊢; rw [ih, e1]; simp

/-- **C72**, `lst_dump`: one line for each element of the list, in order. -/
theorem C72_list (σ : Lst.State) (S : Spec.Lists) (h : Lst.Reachable σ S) (i : Nat) (l : List (Nat × Nat))
    (hl : S.lists i = some l) (showP : Nat → List Byte) :
    lstDump showP σ i = .ok (Spec.Report.lines (l.map fun e => [Spec.Report.ascii " 0x", showP e.2])) := by
  rw [lstDump, (Lst.C21_positions σ S h i l hl).2.2.2.2, Res.bind, visit_dump]
  simp [Spec.Report.ascii, lit, Function.comp_def]

/-- two lines and a token, printed -/
example : (match Spec.run Source.step Source.State.init [.line [97, 9, 98, 0] 3, .line [99, 0] 1, .get 1] with
    | .ok (σ, _) => printSource 24 σ 1 0
    | _ => (0, [])) = (1, lit "Statistics for source manager:\n   2 lines using 6 bytes (1000 allocated)\n   1 tokens using 24 bytes (0 reused)\n") := by
  decide +kernel

/-- a table after a few calls, printed -/
example : ((hcreate 0).bind fun t => (Spec.run (heapStep Hash.exOps) (Heap.init, t)
    [.insert 1 10, .insert 3 30, .insert 5 50, .retrieve 3, .delete 1, .retrieve 1]).bind fun r =>
      printTable "hash table" (fun _ => lit "0x7") (fun _ _ => lit "2.0") r.1.1 7 r.1.2 1 0) =
    .ok (1, lit "Statistics for hash table at 0x7:\n   2 resizings to 11 total\n   2 entries (1 buckets used, 0 without overflow)\n   maximum list length is 2 (optimal is 2.0)\n   2 retrievals (0 from top, 1 failed)\n") := by
  decide +kernel

/-- a new string memory, printed to a stream -/
example : printStrings (fun _ => lit "0x9") 9 StrMem.create 1 2 =
    .ok (2, lit "Statistics for string memory manager at 0x9:\n   0 strings, using 0 bytes\n") := by decide +kernel

end Maa.PrintStats
