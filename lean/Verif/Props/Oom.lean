import Verif.Lemmas.OomCount
import Verif.Spec.Oom
import Verif.Props.HashHeap
import Verif.Props.SetHeap
import Verif.Props.Stack
import Verif.Props.Lists
import Verif.Props.Sl

/-! # Property C78: running out of memory

`fails n` says that the C library refuses the request for memory with number `n`, for any `fails`. -/

namespace Maa.Oom

open Spec (run observe OrderlyEnd EndsAtFailure onlyFirst ResRel)
open Tab (Entry)
open HashHeap (HTab)
open SetHeap (HStore HSet)
open _root_.Maa.Set (FnEnv)

variable {K α : Type}

theorem start {S T O X : Type} {fails : Fails} {bare : Bool} {R : S → T → Prop} {stepF : S × Nat → O → Res ((S × Nat) × X)}
    {step : T → O → Res (T × X)} (h : StepFollows fails bare R stepF step) (hist : List O) {mk : Res (S × Nat)} {y : Res T}
    (h0 : Follows fails bare R 0 mk y) :
    ∃ m, (∀ k, k < m → fails k = false) ∧
      ((fails m = true ∧ ((mk.bind fun s => run stepF s hist) = .fatal ∨ (bare = true ∧ (mk.bind fun s => run stepF s hist) = .ub))) ∨
       (observe (mk.bind fun s => run stepF s hist) = (y.bind fun t => observe (run step t hist)) ∧
         ∀ s n xs, (mk.bind fun s => run stepF s hist) = .ok ((s, n), xs) → n = m)) := by
  obtain ⟨m, -, hk, h0 | h0⟩ := h0
  · refine ⟨m, fun k hm => hk k (Nat.zero_le k) hm, .inl ⟨h0.1, ?_⟩⟩
    rcases h0.2 with e | e
    · left; rw [e]; rfl
    · right; exact ⟨e.1, by rw [e.2]; rfl⟩
  · match mk, y, h0 with
    | .ok (s, _), .ok t, ⟨rfl, hR⟩ =>
      obtain ⟨m', hm, hk', h'⟩ := h.observe hist s t _ hR
      refine ⟨m', fun k hlt => ?_, h'⟩
      by_cases hl : k < m
      · exact hk k (Nat.zero_le k) hl
      · exact hk' k (Nat.not_lt.1 hl) hlt
    | .abort, .abort, _ => exact ⟨m, fun k hm => hk k (Nat.zero_le k) hm, .inr ⟨rfl, fun _ _ _ e => by cases e⟩⟩
    | .fatal, .fatal, _ => exact ⟨m, fun k hm => hk k (Nat.zero_le k) hm, .inr ⟨rfl, fun _ _ _ e => by cases e⟩⟩
    | .ub, .ub, _ => exact ⟨m, fun k hm => hk k (Nat.zero_le k) hm, .inr ⟨rfl, fun _ _ _ e => by cases e⟩⟩

theorem start_orderly {S T O X : Type} {fails : Fails} {R : S → T → Prop} {stepF : S × Nat → O → Res ((S × Nat) × X)}
    {step : T → O → Res (T × X)} (h : StepFollows fails false R stepF step) (hist : List O) {mk : Res (S × Nat)} {y : Res T}
    (h0 : Follows fails false R 0 mk y) :
    OrderlyEnd fails (mk.bind fun s => run stepF s hist) (y.bind fun t => observe (run step t hist)) := by
  obtain ⟨m, h1, h2⟩ := start h hist h0
  refine ⟨m, h1, h2.imp (fun h => ⟨h.1, h.2.resolve_right fun e => by simp at e⟩) id⟩

theorem start_ends {S T O X : Type} {fails : Fails} {R : S → T → Prop} {stepF : S × Nat → O → Res ((S × Nat) × X)}
    {step : T → O → Res (T × X)} (h : StepFollows fails true R stepF step) (hist : List O) {mk : Res (S × Nat)} {y : Res T}
    (h0 : Follows fails true R 0 mk y) :
    EndsAtFailure fails (mk.bind fun s => run stepF s hist) (y.bind fun t => observe (run step t hist)) := by
  obtain ⟨m, h1, h2⟩ := start h hist h0
  exact ⟨m, h1, h2.imp (fun h => ⟨h.1, h.2.imp id And.right⟩) id⟩

/-! ## Hash tables and sets -/

/-- A program that creates a hash table and makes calls on it. -/
def tableProg (fails : Fails) (ops : KeyOps K) (h0 : Heap (Entry K Ptr)) (hist : List (Spec.HashOp K)) :
    Res (((Heap (Entry K Ptr) × HTab) × Nat) × List Spec.Ret) :=
  (create fails 0 0).bind fun t => run (hashStep fails ops) ((h0, t.1), t.2) hist

/-- **C78, hash tables**: whichever requests are refused, hsh_create and any history of calls either end the program with a message at
the first request refused — with none of it visible, the failing call does not return — or return what a plain finite map returns. -/
theorem C78_hash_tables (fails : Fails) (ops : KeyOps K) (law : ops.Lawful) (h0 : Heap (Entry K Ptr)) (ok0 : h0.Ok)
    (hist : List (Spec.HashOp K)) :
    OrderlyEnd fails (tableProg fails ops h0 hist) (observe (run (Spec.hashStep (eqv ops)) {} hist)) := by
  rw [← HashHeap.C05_pointers ops law h0 ok0 hist]
  have h1 : Follows fails false Eq 0 ((create fails 0 0).bind fun t => .ok ((h0, t.1), t.2))
      ((HashHeap.hcreate 0).bind fun t => .ok (h0, t)) :=
    (create_follows 0 0).bind fun a b m e _ => by subst e; exact .ok rfl
  have := start_orderly (hash_follows (fails := fails) ops) hist h1
  unfold tableProg
  revert this
  cases create fails 0 0 <;> cases HashHeap.hcreate 0 <;> exact id

/-- **C78, sets**: likewise for any history of calls on any number of sets, including set_add, set_union, set_inter and set_diff, which
create and fill sets on the way. -/
theorem C78_sets (fails : Fails) (place : Policy) (hp : Heap.Allocator place) (env : FnEnv K) (hist : List (Spec.SetOp K))
    (ok : ∀ o ∈ hist, _root_.Maa.Set.OkOp env o) :
    OrderlyEnd fails (run (setStep fails env) (HStore.empty place, 0) hist)
      (observe (run (Spec.setStep (_root_.Maa.Set.eqOf env)) Spec.AStore.empty hist)) := by
  rw [← SetHeap.C11_pointers_many place hp env hist ok]
  exact start_orderly (set_follows (fails := fails) env) hist (mk := .ok (HStore.empty place, 0)) (y := .ok (HStore.empty place)) (.ok rfl)

/-- Memory for the table and one cell: the second insertion ends the program.  The table grows at the second and at the third insertion,
which take four and five requests: two for the new table, one for each key. -/
example : tableProg (onlyFirst 3) Hash.exOps (Heap.init) [.insert 1 10, .insert 3 30, .retrieve 1] = .fatal ∧
    tableProg (onlyFirst 1) Hash.exOps (Heap.init) [.insert 1 10, .insert 3 30, .retrieve 1] = .fatal ∧
    observe (tableProg (onlyFirst 11) Hash.exOps (Heap.init) [.insert 1 10, .insert 3 30, .retrieve 1, .insert 4 40, .retrieve 4]) = .fatal ∧
    observe (tableProg (onlyFirst 12) Hash.exOps (Heap.init) [.insert 1 10, .insert 3 30, .retrieve 1, .insert 4 40, .retrieve 4]) =
      .ok [.int 0, .int 0, .ptr 10, .int 0, .ptr 40] := by
  refine ⟨?_, ?_, ?_, ?_⟩
  all_goals rfl

/-- Sets: a union needs two requests for the new set, its cells, and those of its resizings. -/
example : observe (run (setStep (onlyFirst 12) Set.exEnv) (HStore.empty, 0) [.create 0 0, .create 0 0, .insert 0 1, .insert 1 2, .union 0 1]) = .fatal ∧
    observe (run (setStep (onlyFirst 13) Set.exEnv) (HStore.empty, 0) [.create 0 0, .create 0 0, .insert 0 1, .insert 1 2, .union 0 1, .count 2]) =
      .ok [0, 1, 0, 0, 2, 2] := by
  refine ⟨?_, ?_⟩
  all_goals rfl

/-- How many requests these programs make when they get through: for a table two at the start and two at every resizing, and one for every
cell of a chain (a cell is made for a new key and for every key at a resizing). -/
theorem C78_hash_requests (fails : Fails) (ops : KeyOps K) (h0 : Heap (Entry K Ptr)) (hist : List (Spec.HashOp K))
    (h : Heap (Entry K Ptr)) (t : HTab) (n : Nat) (xs : List Spec.Ret) (hr : tableProg fails ops h0 hist = .ok (((h, t), n), xs)) :
    n + h0.clock = 2 + h.clock + 2 * t.resizings := by
  simp only [tableProg, Res.bind_ok_iff] at hr
  obtain ⟨⟨t0, n0⟩, e0, hr⟩ := hr
  obtain ⟨h1, h2⟩ := create_count e0
  have := Spec.run_measure (fun _ (s : (Heap (Entry K Ptr) × HTab) × Nat) => s.2 + h0.clock = 2 + s.1.1.clock + 2 * s.1.2.resizings) (fun _ => 0)
    (hashStep fails ops) (fun _ s o s' x hs he => by
      have := hash_count (s := s.1) (n := s.2) (s' := s'.1) (n' := s'.2) he
      omega) hist 0 _ _ xs (by simp only; omega) hr
  exact this

/-- For sets (none destroyed): the structures and arrays of all sets made, those of the resizings, the cells, and one for every answer of
set_get_stats (which the caller frees). -/
theorem C78_set_requests (fails : Fails) (place : Policy) (env : FnEnv K) (hist : List (Spec.SetOp K)) (hd : ∀ o ∈ hist, ∀ i, o ≠ .destroy i)
    (s : HStore K) (n : Nat) (xs : List Int) (hr : run (setStep fails env) (HStore.empty place, 0) hist = .ok ((s, n), xs)) :
    n + 1 = s.heap.clock + 2 * s.next + 2 * grown s + (hist.map statsCost).sum := by
  have := Spec.run_measure_of (fun o : Spec.SetOp K => ∀ i, o ≠ .destroy i) (fun c (s : HStore K × Nat) => SetCount c s.1 s.2) statsCost
    (setStep fails env) (fun c s o s' x ho hs he => set_count (s := s.1) (n := s.2) (s' := s'.1) (n' := s'.2) ho hs he) hist hd 0 _ _ xs
    ⟨by simp [HStore.empty, Heap.init, grown], fun i h => by simp [HStore.empty] at h⟩ hr
  have := this.count
  simp only at this
  omega

/-! ## Stacks and everything made with them -/

/-- **C78, stacks** (partial): a refused request either ends the program with a message or is undefined behaviour; until then everything
is as documented.  Missing: the request of stk_push is not checked, see `C78_push_refuted`. -/
theorem C78_stacks_partial (fails : Fails) (place : Policy) (hp : Heap.Allocator place) (hist : List Spec.StackOp) :
    EndsAtFailure fails (run (stackStep fails) (Stack.State.init place, 0) hist) (observe (run Spec.stackStep Spec.Stacks.empty hist)) := by
  rw [← Stack.C17_stacks_are_lifo place hp hist]
  exact start_ends stack_follows hist (mk := .ok (Stack.State.init place, 0)) (y := .ok (Stack.State.init place)) (.ok rfl)

/-- One request for every stack and one for every push. -/
theorem C78_stack_requests (fails : Fails) (σ σ' : Stack.State) (n n' : Nat) (hist : List Spec.StackOp) (xs : List Int)
    (hr : run (stackStep fails) (σ, n) hist = .ok ((σ', n'), xs)) :
    n' = n + (hist.countP fun o => match o with | .create => true | .push _ _ => true | _ => false) := by
  have h := Spec.run_measure (fun c (s : Stack.State × Nat) => s.2 = n + c) stackCost (stackStep fails)
    (fun c s o s' x hs he => by have := stack_count (σ := s.1) (n := s.2) (σ' := s'.1) (n' := s'.2) he; omega) hist 0 _ _ xs rfl hr
  simp only [Nat.zero_add] at h
  rw [h]
  congr 1
  clear hr h
  induction hist with
  | nil => rfl
  | cons o os ih =>
    simp only [List.map_cons, List.sum_cons, List.countP_cons, ih]
    cases o <;> simp [stackCost] <;> omega

/-- With one request too few for the last push it is undefined behaviour, with none at all there is a message. -/
example : observe (run (stackStep (onlyFirst 2)) (Stack.State.init, 0) [.create, .push 0 5, .push 0 6, .pop 0]) = .ub ∧
    observe (run (stackStep (onlyFirst 0)) (Stack.State.init, 0) [.create, .push 0 5, .push 0 6, .pop 0]) = .fatal ∧
    observe (run (stackStep (onlyFirst 3)) (Stack.State.init, 0) [.create, .push 0 5, .push 0 6, .pop 0]) = .ok [0, 0, 0, 6] := by
  refine ⟨?_, ?_, ?_⟩
  all_goals rfl

/-- **C78 refuted**: on every stack, a push for which there is no memory is undefined behaviour. -/
theorem C78_push_refuted (fails : Fails) (σ : Stack.State) (i d n : Nat) (hf : fails n = true) :
    stackStep fails (σ, n) (.push i d) = .ub := by
  simp [stackStep, stkPush, bareReq, hf, Res.bind]

/-- stk_create is fine. -/
theorem C78_create_orderly (fails : Fails) (σ : Stack.State) (n : Nat) (hf : fails n = true) :
    stackStep fails (σ, n) .create = .fatal := by
  simp [stackStep, xreq, hf, Res.bind]

/-- **C78, object pools** (partial). -/
theorem C78_objects_partial (fails : Fails) (zero junk : α × Nat) (h0 : Heap α) (size : Int) (hist : List Spec.ObjOp) :
    EndsAtFailure fails ((createObjects fails size 0).bind fun i => run (objStep fails zero junk) ((h0, i.1), i.2) hist)
      (observe (run (Objects.step zero junk) (h0, Objects.create size) hist)) := by
  have h1 : Follows fails true Eq 0 ((createObjects fails size 0).bind fun i => .ok ((h0, i.1), i.2)) (.ok (h0, Objects.create size)) :=
    (createObjects_follows size 0).pure fun m => .ok rfl
  have := start_ends (obj_follows (fails := fails) zero junk) hist h1
  revert this
  cases createObjects fails size 0 <;> exact id

/-- Three requests for the pool, two for every object ever made, one for every object given back (`reused` and the free list account for
those), provided NULL is not given back. -/
theorem C78_object_requests (fails : Fails) (zero junk : α × Nat) (h0 h : Heap α) (size : Int) (i : Objects.Pool) (n : Nat)
    (hist : List Spec.ObjOp) (hn : Spec.ObjOp.free 0 ∉ hist) (xs : List Nat)
    (hr : ((createObjects fails size 0).bind fun i => run (objStep fails zero junk) ((h0, i.1), i.2) hist) = .ok (((h, i), n), xs)) :
    (n : Int) = 3 + 2 * (Objects.stats i).1 + (Objects.stats i).2.2.1 + i.free.length := by
  simp only [createObjects, Res.bind_ok_iff, xreq_ok, Res.ok.injEq] at hr
  obtain ⟨⟨i0, n0⟩, ⟨_, ⟨-, rfl⟩, _, ⟨-, rfl⟩, _, ⟨-, rfl⟩, e⟩, hr⟩ := hr
  obtain ⟨rfl, rfl⟩ := Prod.mk.inj e
  have := Spec.run_measure_of (fun o => o ≠ Spec.ObjOp.free 0) (fun _ (s : (Heap α × Objects.Pool) × Nat) => ∃ m, s.2 = 3 + m ∧ ObjCount s.1.2 m)
    (fun _ => 0) (objStep fails zero junk) (fun _ s o s' x ho hs he => by
      obtain ⟨m, h1, h2⟩ := hs
      obtain ⟨⟨a, b⟩, c⟩ := s
      obtain ⟨s1, c1⟩ := s'
      simp only at h1 h2
      subst h1
      exact obj_count ho h2 he) hist (fun o ho h => hn (h ▸ ho)) 0 _ _ xs
    ⟨0, rfl, ⟨by simp [Objects.create], by simp [Objects.create]⟩⟩ hr
  obtain ⟨m, h1, h2⟩ := this
  have := h2.count
  simp only at h1 this
  simp only [Objects.stats]
  omega

/-- Two objects, one given back and handed out again. -/
example : observe ((createObjects (onlyFirst 8) 8 0).bind fun i => run (objStep (α := Nat) (onlyFirst 8) (0, 0) (7, 0)) ((Heap.init, i.1), i.2)
      [.get, .get, .free 1, .getEmpty]) = .ok [1, 2, 0, 1] ∧
    observe ((createObjects (onlyFirst 7) 8 0).bind fun i => run (objStep (α := Nat) (onlyFirst 7) (0, 0) (7, 0)) ((Heap.init, i.1), i.2)
      [.get, .get, .free 1, .getEmpty]) = .ub := by
  refine ⟨?_, ?_⟩
  all_goals rfl

/-- **C78 refuted**: giving an object back needs memory, and is undefined behaviour when there is none. -/
theorem C78_free_object_refuted (fails : Fails) (zero junk : α × Nat) (s : Heap α × Objects.Pool) (p n : Nat) (hf : fails n = true) :
    objStep fails zero junk (s, n) (.free p) = .ub := by
  simp [objStep, freeObject, bareReq, hf, Res.bind]

/-- Making a new object takes two requests: when the first is refused there is a message, when the second is refused undefined behaviour. -/
theorem C78_new_object (fails : Fails) (zero junk : α × Nat) (h : Heap α) (i : Objects.Pool) (n : Nat) (hi : i.free = []) :
    (fails n = true → objStep fails zero junk ((h, i), n) .get = .fatal ∧ objStep fails zero junk ((h, i), n) .getEmpty = .fatal) ∧
    (fails n = false → fails (n + 1) = true →
      objStep fails zero junk ((h, i), n) .get = .ub ∧ objStep fails zero junk ((h, i), n) .getEmpty = .ub) := by
  constructor
  · intro hf; simp [objStep, getEmptyObject, getObject, hi, xreq, hf, Res.bind]
  · intro hf hg; simp [objStep, getEmptyObject, getObject, hi, xreq, bareReq, hf, hg, Res.bind]

/-- **C78, string memories** (partial). -/
theorem C78_strings_partial (fails : Fails) (h0 : StrMem.Mem) (hist : List Spec.StrOp) :
    EndsAtFailure fails ((createStrings fails 0).bind fun i => run (strStep fails) ((h0, i.1), i.2) hist)
      (observe (run StrMem.step (h0, StrMem.create) hist)) := by
  have h1 : Follows fails true Eq 0 ((createStrings fails 0).bind fun i => .ok ((h0, i.1), i.2)) (.ok (h0, StrMem.create)) := by
    have : Follows fails true Eq 0 (createStrings fails 0) (.ok StrMem.create) := .xreq (.xreq (.ok rfl))
    exact this.pure fun m => .ok rfl
  have := start_ends (str_follows (fails := fails)) hist h1
  revert this
  cases createStrings fails 0 <;> exact id

example : observe ((createStrings (onlyFirst 6) 0).bind fun i => run (strStep (onlyFirst 6)) ((Heap.init, i.1), i.2)
      [.strcpy [97, 0], .grow [98] 1]) = .ok [1, 0] ∧
    observe ((createStrings (onlyFirst 5) 0).bind fun i => run (strStep (onlyFirst 5)) ((Heap.init, i.1), i.2)
      [.strcpy [97, 0], .grow [98] 1]) = .ub ∧
    observe ((createStrings (onlyFirst 4) 0).bind fun i => run (strStep (onlyFirst 4)) ((Heap.init, i.1), i.2)
      [.strcpy [97, 0], .grow [98] 1]) = .fatal := by
  refine ⟨?_, ?_, ?_⟩
  all_goals rfl

/-- Two requests for the memory and two for every call. -/
theorem C78_string_requests (fails : Fails) (h0 h : StrMem.Mem) (i : StrMem.SInfo) (n : Nat) (hist : List Spec.StrOp) (xs : List Nat)
    (hr : ((createStrings fails 0).bind fun i => run (strStep fails) ((h0, i.1), i.2) hist) = .ok (((h, i), n), xs)) :
    n = 2 + 2 * hist.length := by
  simp only [createStrings, Res.bind_ok_iff, xreq_ok, Res.ok.injEq] at hr
  obtain ⟨⟨i0, n0⟩, ⟨_, ⟨-, rfl⟩, _, ⟨-, rfl⟩, e⟩, hr⟩ := hr
  obtain ⟨rfl, rfl⟩ := Prod.mk.inj e
  have := Spec.run_measure (fun c (s : (StrMem.Mem × StrMem.SInfo) × Nat) => s.2 = 2 + c) (fun _ => 2)
    (strStep fails) (fun c s o s' x hs he => by have := str_count (s := s.1) (n := s.2) (s' := s'.1) (n' := s'.2) he; omega) hist 0 _ _ xs rfl hr
  simp only [List.map_const', List.sum_replicate, smul_eq_mul] at this
  omega

/-- Of the two requests of a call the first is checked, the second is not. -/
theorem C78_new_string (fails : Fails) (s : StrMem.Mem × StrMem.SInfo) (n : Nat) (o : Spec.StrOp)
    (ho : match o with
      | .strcpy b => 0 ∈ b
      | .strncpy b k => k < b.length
      | .grow b k => k ≤ b.length
      | .finish => True) :
    (fails n = true → strStep fails (s, n) o = .fatal) ∧ (fails n = false → fails (n + 1) = true → strStep fails (s, n) o = .ub) := by
  cases o with
  | strcpy b =>
    have hc : ∃ t, CStr.cstr b = .ok t := by
      simp only at ho
      induction b with
      | nil => cases ho
      | cons c cs ih =>
        rw [CStr.cstr]
        by_cases h0 : c = 0
        · exact ⟨[], if_pos h0⟩
        · obtain ⟨t, e⟩ := ih ((List.mem_cons.1 ho).resolve_left (fun e => h0 e.symm))
          exact ⟨c :: t, by rw [if_neg h0, e]; rfl⟩
    obtain ⟨t, hc⟩ := hc
    simp only [strStep, strcpy, hc, Res.bind, out]
    exact ⟨fun hf => by simp [xreq, hf], fun hf hg => by simp [xreq, bareReq, hf, hg]⟩
  | strncpy b k =>
    have h : ¬ b.length < k + 1 := by simp only at ho; omega
    simp only [strStep, strncpy, out]
    exact ⟨fun hf => by simp [xreq, hf, Res.bind], fun hf hg => by simp [xreq, bareReq, hf, hg, Res.bind, h]⟩
  | grow b k =>
    have h : ¬ b.length < k := by simp only at ho; omega
    simp only [strStep, grow]
    exact ⟨fun hf => by simp [xreq, hf, Res.bind], fun hf hg => by simp [xreq, bareReq, hf, hg, Res.bind, h]⟩
  | finish =>
    simp only [strStep, finish, grow, out]
    exact ⟨fun hf => by simp [xreq, hf, Res.bind], fun hf hg => by simp [xreq, bareReq, hf, hg, Res.bind]⟩

/-- **C78, lists** (partial), for every history with a documented meaning (see C18). -/
theorem C78_lists_partial (fails : Fails) (place : Policy) (hp : Heap.Allocator place) (hist : List Spec.LstOp)
    (ht : ∀ o ∈ hist, match o with | .truncate _ n => n ≤ 1 | _ => True) :
    ∃ want T, Spec.Lists.Runs Spec.Lists.empty hist want T ∧ EndsAtFailure fails (run (lstStep fails) (Lst.State.init place, 0) hist) want := by
  obtain ⟨T, h⟩ := Lst.C18_lists_are_sequences place hp hist ht
  exact ⟨_, T, h, start_ends lst_follows hist (mk := .ok (Lst.State.init place, 0)) (y := .ok (Lst.State.init place)) (.ok rfl)⟩

/-- Memory for a list of one element, but not for taking it off. -/
example : observe (run (lstStep (onlyFirst 6)) (Lst.State.init, 0) [.create, .append 1 10, .top 1, .pop 1]) = .ub ∧
    observe (run (lstStep (onlyFirst 7)) (Lst.State.init, 0) [.create, .append 1 10, .top 1, .pop 1]) = .ok [1, 0, 10, 10] := by
  refine ⟨?_, ?_⟩
  all_goals rfl

/-- One request for every list; three for the pool of nodes; two for every node ever made and one for every node given back. -/
theorem C78_list_requests (fails : Fails) (place : Policy) (hist : List Spec.LstOp) (hs : Spec.LstOp.shutdown ∉ hist) (σ : Lst.State)
    (p : Objects.Pool) (n : Nat) (xs : List Nat) (hr : run (lstStep fails) (Lst.State.init place, 0) hist = .ok ((σ, n), xs)) (hp : σ.mem = some p) :
    (n : Int) = (σ.next - 1) + 3 + 2 * p.total + p.reused + p.free.length := by
  have := Spec.run_measure_of (fun o => o ≠ Spec.LstOp.shutdown) (fun _ (s : Lst.State × Nat) => LstCount s.1 s.2) (fun _ => 0) (lstStep fails)
    (fun _ s o s' x ho hs he => lst_count (σ := s.1) (n := s.2) (σ' := s'.1) (n' := s'.2) ho hs he) hist (fun o ho h => hs (h ▸ ho)) 0 _ _ xs
    (by simp [LstCount, Lst.State.init]) hr
  unfold LstCount at this
  simp only [hp] at this
  obtain ⟨m, h1, h2⟩ := this
  have := h2.count
  omega

/-- **C78 refuted**: taking the first element off any list that has one needs memory, and is undefined behaviour when there is none. -/
theorem C78_pop_refuted (fails : Fails) (σ : Lst.State) (S : Spec.Lists) (r : Lst.Reachable σ S) (i n : Nat) (e : Nat × Nat) (l : List (Nat × Nat))
    (hl : S.lists i = some (e :: l)) (hf : fails n = true) : lstStep fails (σ, n) (.pop i) = .ub ∧ lstStep fails (σ, n) (.destroy i) = .ub := by
  have R := r.rep
  have hi : i ≠ 0 := by rintro rfl; rw [R.null] at hl; cases hl
  obtain ⟨o, ho, hc, -, -⟩ := R.list i _ hl
  obtain ⟨a, d⟩ := e
  obtain ⟨h1, h2, c, h3, -⟩ : o.head = a ∧ a ≠ 0 ∧ ∃ c, σ.heap.mem a = some (d, c) ∧ True := by
    obtain ⟨hd, h0, c, hc, -⟩ := hc
    exact ⟨hd, h0, c, hc, trivial⟩
  have hm : ∃ p, σ.mem = some p := by
    rcases R.pool with ⟨-, -, h⟩ | ⟨p, -, h, -⟩
    · exact absurd ⟨i, _, hl, by simp⟩ (h a)
    · exact ⟨p, h⟩
  obtain ⟨p, hm⟩ := hm
  constructor
  · simp [lstStep, lstPop, Lst.check_some hi ho, Res.bind, h1, h2, Heap.read, h3, memFree, Lst.State.set, hm, freeObject, bareReq, hf, out]
  · have hk := R.ok.pos
    obtain ⟨k, hk⟩ : ∃ k, σ.heap.clock = k + 1 := ⟨σ.heap.clock - 1, by omega⟩
    simp [lstStep, lstDestroy, Lst.check_some hi ho, Res.bind, h1, hk, freeRest, h2, Heap.read, h3, memFree, hm, freeObject, bareReq, hf]

/-- The hypotheses are met: a list of three elements. -/
example : ∃ σ S a l, Lst.Reachable σ S ∧ S.lists 1 = some (a :: l) := by
  obtain ⟨σ, S, a, b, c, h1, h2⟩ := Lst.reachable_three
  exact ⟨σ, S, _, _, h1, h2⟩

/-- **C78, string pools** (partial); `StrPool.step` does what C26 to C28 say. -/
theorem C78_pools_partial (fails : Fails) (h0 : StrMem.Mem) (hh0 : Heap (Entry StrPool.SKey Ptr)) (hist : List Spec.PoolOp) :
    EndsAtFailure fails ((poolCreate fails h0 hh0 0).bind fun p => run (poolStep fails) p hist)
      ((StrPool.create h0 hh0).bind fun p => observe (run StrPool.step p hist)) :=
  start_ends pool_follows hist (poolCreate_follows h0 hh0 0)

example : observe ((poolCreate (onlyFirst 8) Heap.init Heap.init 0).bind fun p => run (poolStep (onlyFirst 8)) p [.find [97, 0], .find [97, 0]]) =
      .ok [.ptr 1, .ptr 1] ∧
    observe ((poolCreate (onlyFirst 7) Heap.init Heap.init 0).bind fun p => run (poolStep (onlyFirst 7)) p [.find [97, 0], .find [97, 0]]) = .fatal ∧
    observe ((poolCreate (onlyFirst 6) Heap.init Heap.init 0).bind fun p => run (poolStep (onlyFirst 6)) p [.find [97, 0], .find [97, 0]]) = .ub := by
  refine ⟨?_, ?_, ?_⟩
  all_goals rfl

/-- Five requests for the pool, two for every string, one for every cell and two for every resizing of its table. -/
theorem C78_pool_requests (fails : Fails) (h0 : StrMem.Mem) (hh0 : Heap (Entry StrPool.SKey Ptr)) (hist : List Spec.PoolOp)
    (p : StrPool.Pool) (n : Nat) (xs : List Spec.Ret)
    (hr : ((poolCreate fails h0 hh0 0).bind fun p => run (poolStep fails) p hist) = .ok ((p, n), xs)) :
    n + 2 * h0.clock + hh0.clock = 5 + 2 * p.mem.clock + p.cells.clock + 2 * p.tab.resizings := by
  simp only [Res.bind_ok_iff] at hr
  obtain ⟨⟨p0, n0⟩, e0, hr⟩ := hr
  simp only [poolCreate, createStrings, Res.bind_ok_iff, xreq_ok, Res.ok.injEq, Prod.mk.injEq] at e0
  obtain ⟨_, ⟨-, rfl⟩, ⟨i, m⟩, ⟨_, ⟨-, rfl⟩, _, ⟨-, rfl⟩, e1⟩, ⟨t, k⟩, e2, rfl, rfl⟩ := e0
  obtain ⟨rfl, rfl⟩ := Prod.mk.inj e1
  obtain ⟨h1, h2⟩ := create_count e2
  simp only at h1
  have := Spec.run_measure (fun _ (s : StrPool.Pool × Nat) => PoolCount (2 * h0.clock + hh0.clock) 5 s.1 s.2) (fun _ => 0) (poolStep fails)
    (fun _ s o s' x hs he => pool_count (p := s.1) (n := s.2) (p' := s'.1) (n' := s'.2) hs he) hist 0 _ _ xs
    (by unfold PoolCount; simp only; omega) hr
  unfold PoolCount at this
  simp only at this
  omega

/-- **C78, skip lists** (partial). -/
theorem C78_skiplists_partial (fails : Fails) (place : Policy) (hp : Maa.Heap.Allocator place) (hist : List Spec.SlOp) (ok : ∀ o ∈ hist, o.Ok) :
    EndsAtFailure fails (run (slStep fails) (⟨Sl.State.init place, none⟩, 0) hist) (observe (run Spec.Colls.step Spec.Colls.empty hist)) := by
  rw [← Sl.C38_ordered_map place hp hist ok]
  exact start_ends sl_follows hist (mk := .ok (⟨Sl.State.init place, none⟩, 0)) (y := .ok (Sl.State.init place)) (.ok ⟨rfl, fun _ _ => rfl⟩)

/-- The second list uses the structure of the first again: one request, where a new structure takes three. -/
example : observe (run (slStep (onlyFirst 8)) (⟨Sl.State.init, none⟩, 0) [Sl.byNumber, .insert 1 50 fun _ => 0, .destroy 1, Sl.byNumber, .find 2 50]) =
      .fatal ∧
    observe (run (slStep (onlyFirst 9)) (⟨Sl.State.init, none⟩, 0) [Sl.byNumber, .insert 1 50 fun _ => 0, .destroy 1, Sl.byNumber, .find 2 50]) =
      .ok [1, 0, 0, 2, 0] ∧
    observe (run (slStep (onlyFirst 7)) (⟨Sl.State.init, none⟩, 0) [Sl.byNumber, .insert 1 50 fun _ => 0, .destroy 1]) = .ub := by
  refine ⟨?_, ?_, ?_⟩
  all_goals rfl

/-- Three requests for the pool of structures; for every list one for its first entry and two for a structure unless one that had been
given back is used; one for every datum and for every list destroyed. -/
theorem C78_skiplist_requests (fails : Fails) (place : Policy) (hist : List Spec.SlOp) (s : Sls) (n : Nat) (xs : List Nat)
    (hr : run (slStep fails) (⟨Sl.State.init place, none⟩, 0) hist = .ok ((s, n), xs)) :
    (n : Int) = (hist.map slCost).sum + (match s.pool with | none => 0 | some k => 3 + 2 * (k : Int)) := by
  have := run_potential slPotential slCost (slStep fails) (fun s o s' x he => sl_count (s := s.1) (n := s.2) (s' := s'.1) (n' := s'.2) he) hist _ _ _ hr
  simp only [slPotential] at this
  cases hp : s.pool with
  | none => rw [hp] at this; simp only at this ⊢; omega
  | some k => rw [hp] at this; simp only at this ⊢; omega

/-- **C78 refuted**: destroying any skip list that can be destroyed needs memory, and is undefined behaviour when there is none. -/
theorem C78_sl_destroy_refuted (fails : Fails) (s : Sls) (n n' l : Nat)
    (hd : ∃ r, slStep (fun _ => false) (s, n') (.destroy l) = .ok r) (hf : fails n = true) : slStep fails (s, n) (.destroy l) = .ub := by
  obtain ⟨r, hd⟩ := hd
  simp only [slStep, slDestroy, Res.bind_ok_iff] at hd
  obtain ⟨a, ⟨σ, e, h⟩, -⟩ := hd
  cases hp : s.pool with
  | none => rw [hp] at h; cases h
  | some k => simp [slStep, slDestroy, e, hp, Res.bind, bareReq, hf]

/-- sl_insert of a datum that can be inserted, and sl_create when a structure can be reused, end with a message when their request is
refused. -/
theorem C78_sl_insert_orderly (fails : Fails) (s : Sls) (n n' : Nat) (hf : fails n = true) :
    (∀ l d rnd, (∃ r, slStep (fun _ => false) (s, n') (.insert l d rnd) = .ok r) → slStep fails (s, n) (.insert l d rnd) = .fatal) ∧
    (∀ cmp key k, s.pool = some (k + 1) → slStep fails (s, n) (.create (some cmp) (some key)) = .fatal) := by
  constructor
  · rintro l d rnd ⟨r, h⟩
    simp only [slStep, slInsert, Res.bind_ok_iff] at h
    obtain ⟨a, ⟨σ, e, -⟩, -⟩ := h
    simp [slStep, slInsert, e, Res.bind, xreq, hf]
  · intro cmp key k hk
    simp [slStep, slCreate, hk, Res.bind, slHeader, xreq, hf, out]

end Maa.Oom
