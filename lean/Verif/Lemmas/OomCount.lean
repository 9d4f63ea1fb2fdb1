import Verif.Lemmas.Oom
import Verif.Props.Counters

/-! # How many requests a program makes -/

namespace Maa.Oom

open Spec (run)
open Tab (Entry)
open HashHeap (HTab)
open SetHeap (HStore HSet)
open _root_.Maa.Set (FnEnv)

variable {fails : Fails} {K D α : Type}

theorem xreq_ok {n n' : Nat} : xreq fails n = .ok n' ↔ fails n = false ∧ n' = n + 1 := by
  unfold xreq
  cases fails n <;> simp [eq_comm]

theorem bareReq_ok {n n' : Nat} : bareReq fails n = .ok n' ↔ fails n = false ∧ n' = n + 1 := by
  unfold bareReq
  cases fails n <;> simp [eq_comm]

theorem quiet_ok {x : Res α} {n : Nat} {a : α} {n' : Nat} : quiet x n = .ok (a, n') ↔ x = .ok a ∧ n' = n := by
  cases x <;> simp [quiet, Res.bind, eq_comm]

theorem out_ok {S X : Type} {x : Res ((S × X) × Nat)} {s : S} {n : Nat} {v : X} : out x = .ok ((s, n), v) ↔ x = .ok ((s, v), n) := by
  rcases x with ⟨⟨⟨a, b⟩, c⟩⟩ | _ | _ | _ <;> simp [out, Res.bind]
  constructor <;> rintro ⟨⟨rfl, rfl⟩, rfl⟩ <;> simp

/-! ## Stacks, objects, strings -/

/-- requests of a call on stacks -/
def stackCost : Spec.StackOp → Nat
  | .create => 1
  | .push _ _ => 1
  | _ => 0

theorem stack_count {σ σ' : Stack.State} {n n' : Nat} {o : Spec.StackOp} {x : Int}
    (h : stackStep fails (σ, n) o = .ok ((σ', n'), x)) : n' = n + stackCost o := by
  cases o with
  | create =>
    simp only [stackStep, Res.bind_ok_iff, xreq_ok, out_ok, quiet_ok] at h
    obtain ⟨a, ⟨-, rfl⟩, -, rfl⟩ := h
    rfl
  | push i d =>
    simp only [stackStep, stkPush, Res.bind_ok_iff, bareReq_ok, Res.ok.injEq, Prod.mk.injEq] at h
    obtain ⟨⟨a, m⟩, ⟨k, ⟨-, rfl⟩, hq⟩, ⟨rfl, rfl⟩, -⟩ := h
    exact (quiet_ok.1 hq).2
  | _ =>
    simp only [stackStep, out_ok, quiet_ok] at h
    rw [h.2]; rfl

/-- requests of a call on strings -/
theorem strcpy_count {h : StrMem.Mem} {i : StrMem.SInfo} {b : List Byte} {n n' : Nat} {r : (StrMem.Mem × StrMem.SInfo) × Nat}
    (e : strcpy fails h i b n = .ok (r, n')) : n' = n + 2 ∧ r.1.1.clock = h.clock + 1 := by
  simp only [strcpy, Res.bind_ok_iff, xreq_ok, bareReq_ok, quiet_ok, StrMem.strcpy, Res.ok.injEq] at e
  obtain ⟨s, -, _, ⟨-, rfl⟩, _, ⟨-, rfl⟩, ⟨s', -, rfl⟩, rfl⟩ := e
  exact ⟨rfl, rfl⟩

theorem strncpy_count {h : StrMem.Mem} {i : StrMem.SInfo} {b : List Byte} {k n n' : Nat} {r : (StrMem.Mem × StrMem.SInfo) × Nat}
    (e : strncpy fails h i b k n = .ok (r, n')) : n' = n + 2 ∧ r.1.1.clock = h.clock + 1 := by
  simp only [strncpy, Res.bind_ok_iff, xreq_ok] at e
  obtain ⟨_, ⟨-, rfl⟩, e⟩ := e
  split at e
  · cases e
  · rename_i hl
    simp only [Res.bind_ok_iff, bareReq_ok, quiet_ok, StrMem.strncpy, if_neg hl, Res.ok.injEq] at e
    obtain ⟨_, ⟨-, rfl⟩, rfl, rfl⟩ := e
    exact ⟨rfl, rfl⟩

theorem free_clock {h h' : Heap α} {p : Nat} (e : h.free p = .ok h') : h'.clock = h.clock := by
  unfold Heap.free at e
  split at e
  · cases e; rfl
  · cases e

theorem write_clock {h h' : Heap α} {p : Nat} {c : α × Nat} (e : h.write p c = .ok h') : h'.clock = h.clock := by
  unfold Heap.write at e
  split at e
  · cases e; rfl
  · cases e

theorem grow_count {h : StrMem.Mem} {i : StrMem.SInfo} {b : List Byte} {k n n' : Nat} {r : StrMem.Mem × StrMem.SInfo}
    (e : grow fails h i b k n = .ok (r, n')) : n' = n + 2 ∧ r.1.clock = h.clock + 1 := by
  simp only [grow, Res.bind_ok_iff, xreq_ok] at e
  obtain ⟨_, ⟨-, rfl⟩, e⟩ := e
  split at e
  · cases e
  · rename_i hl
    simp only [Res.bind_ok_iff, bareReq_ok, quiet_ok, StrMem.grow, if_neg hl] at e
    obtain ⟨_, ⟨-, rfl⟩, e, rfl⟩ := e
    refine ⟨rfl, ?_⟩
    split at e
    · split at e
      · simp only [Res.bind_ok_iff] at e
        obtain ⟨_, -, e⟩ := e
        cases e; rfl
      · simp only [Res.bind_ok_iff] at e
        obtain ⟨c, -, h1, hf, _, -, e⟩ := e
        cases e
        show h1.clock + 1 = _
        rw [free_clock hf]
    · simp only [Res.bind_ok_iff] at e
      obtain ⟨_, -, e⟩ := e
      cases e; rfl

theorem finish_count {h : StrMem.Mem} {i : StrMem.SInfo} {n n' : Nat} {r : (StrMem.Mem × StrMem.SInfo) × Nat}
    (e : finish fails h i n = .ok (r, n')) : n' = n + 2 ∧ r.1.1.clock = h.clock + 1 := by
  simp only [finish, Res.bind_ok_iff, Res.ok.injEq, Prod.mk.injEq] at e
  obtain ⟨⟨a, m⟩, e, rfl, rfl⟩ := e
  obtain ⟨h1, h2⟩ := grow_count e
  exact ⟨h1, h2⟩

theorem str_count {s s' : StrMem.Mem × StrMem.SInfo} {n n' : Nat} {o : Spec.StrOp} {x : Nat}
    (h : strStep fails (s, n) o = .ok ((s', n'), x)) : n' = n + 2 := by
  cases o with
  | strcpy b => exact (strcpy_count (out_ok.1 h)).1
  | strncpy b k => exact (strncpy_count (out_ok.1 h)).1
  | grow b k =>
    simp only [strStep, Res.bind_ok_iff, Res.ok.injEq, Prod.mk.injEq] at h
    obtain ⟨a, e, rfl, -⟩ := h
    exact (grow_count e).1
  | finish => exact (finish_count (out_ok.1 h)).1

/-- What a pool of objects has asked for since it was created; no NULL has been given back. -/
structure ObjCount (i : Objects.Pool) (n : Nat) : Prop where
  count : (n : Int) = 2 * i.total + i.reused + i.free.length
  null : 0 ∉ i.free

theorem getObject_count {junk : α × Nat} {h : Heap α} {i : Objects.Pool} {n n' c : Nat} {r : Heap α × Objects.Pool × Nat}
    (I : ObjCount i n) (e : getObject fails junk h i (c + n) = .ok (r, n')) : ∃ m, n' = c + m ∧ ObjCount r.2.1 m := by
  obtain ⟨hc, hn⟩ := I
  unfold getObject at e
  cases hf : i.free with
  | nil =>
    rw [hf] at hc hn e
    simp only [List.headD_nil, if_true, Res.bind_ok_iff, xreq_ok, bareReq_ok, Res.ok.injEq, Prod.mk.injEq] at e
    obtain ⟨_, ⟨-, rfl⟩, _, ⟨-, rfl⟩, rfl, rfl⟩ := e
    refine ⟨n + 2, by omega, ?_⟩
    simp only [Objects.getObject, hf, List.headD_nil, if_true, List.tail_nil]
    exact ⟨by simp at hc ⊢; omega, by simp⟩
  | cons p ps =>
    rw [hf] at hc hn e
    have hp : p ≠ 0 := fun h => hn (by simp [h])
    rw [if_neg (by simpa using hp)] at e
    obtain ⟨rfl, rfl⟩ : _ ∧ _ := by simpa using e
    refine ⟨n, rfl, ?_⟩
    simp only [Objects.getObject, hf, List.headD_cons, if_neg hp, List.tail_cons]
    exact ⟨by simp at hc ⊢; omega, fun h => hn (by simp [h])⟩

theorem freeObject_count {i i' : Objects.Pool} {p n n' c : Nat} (I : ObjCount i n) (hp : p ≠ 0)
    (e : freeObject fails i p (c + n) = .ok (i', n')) : ∃ m, n' = c + m ∧ ObjCount i' m := by
  simp only [freeObject, Res.bind_ok_iff, bareReq_ok, Res.ok.injEq, Prod.mk.injEq] at e
  obtain ⟨_, ⟨-, rfl⟩, rfl, rfl⟩ := e
  refine ⟨n + 1, by omega, ?_⟩
  have := I.count
  exact ⟨by simp [Objects.freeObject]; omega, by simp [Objects.freeObject, Ne.symm hp, I.null]⟩

theorem obj_count {zero junk : α × Nat} {s s' : Heap α × Objects.Pool} {n n' c : Nat} {o : Spec.ObjOp} {x : Nat}
    (ho : o ≠ .free 0) (I : ObjCount s.2 n)
    (h : objStep fails zero junk (s, c + n) o = .ok ((s', n'), x)) : ∃ m, n' = c + m ∧ ObjCount s'.2 m := by
  cases o with
  | get =>
    simp only [objStep, Res.bind_ok_iff, Res.ok.injEq, Prod.mk.injEq] at h
    obtain ⟨⟨a, m⟩, e, ⟨rfl, rfl⟩, -⟩ := h
    exact getObject_count I e
  | getEmpty =>
    simp only [objStep, getEmptyObject, Res.bind_ok_iff, Res.ok.injEq, Prod.mk.injEq] at h
    obtain ⟨⟨a, m⟩, ⟨⟨b, k⟩, e, q⟩, ⟨rfl, rfl⟩, -⟩ := h
    obtain ⟨q, rfl⟩ := quiet_ok.1 q
    simp only [Res.bind_ok_iff, Res.ok.injEq] at q
    obtain ⟨_, -, rfl⟩ := q
    exact getObject_count I e
  | free p =>
    simp only [objStep, Res.bind_ok_iff, Res.ok.injEq, Prod.mk.injEq] at h
    obtain ⟨⟨a, m⟩, e, ⟨rfl, rfl⟩, -⟩ := h
    exact freeObject_count I (fun h => ho (by rw [h])) e

/-! ## Lists -/

/-- What the lists of a program have asked for: one structure each, three for the pool, and what the pool asked for. -/
def LstCount (σ : Lst.State) (n : Nat) : Prop :=
  match σ.mem with
  | none => n + 1 = σ.next
  | some p => ∃ m, n + 1 = σ.next + 3 + m ∧ ObjCount p m

theorem LstCount.of {σ τ : Lst.State} {n : Nat} (h : LstCount σ n) (hm : τ.mem = σ.mem) (hn : τ.next = σ.next) : LstCount τ n := by
  unfold LstCount at *
  rw [hm, hn]; exact h

theorem lstCreate_count {σ : Lst.State} {n n' : Nat} {r : Lst.State × Nat} (I : LstCount σ n)
    (e : lstCreate fails σ n = .ok (r, n')) : LstCount r.1 n' := by
  simp only [lstCreate, Res.bind_ok_iff, xreq_ok] at e
  obtain ⟨_, ⟨-, rfl⟩, e⟩ := e
  unfold LstCount at *
  cases hm : σ.mem with
  | none =>
    rw [hm] at I
    simp only [hm, createObjects, Res.bind_ok_iff, xreq_ok, Res.ok.injEq, Prod.mk.injEq] at e
    obtain ⟨⟨a, k⟩, ⟨_, ⟨-, rfl⟩, _, ⟨-, rfl⟩, _, ⟨-, rfl⟩, h⟩, rfl, rfl⟩ := e
    obtain ⟨-, h⟩ := h
    simp only [Lst.lstCreate, hm]
    exact ⟨0, by omega, ⟨by simp [Objects.create], by simp [Objects.create]⟩⟩
  | some p =>
    rw [hm] at I
    obtain ⟨m, h1, h2⟩ := I
    simp only [hm, Res.ok.injEq, Prod.mk.injEq] at e
    obtain ⟨rfl, rfl⟩ := e
    simp only [Lst.lstCreate, hm]
    exact ⟨m, by omega, h2⟩

theorem memGet_count {σ : Lst.State} {n n' : Nat} {r : Lst.State × Nat} (I : LstCount σ n) (e : memGet fails σ n = .ok (r, n')) :
    LstCount r.1 n' := by
  unfold memGet at e
  unfold LstCount at *
  cases hm : σ.mem with
  | none => rw [hm] at e; cases e
  | some p =>
    rw [hm] at e I
    obtain ⟨m, h1, h2⟩ := I
    simp only [Res.bind_ok_iff, Res.ok.injEq, Prod.mk.injEq] at e
    obtain ⟨⟨a, k⟩, e, rfl, rfl⟩ := e
    rw [show n = (n - m) + m by omega] at e
    have hpos : 1 ≤ σ.next + 3 := by omega
    obtain ⟨m', h3, h4⟩ := getObject_count h2 e
    exact ⟨m', by simp only at h3 ⊢; omega, h4⟩

theorem memFree_count {σ σ' : Lst.State} {d n n' : Nat} (hd : d ≠ 0) (I : LstCount σ n) (e : memFree fails σ d n = .ok (σ', n')) :
    LstCount σ' n' := by
  unfold memFree at e
  unfold LstCount at *
  cases hm : σ.mem with
  | none => rw [hm] at e; cases e
  | some p =>
    rw [hm] at e I
    obtain ⟨m, h1, h2⟩ := I
    simp only [Res.bind_ok_iff, Res.ok.injEq, Prod.mk.injEq] at e
    obtain ⟨⟨a, k⟩, e, rfl, rfl⟩ := e
    rw [show n = (n - m) + m by omega] at e
    obtain ⟨m', h3, h4⟩ := freeObject_count h2 hd e
    exact ⟨m', by simp only at h3 ⊢; omega, h4⟩

theorem freeRest_count (k : Nat) : ∀ {σ : Lst.State} {d n n' : Nat} {r : Lst.State × Nat}, LstCount σ n →
    freeRest fails k σ d n = .ok (r, n') → LstCount r.1 n' := by
  induction k with
  | zero => intro σ d n n' r _ e; cases e
  | succ k ih =>
    intro σ d n n' r I e
    rw [freeRest] at e
    split at e
    · cases e; exact I
    · rename_i hd
      simp only [Res.bind_ok_iff, Res.ok.injEq, Prod.mk.injEq] at e
      obtain ⟨c, -, ⟨σ1, n1⟩, e1, ⟨r2, n2⟩, e2, rfl, rfl⟩ := e
      have := ih (memFree_count hd I e1) e2
      exact this

theorem append_same {g : Lst.State × Nat} {i d : Nat} {σ : Lst.State} (e : appendRest g i d = .ok σ) :
    σ.mem = g.1.mem ∧ σ.next = g.1.next := by
  simp only [appendRest, Res.bind_ok_iff] at e
  obtain ⟨l, -, h, -, e⟩ := e
  split at e
  · simp only [Res.bind_ok_iff] at e
    obtain ⟨t, -, e⟩ := e
    split at e
    · cases e
    · simp only [Res.bind_ok_iff] at e
      obtain ⟨h', -, e⟩ := e
      cases e; exact ⟨rfl, rfl⟩
  · cases e; exact ⟨rfl, rfl⟩

theorem lst_quiet {σ σ' : Lst.State} {o : Spec.LstOp} {x : Nat}
    (ho : match o with
      | .create | .destroy _ | .append _ _ | .push _ _ | .pop _ | .truncate _ _ | .truncatePosition _ _ | .shutdown => False
      | _ => True) (e : Lst.step σ o = .ok (σ', x)) : σ'.mem = σ.mem ∧ σ'.next = σ.next := by
  cases o with
  | create | destroy | append | push | pop | truncate | truncatePosition | shutdown => exact ho.elim
  | nthSet i n d =>
    simp only [Lst.step, Lst.lstNthSet, Res.bind_ok_iff, Res.ok.injEq, Prod.mk.injEq] at e
    obtain ⟨s, ⟨l, -, e⟩, rfl, -⟩ := e
    split at e
    · cases e
    · simp only [Res.bind_ok_iff] at e
      obtain ⟨r, -, e⟩ := e
      split at e
      · cases e
      · simp only [Res.bind_ok_iff] at e
        obtain ⟨c, -, h, -, e⟩ := e
        cases e; exact ⟨rfl, rfl⟩
  | setPosition p d =>
    simp only [Lst.step, Lst.lstSetPosition, Res.bind_ok_iff, Res.ok.injEq, Prod.mk.injEq] at e
    obtain ⟨s, e, rfl, -⟩ := e
    split at e
    · cases e; exact ⟨rfl, rfl⟩
    · simp only [Res.bind_ok_iff] at e
      obtain ⟨c, -, h, -, e⟩ := e
      cases e; exact ⟨rfl, rfl⟩
  | totalAllocated => cases e; exact ⟨rfl, rfl⟩
  | _ =>
    simp only [Lst.step, Res.bind_ok_iff, Res.ok.injEq, Prod.mk.injEq] at e
    obtain ⟨_, -, rfl, -⟩ := e
    exact ⟨rfl, rfl⟩

theorem lst_count {σ σ' : Lst.State} {n n' : Nat} {o : Spec.LstOp} {x : Nat} (ho : o ≠ .shutdown) (I : LstCount σ n)
    (h : lstStep fails (σ, n) o = .ok ((σ', n'), x)) : LstCount σ' n' := by
  cases o with
  | create => exact lstCreate_count I (out_ok.1 h)
  | destroy i =>
    simp only [lstStep, lstDestroy, Res.bind_ok_iff, Res.ok.injEq, Prod.mk.injEq] at h
    obtain ⟨⟨a, k⟩, ⟨l, -, ⟨r, m⟩, e, rfl, rfl⟩, ⟨rfl, rfl⟩, -⟩ := h
    exact (freeRest_count _ I e).of rfl rfl
  | append i d =>
    simp only [lstStep, lstAppend, Res.bind_ok_iff, Res.ok.injEq, Prod.mk.injEq] at h
    obtain ⟨⟨a, k⟩, h, ⟨rfl, rfl⟩, -⟩ := h
    split at h
    · cases h; exact I
    · simp only [Res.bind_ok_iff] at h
      obtain ⟨⟨g, m⟩, e, q⟩ := h
      obtain ⟨q, rfl⟩ := quiet_ok.1 q
      exact (memGet_count I e).of (append_same q).1 (append_same q).2
  | push i d =>
    simp only [lstStep, lstPush, Res.bind_ok_iff, Res.ok.injEq, Prod.mk.injEq] at h
    obtain ⟨⟨a, k⟩, ⟨⟨g, m⟩, e, q⟩, ⟨rfl, rfl⟩, -⟩ := h
    obtain ⟨q, rfl⟩ := quiet_ok.1 q
    simp only [Res.bind_ok_iff] at q
    obtain ⟨l, -, h, -, q⟩ := q
    cases q
    exact (memGet_count I e).of rfl rfl
  | pop i =>
    have h := out_ok.1 h
    simp only [lstPop, Res.bind_ok_iff] at h
    obtain ⟨l, -, h⟩ := h
    split at h
    · rename_i hd
      simp only [Res.bind_ok_iff, Res.ok.injEq, Prod.mk.injEq] at h
      obtain ⟨c, -, ⟨a, m⟩, e, ⟨rfl, -⟩, rfl⟩ := h
      refine memFree_count hd ?_ e
      exact I.of rfl rfl
    · cases h; exact I
  | truncate i k =>
    simp only [lstStep, lstTruncate, Res.bind_ok_iff, Res.ok.injEq, Prod.mk.injEq] at h
    obtain ⟨⟨a, m⟩, ⟨l, -, h⟩, ⟨rfl, rfl⟩, -⟩ := h
    split at h
    · cases h; exact I
    · split at h
      · simp only [Res.bind_ok_iff] at h
        obtain ⟨⟨r, j⟩, e, h⟩ := h
        split at h
        · cases h
        · cases h
          exact (freeRest_count _ (LstCount.of (τ := σ.set i (some { l with head := 0, tail := 0 })) I rfl rfl) e).of rfl rfl
      · simp only [Res.bind_ok_iff] at h
        obtain ⟨d, -, c, -, hp, -, ⟨r, j⟩, e, h⟩ := h
        split at h
        · cases h
        · cases h
          exact (freeRest_count _ (LstCount.of (τ := { σ with heap := hp }.set i (some { l with tail := d })) I rfl rfl) e).of rfl rfl
  | truncatePosition i p =>
    simp only [lstStep, lstTruncatePosition, Res.bind_ok_iff, Res.ok.injEq, Prod.mk.injEq] at h
    obtain ⟨⟨a, m⟩, ⟨l, -, h⟩, ⟨rfl, rfl⟩, -⟩ := h
    split at h
    · simp only [Res.bind_ok_iff, Res.ok.injEq, Prod.mk.injEq] at h
      obtain ⟨⟨r, j⟩, e, rfl, rfl⟩ := h
      exact (freeRest_count _ (LstCount.of (τ := σ.set i (some { l with head := 0, tail := 0 })) I rfl rfl) e).of rfl rfl
    · simp only [Res.bind_ok_iff, Res.ok.injEq, Prod.mk.injEq] at h
      obtain ⟨c, -, hp, -, ⟨r, j⟩, e, rfl, rfl⟩ := h
      exact (freeRest_count _ (LstCount.of (τ := { σ with heap := hp }.set i (some { l with tail := p })) I rfl rfl) e).of rfl rfl
  | shutdown => exact absurd rfl ho
  | _ =>
    simp only [lstStep, out_ok, quiet_ok] at h
    obtain ⟨e, rfl⟩ := h
    have := lst_quiet (by trivial) e
    exact I.of this.1 this.2

/-! ## Tables -/

/-- The cells of the chains and, for the array and the structure, two for every table ever made. -/
theorem push_count {h : Heap (Entry K D)} {t : HTab} {e : Entry K D} {n n' : Nat} {r : Heap (Entry K D) × HTab}
    (hp : push fails h t e n = .ok (r, n')) : n' + h.clock = n + r.1.clock ∧ r.2.resizings = t.resizings := by
  simp only [push, Res.bind_ok_iff, xreq_ok, Res.ok.injEq, Prod.mk.injEq] at hp
  obtain ⟨_, ⟨-, rfl⟩, rfl, rfl⟩ := hp
  exact ⟨by simp only [HashHeap.hpush, Heap.alloc]; omega, rfl⟩

theorem copyChain_count (k : Nat) : ∀ {h : Heap (Entry K D)} {t : HTab} {pt n n' : Nat} {r : Heap (Entry K D) × HTab},
    copyChain fails k h t pt n = .ok (r, n') → n' + h.clock = n + r.1.clock := by
  induction k with
  | zero => intro h t pt n n' r e; cases e
  | succ k ih =>
    intro h t pt n n' r e
    rw [copyChain] at e
    split at e
    · cases e; rfl
    · simp only [Res.bind_ok_iff] at e
      obtain ⟨c, -, ⟨q, m⟩, e1, c', -, e2⟩ := e
      have h1 := (push_count e1).1
      have h2 := ih e2
      simp only at h1 h2
      omega

theorem copyAll_count (k : Nat) (b : Nat → Nat) (is : List Nat) : ∀ {h : Heap (Entry K D)} {t : HTab} {n n' : Nat}
    {r : Heap (Entry K D) × HTab}, copyAll fails k b is h t n = .ok (r, n') → n' + h.clock = n + r.1.clock := by
  induction is with
  | nil => intro h t n n' r e; cases e; rfl
  | cons i is ih =>
    intro h t n n' r e
    simp only [copyAll, Res.bind_ok_iff] at e
    obtain ⟨⟨q, m⟩, e1, e2⟩ := e
    have h1 := copyChain_count k e1
    have h2 := ih e2
    simp only at h1 h2
    omega

theorem freeChain_clock (k : Nat) : ∀ {h h' : Heap (Entry K D)} {pt : Nat}, HashHeap.freeChain k h pt = .ok h' → h'.clock = h.clock := by
  induction k with
  | zero => intro h h' pt e; cases e
  | succ k ih =>
    intro h h' pt e
    rw [HashHeap.freeChain] at e
    split at e
    · cases e; rfl
    · simp only [Res.bind_ok_iff] at e
      obtain ⟨c, -, h1, e1, e2⟩ := e
      rw [ih e2, free_clock e1]

theorem freeAll_clock (k : Nat) (b : Nat → Nat) (is : List Nat) : ∀ {h h' : Heap (Entry K D)},
    HashHeap.freeAll k b is h = .ok h' → h'.clock = h.clock := by
  induction is with
  | nil => intro h h' e; cases e; rfl
  | cons i is ih =>
    intro h h' e
    simp only [HashHeap.freeAll, Res.bind_ok_iff] at e
    obtain ⟨h1, e1, e2⟩ := e
    rw [ih e2, freeChain_clock k e1]

theorem create_count {seed n n' : Nat} {t : HTab} (e : create fails seed n = .ok (t, n')) : n' = n + 2 ∧ t.resizings = 0 := by
  simp only [create, Res.bind_ok_iff, xreq_ok, quiet_ok] at e
  obtain ⟨_, ⟨-, rfl⟩, _, ⟨-, rfl⟩, e, rfl⟩ := e
  refine ⟨rfl, ?_⟩
  unfold HashHeap.hcreate at e
  split at e
  · cases e
  · cases e; rfl

theorem growTab_count {h : Heap (Entry K D)} {t : HTab} {n n' : Nat} {r : Heap (Entry K D) × HTab}
    (e : growTab fails h t n = .ok (r, n')) : n' + h.clock + 2 * t.resizings = n + r.1.clock + 2 * r.2.resizings := by
  unfold growTab at e
  split at e
  · simp only [Res.bind_ok_iff, Res.ok.injEq, Prod.mk.injEq] at e
    obtain ⟨⟨new, m⟩, e1, ⟨q, j⟩, e2, h', e3, rfl, rfl⟩ := e
    have h1 := (create_count e1).1
    have h2 := copyAll_count _ _ _ e2
    have h3 := freeAll_clock _ _ _ e3
    simp only at h1 h2 h3 ⊢
    omega
  · cases e; rfl

theorem insert_count {ops : KeyOps K} {h : Heap (Entry K D)} {t : HTab} {k : K} {d : D} {n n' : Nat} {r : (Heap (Entry K D) × HTab) × Int}
    (e : insert fails ops h t k d n = .ok (r, n')) : n' + h.clock + 2 * t.resizings = n + r.1.1.clock + 2 * r.1.2.resizings := by
  unfold insert at e
  simp only at e
  split at e
  · cases e
  · simp only [Res.bind_ok_iff] at e
    obtain ⟨⟨g, m⟩, e1, e⟩ := e
    have h1 := growTab_count e1
    split at e
    · cases e
    · simp only [Res.bind_ok_iff] at e
      obtain ⟨f, -, e⟩ := e
      split at e
      · cases e; exact h1
      · simp only [Res.bind_ok_iff, Res.ok.injEq, Prod.mk.injEq] at e
        obtain ⟨⟨q, j⟩, e2, rfl, rfl⟩ := e
        have h2 := push_count e2
        simp only at h1 h2 ⊢
        omega

theorem hdelete_same {ops : KeyOps K} {h : Heap (Entry K D)} {t : HTab} {k : K} {r : (Heap (Entry K D) × HTab) × Int}
    (hi : HashHeap.hdelete ops h t k = .ok r) : r.1.1.clock = h.clock ∧ r.1.2.resizings = t.resizings := by
  unfold HashHeap.hdelete at hi
  split at hi
  · simp at hi
  simp only at hi
  split at hi
  · simp at hi
  rw [Res.bind_ok_iff] at hi
  obtain ⟨f, -, hi⟩ := hi
  split at hi
  · simp only [Res.ok.injEq] at hi; subst hi; exact ⟨rfl, rfl⟩
  · split at hi
    · rw [Res.bind_ok_iff] at hi
      obtain ⟨g, e, hi⟩ := hi
      simp only [Res.ok.injEq] at hi; subst hi; exact ⟨free_clock e, rfl⟩
    · simp only [Res.bind_ok_iff] at hi
      obtain ⟨_, -, _, e1, _, e2, hi⟩ := hi
      simp only [Res.ok.injEq] at hi; subst hi; exact ⟨by rw [free_clock e2, write_clock e1], rfl⟩

theorem hretrieve_same {ops : KeyOps K} {h : Heap (Entry K D)} {t : HTab} {k : K} {r : (Heap (Entry K D) × HTab) × Option D}
    (hi : HashHeap.hretrieve ops h t k = .ok r) : r.1.1.clock = h.clock ∧ r.1.2.resizings = t.resizings := by
  unfold HashHeap.hretrieve at hi
  split at hi
  · simp at hi
  simp only at hi
  rw [Res.bind_ok_iff] at hi
  obtain ⟨f, -, hi⟩ := hi
  split at hi
  · simp only [Res.ok.injEq] at hi; subst hi; exact ⟨rfl, rfl⟩
  · split at hi
    · simp only [Res.ok.injEq] at hi; subst hi; exact ⟨rfl, rfl⟩
    · split at hi
      · simp only [Res.bind_ok_iff] at hi
        obtain ⟨_, -, _, e1, _, e2, hi⟩ := hi
        simp only [Res.ok.injEq] at hi; subst hi; exact ⟨by rw [write_clock e2, write_clock e1], rfl⟩
      · simp only [Res.ok.injEq] at hi; subst hi; exact ⟨rfl, rfl⟩

theorem hash_count {ops : KeyOps K} {s s' : Heap (Entry K Ptr) × HTab} {n n' : Nat} {o : Spec.HashOp K} {x : Spec.Ret}
    (e : hashStep fails ops (s, n) o = .ok ((s', n'), x)) :
    n' + s.1.clock + 2 * s.2.resizings = n + s'.1.clock + 2 * s'.2.resizings := by
  cases o with
  | insert k d =>
    simp only [hashStep, Res.bind_ok_iff, Res.ok.injEq, Prod.mk.injEq] at e
    obtain ⟨⟨r, m⟩, e, ⟨rfl, rfl⟩, -⟩ := e
    exact insert_count e
  | delete k =>
    simp only [hashStep, out_ok, quiet_ok, HashHeap.heapStep, Res.bind_ok_iff, Res.ok.injEq, Prod.mk.injEq] at e
    obtain ⟨⟨r, e, rfl, -⟩, rfl⟩ := e
    have := hdelete_same e
    omega
  | retrieve k =>
    simp only [hashStep, out_ok, quiet_ok, HashHeap.heapStep, Res.bind_ok_iff, Res.ok.injEq, Prod.mk.injEq] at e
    obtain ⟨⟨r, e, rfl, -⟩, rfl⟩ := e
    have := hretrieve_same e
    omega
  | readonly f =>
    simp only [hashStep, out_ok, quiet_ok, HashHeap.heapStep, Res.ok.injEq, Prod.mk.injEq] at e
    obtain ⟨⟨rfl, -⟩, rfl⟩ := e
    rfl

/-! ## Several sets -/

/-- How often the tables of the sets have grown. -/
def grown (s : HStore K) : Nat := ((List.range s.next).map fun i => match s.sets i with | some t => t.tab.resizings | none => 0).sum

theorem sum_change (f g : Nat → Nat) (i N : Nat) (hi : i < N) (h : ∀ j, j ≠ i → f j = g j) :
    ((List.range N).map f).sum + g i = ((List.range N).map g).sum + f i := by
  induction N with
  | zero => omega
  | succ N ih =>
    simp only [List.range_succ, List.map_append, List.map_cons, List.map_nil, List.sum_append, List.sum_cons, List.sum_nil]
    by_cases hN : i = N
    · subst hN
      have : (List.range i).map f = (List.range i).map g := List.map_congr_left fun j hj => h j (by have := List.mem_range.1 hj; omega)
      rw [this]; omega
    · have := ih (by omega)
      have := h N (by omega)
      omega

/-- What the sets of a program have asked for. -/
structure SetCount (c : Nat) (s : HStore K) (n : Nat) : Prop where
  count : n + 1 = c + s.heap.clock + 2 * s.next + 2 * grown s
  fresh : ∀ i, s.sets i ≠ none → i < s.next

theorem get_ok {s : HStore K} {i : Nat} {t : HSet} (h : s.get i = .ok t) : s.sets i = some t := by
  unfold HStore.get at h
  split at h
  · rename_i e; cases h; exact e
  · cases h

theorem SetCount.upd {c : Nat} {s : HStore K} {n n' i : Nat} {t : HSet} {r : Heap (Entry K Unit) × HTab} (I : SetCount c s n)
    (ht : s.sets i = some t) (h : n' + s.heap.clock + 2 * t.tab.resizings = n + r.1.clock + 2 * r.2.resizings) :
    SetCount c (s.upd i t r) n' := by
  have hi : i < s.next := I.fresh i (by rw [ht]; simp)
  refine ⟨?_, fun j hj => ?_⟩
  · have e := sum_change (fun j => match (s.upd i t r).sets j with | some t => t.tab.resizings | none => 0)
      (fun j => match s.sets j with | some t => t.tab.resizings | none => 0) i s.next hi (fun j hj => by
        simp only [HStore.upd, HStore.put, if_neg hj])
    simp only [ht] at e
    have e1 : (match (s.upd i t r).sets i with | some t => t.tab.resizings | none => 0) = r.2.resizings := by
      simp [HStore.upd, HStore.put]
    simp only [e1] at e
    have := I.count
    unfold grown at *
    show n' + 1 = c + r.1.clock + 2 * s.next + 2 * ((List.range s.next).map fun j => match (s.upd i t r).sets j with | some t => t.tab.resizings | none => 0).sum
    omega
  · by_cases hj' : j = i
    · rw [hj']; exact hi
    · exact I.fresh j (by simpa [HStore.upd, HStore.put, hj'] using hj)

theorem SetCount.put {c : Nat} {s : HStore K} {n i : Nat} {t : HSet} {u : HTab} (I : SetCount c s n)
    (ht : s.sets i = some t) (h : u.resizings = t.tab.resizings) : SetCount c (s.put i (some { t with tab := u })) n :=
  SetCount.upd (r := (s.heap, u)) I ht (by simp only; omega)

theorem setCreate_count {c : Nat} {s : HStore K} {a b n n' : Nat} {r : HStore K × Nat} (I : SetCount c s n)
    (e : setCreate fails s a b n = .ok (r, n')) : SetCount c r.1 n' := by
  simp only [setCreate, Res.bind_ok_iff, xreq_ok, quiet_ok, SetHeap.setCreate, Res.ok.injEq] at e
  obtain ⟨_, ⟨-, rfl⟩, _, ⟨-, rfl⟩, ⟨t, ht, rfl⟩, rfl⟩ := e
  have hz : t.resizings = 0 := by
    unfold HashHeap.hcreate at ht
    split at ht
    · cases ht
    · cases ht; rfl
  refine ⟨?_, fun j hj => ?_⟩
  · have := I.count
    unfold grown at *
    simp only [List.range_succ, List.map_append, List.map_cons, List.map_nil, List.sum_append, List.sum_cons, List.sum_nil, if_true, hz]
    have e2 : ((List.range s.next).map fun i => match (if i = s.next then some ({ tab := t, hashFn := a, cmpFn := b } : HSet) else s.sets i) with
        | some t => t.tab.resizings | none => 0) = (List.range s.next).map fun i => match s.sets i with | some t => t.tab.resizings | none => 0 :=
      List.map_congr_left fun j hj => by
        have := List.mem_range.1 hj
        rw [if_neg (by omega)]
    rw [e2]
    omega
  · show j < s.next + 1
    by_cases hj' : j = s.next
    · omega
    · have := I.fresh j (by simpa [hj'] using hj)
      omega

theorem setInsert_count {c : Nat} {env : FnEnv K} {s : HStore K} {i : Nat} {e : K} {n n' : Nat} {r : HStore K × Int} (I : SetCount c s n)
    (h : setInsert fails env s i e n = .ok (r, n')) : SetCount c r.1 n' := by
  simp only [setInsert, Res.bind_ok_iff, Res.ok.injEq, Prod.mk.injEq] at h
  obtain ⟨t, ht, ⟨q, m⟩, e, rfl, rfl⟩ := h
  exact I.upd (get_ok ht) (insert_count e)

theorem setMember_count {c : Nat} {env : FnEnv K} {s : HStore K} {i : Nat} {e : K} {n : Nat} {r : HStore K × Int} (I : SetCount c s n)
    (h : SetHeap.setMember env s i e = .ok r) : SetCount c r.1 n := by
  simp only [SetHeap.setMember, Res.bind_ok_iff, Res.ok.injEq] at h
  obtain ⟨t, ht, q, e, rfl⟩ := h
  have := hretrieve_same e
  exact I.upd (get_ok ht) (by omega)

theorem setDelete_count {c : Nat} {env : FnEnv K} {s : HStore K} {i : Nat} {e : K} {n : Nat} {r : HStore K × Int} (I : SetCount c s n)
    (h : SetHeap.setDelete env s i e = .ok r) : SetCount c r.1 n := by
  simp only [SetHeap.setDelete, Res.bind_ok_iff, Res.ok.injEq] at h
  obtain ⟨t, ht, q, e, rfl⟩ := h
  have := hdelete_same e
  exact I.upd (get_ok ht) (by omega)

theorem putRo_count {c : Nat} {s s' : HStore K} {j : Nat} {f : Int} {n : Nat} (I : SetCount c s n) (h : SetHeap.putRo s j f = .ok s') :
    SetCount c s' n := by
  simp only [SetHeap.putRo, Res.bind_ok_iff, Res.ok.injEq] at h
  obtain ⟨t, ht, rfl⟩ := h
  exact I.put (get_ok ht) rfl

theorem walkChain_count {P : HStore K → Nat → Prop} {body : HStore K → K → Nat → Res ((HStore K × Bool) × Nat)}
    (hb : ∀ s e n r n', P s n → body s e n = .ok (r, n') → P r.1 n') (k : Nat) : ∀ {s : HStore K} {pt n n' : Nat} {r : HStore K × Bool},
    P s n → walkChain body k s pt n = .ok (r, n') → P r.1 n' := by
  induction k with
  | zero => intro s pt n n' r _ e; cases e
  | succ k ih =>
    intro s pt n n' r I e
    rw [walkChain] at e
    split at e
    · cases e; exact I
    · simp only [Res.bind_ok_iff] at e
      obtain ⟨c, -, ⟨q, m⟩, e1, e⟩ := e
      have := hb _ _ _ _ _ I e1
      split at e
      · cases e; exact this
      · simp only [Res.bind_ok_iff] at e
        obtain ⟨c', -, e⟩ := e
        exact ih this e

theorem walk_count {P : HStore K → Nat → Prop} {body : HStore K → K → Nat → Res ((HStore K × Bool) × Nat)}
    (hb : ∀ s e n r n', P s n → body s e n = .ok (r, n') → P r.1 n') (i k : Nat) : ∀ {j : Nat} {s : HStore K} {n n' : Nat} {r : HStore K × Bool},
    P s n → walk body i k j s n = .ok (r, n') → P r.1 n' := by
  induction k with
  | zero => intro j s n n' r _ e; cases e
  | succ k ih =>
    intro j s n n' r I e
    rw [walk] at e
    simp only [Res.bind_ok_iff] at e
    obtain ⟨t, -, e⟩ := e
    split at e
    · simp only [Res.bind_ok_iff] at e
      obtain ⟨⟨q, m⟩, e1, e⟩ := e
      have := walkChain_count hb _ I e1
      split at e
      · cases e; exact this
      · exact ih this e
    · cases e; exact I

theorem swalkChain_count {P : HStore K → Prop} {body : HStore K → K → Res (HStore K × Bool)}
    (hb : ∀ s e r, P s → body s e = .ok r → P r.1) (k : Nat) : ∀ {s : HStore K} {pt : Nat} {r : HStore K × Bool},
    P s → SetHeap.walkChain body k s pt = .ok r → P r.1 := by
  induction k with
  | zero => intro s pt r _ e; cases e
  | succ k ih =>
    intro s pt r I e
    rw [SetHeap.walkChain] at e
    split at e
    · cases e; exact I
    · simp only [Res.bind_ok_iff] at e
      obtain ⟨c, -, q, e1, e⟩ := e
      have := hb _ _ _ I e1
      split at e
      · cases e; exact this
      · simp only [Res.bind_ok_iff] at e
        obtain ⟨c', -, e⟩ := e
        exact ih this e

theorem swalk_count {P : HStore K → Prop} {body : HStore K → K → Res (HStore K × Bool)}
    (hb : ∀ s e r, P s → body s e = .ok r → P r.1) (i k : Nat) : ∀ {j : Nat} {s : HStore K} {r : HStore K × Bool},
    P s → SetHeap.walk body i k j s = .ok r → P r.1 := by
  induction k with
  | zero => intro j s r _ e; cases e
  | succ k ih =>
    intro j s r I e
    rw [SetHeap.walk] at e
    simp only [Res.bind_ok_iff] at e
    obtain ⟨t, -, e⟩ := e
    split at e
    · simp only [Res.bind_ok_iff] at e
      obtain ⟨q, e1, e⟩ := e
      have := swalkChain_count hb _ I e1
      split at e
      · cases e; exact this
      · exact ih this e
    · cases e; exact I

theorem insertBody_count {c : Nat} {env : FnEnv K} {i : Nat} (s : HStore K) (e : K) (n : Nat) (r : HStore K × Bool) (n' : Nat)
    (I : SetCount c s n) (h : insertBody fails env i s e n = .ok (r, n')) : SetCount c r.1 n' := by
  simp only [insertBody, Res.bind_ok_iff, Res.ok.injEq, Prod.mk.injEq] at h
  obtain ⟨⟨q, m⟩, e, rfl, rfl⟩ := h
  exact setInsert_count I e

theorem selectBody_count {c : Nat} {env : FnEnv K} {keep : Bool} {new j : Nat} (s : HStore K) (e : K) (n : Nat) (r : HStore K × Bool) (n' : Nat)
    (I : SetCount c s n) (h : selectBody fails env keep new j s e n = .ok (r, n')) : SetCount c r.1 n' := by
  simp only [selectBody, Res.bind_ok_iff] at h
  obtain ⟨q, e, h⟩ := h
  have := setMember_count I e
  split at h
  · simp only [Res.bind_ok_iff, Res.ok.injEq, Prod.mk.injEq] at h
    obtain ⟨⟨q', m⟩, e, rfl, rfl⟩ := h
    exact setInsert_count this e
  · cases h; exact this

theorem setSelect_count {c : Nat} {env : FnEnv K} {keep : Bool} {s : HStore K} {i j n n' : Nat} {r : HStore K × Nat} (I : SetCount c s n)
    (h : setSelect fails env keep s i j n = .ok (r, n')) : SetCount c r.1 n' := by
  simp only [setSelect, Res.bind_ok_iff, Res.ok.injEq, Prod.mk.injEq] at h
  obtain ⟨t, -, ⟨q, m⟩, e1, s1, e2, ⟨q2, m2⟩, e3, s2, e4, rfl, rfl⟩ := h
  have h1 := setCreate_count I e1
  have h2 := putRo_count h1 e2
  have h3 := walk_count (P := SetCount c) selectBody_count _ _ h2 e3
  exact putRo_count h3 e4

theorem setUnion_count {c : Nat} {env : FnEnv K} {s : HStore K} {i j n n' : Nat} {r : HStore K × Nat} (I : SetCount c s n)
    (h : setUnion fails env s i j n = .ok (r, n')) : SetCount c r.1 n' := by
  simp only [setUnion, Res.bind_ok_iff, Res.ok.injEq, Prod.mk.injEq] at h
  obtain ⟨t, -, ⟨q, m⟩, e1, ⟨q2, m2⟩, e2, ⟨q3, m3⟩, e3, rfl, rfl⟩ := h
  have h1 := setCreate_count I e1
  have h2 := walk_count (P := SetCount c) insertBody_count _ _ h1 e2
  exact walk_count (P := SetCount c) insertBody_count _ _ h2 e3

theorem setAdd_count {c : Nat} {env : FnEnv K} {s : HStore K} {i j n n' : Nat} {r : HStore K × Nat} (I : SetCount c s n)
    (h : setAdd fails env s i j n = .ok (r, n')) : SetCount c r.1 n' := by
  simp only [setAdd, Res.bind_ok_iff, Res.ok.injEq, Prod.mk.injEq] at h
  obtain ⟨t, -, ⟨q, m⟩, e1, rfl, rfl⟩ := h
  exact walk_count (P := SetCount c) insertBody_count _ _ I e1

/-- the requests of `set_get_stats` for its answers -/
def statsCost : Spec.SetOp K → Nat
  | .stats _ => 1
  | _ => 0

theorem set_count {c : Nat} {env : FnEnv K} {s s' : HStore K} {n n' : Nat} {o : Spec.SetOp K} {x : Int} (ho : ∀ i, o ≠ .destroy i)
    (I : SetCount c s n) (h : setStep fails env (s, n) o = .ok ((s', n'), x)) : SetCount (c + statsCost o) s' n' := by
  cases o with
  | create a b =>
    simp only [setStep, Res.bind_ok_iff, Res.ok.injEq, Prod.mk.injEq] at h
    obtain ⟨⟨r, m⟩, e, ⟨rfl, rfl⟩, -⟩ := h
    exact setCreate_count I e
  | insert i e => exact setInsert_count I (out_ok.1 h)
  | stats i =>
    simp only [setStep, Res.bind_ok_iff, xreq_ok, out_ok, quiet_ok, SetHeap.hsetStep, Res.ok.injEq, Prod.mk.injEq] at h
    obtain ⟨_, ⟨-, rfl⟩, ⟨t, -, r, -, rfl, -⟩, rfl⟩ := h
    exact ⟨by have := I.count; simp only [statsCost]; omega, I.fresh⟩
  | add i j =>
    simp only [setStep, Res.bind_ok_iff, Res.ok.injEq, Prod.mk.injEq] at h
    obtain ⟨⟨r, m⟩, e, ⟨rfl, rfl⟩, -⟩ := h
    exact setAdd_count I e
  | union i j =>
    simp only [setStep, Res.bind_ok_iff, Res.ok.injEq, Prod.mk.injEq] at h
    obtain ⟨⟨r, m⟩, e, ⟨rfl, rfl⟩, -⟩ := h
    exact setUnion_count I e
  | inter i j =>
    simp only [setStep, Res.bind_ok_iff, Res.ok.injEq, Prod.mk.injEq] at h
    obtain ⟨⟨r, m⟩, e, ⟨rfl, rfl⟩, -⟩ := h
    exact setSelect_count I e
  | diff i j =>
    simp only [setStep, Res.bind_ok_iff, Res.ok.injEq, Prod.mk.injEq] at h
    obtain ⟨⟨r, m⟩, e, ⟨rfl, rfl⟩, -⟩ := h
    exact setSelect_count I e
  | destroy i => exact absurd rfl (ho i)
  | delete i e =>
    simp only [setStep, out_ok, quiet_ok] at h
    obtain ⟨e, rfl⟩ := h
    exact setDelete_count I e
  | member i e =>
    simp only [setStep, out_ok, quiet_ok] at h
    obtain ⟨e, rfl⟩ := h
    exact setMember_count I e
  | readonly i f =>
    simp only [setStep, out_ok, quiet_ok, SetHeap.hsetStep, SetHeap.setReadonly, Res.bind_ok_iff, Res.ok.injEq, Prod.mk.injEq] at h
    obtain ⟨⟨t, ht, rfl, -⟩, rfl⟩ := h
    exact I.put (get_ok ht) rfl
  | count i =>
    simp only [setStep, out_ok, quiet_ok, SetHeap.hsetStep, Res.bind_ok_iff, Res.ok.injEq, Prod.mk.injEq] at h
    obtain ⟨⟨t, ht, rfl, -⟩, rfl⟩ := h
    exact I
  | del i j =>
    simp only [setStep, out_ok, quiet_ok, SetHeap.hsetStep, SetHeap.setDel, Res.bind_ok_iff, Res.ok.injEq, Prod.mk.injEq] at h
    obtain ⟨⟨r, ⟨t, -, q, e, rfl⟩, rfl, -⟩, rfl⟩ := h
    refine swalk_count (P := fun s => SetCount c s n') (fun s e r I h => ?_) _ _ I e
    simp only [SetHeap.deleteBody, Res.bind_ok_iff, Res.ok.injEq] at h
    obtain ⟨q, e, rfl⟩ := h
    exact setDelete_count I e
  | equal i j =>
    simp only [setStep, out_ok, quiet_ok, SetHeap.hsetStep, SetHeap.setEqual, Res.bind_ok_iff] at h
    obtain ⟨⟨t, -, h⟩, rfl⟩ := h
    split at h
    · cases h; exact I
    · simp only [Res.bind_ok_iff, Res.ok.injEq, Prod.mk.injEq] at h
      obtain ⟨s1, e1, q, e2, s2, e3, rfl, -⟩ := h
      refine putRo_count (swalk_count (P := fun s => SetCount c s n') (fun s e r I h => ?_) _ _ (putRo_count I e1) e2) e3
      simp only [SetHeap.equalBody, Res.bind_ok_iff, Res.ok.injEq] at h
      obtain ⟨q, e, rfl⟩ := h
      exact setMember_count I e

/-! ## String pools -/

/-- What a string pool has asked for: a block and a place on a stack for every string, what its table asked for, up to the constants `c` and `d`. -/
def PoolCount (c d : Nat) (p : StrPool.Pool) (n : Nat) : Prop := n + c = d + 2 * p.mem.clock + p.cells.clock + 2 * p.tab.resizings

theorem poolInsert_count {c b : Nat} {p p' : StrPool.Pool} {d n n' : Nat} (I : PoolCount c b p n)
    (h : poolInsert fails p d n = .ok (p', n')) : PoolCount c b p' n' := by
  unfold poolInsert at h
  split at h
  · cases h
  · simp only [Res.bind_ok_iff, Res.ok.injEq, Prod.mk.injEq] at h
    obtain ⟨⟨r, m⟩, e, rfl, rfl⟩ := h
    have := insert_count e
    unfold PoolCount at *
    simp only at *
    omega

theorem pool_count {c b : Nat} {p p' : StrPool.Pool} {n n' : Nat} {o : Spec.PoolOp} {x : Spec.Ret} (I : PoolCount c b p n)
    (h : poolStep fails (p, n) o = .ok ((p', n'), x)) : PoolCount c b p' n' := by
  have hret : ∀ {k : StrPool.SKey} {r : StrPool.Pool × Nat}, StrPool.retrieve p k = .ok r →
      r.1.mem = p.mem ∧ r.1.str = p.str ∧ r.1.cells.clock = p.cells.clock ∧ r.1.tab.resizings = p.tab.resizings := by
    intro k r e
    unfold StrPool.retrieve at e
    split at e
    · cases e
    · simp only [Res.bind_ok_iff, Res.ok.injEq] at e
      obtain ⟨q, e, rfl⟩ := e
      have := hretrieve_same e
      exact ⟨rfl, rfl, this⟩
  have hinit : (HashHeap.initPosition p.tab).1.resizings = p.tab.resizings := by
    unfold HashHeap.initPosition
    simp only
    split <;> rfl
  have hiter : ∀ (f : List Nat → Nat → Int) (stop : HTab → HTab), (∀ t, (stop t).resizings = t.resizings) →
      ∀ (k : Nat) (t : HTab) (pos : Nat) (seen : List (Nat × Int)) (r : HTab × List (Nat × Int) × Int),
      StrPool.iterLoop f stop k p.cells t pos seen = .ok r → r.1.resizings = t.resizings := by
    intro f stop hs k
    induction k with
    | zero => intro t pos seen r e; cases e
    | succ k ih =>
      intro t pos seen r e
      rw [StrPool.iterLoop] at e
      split at e
      · cases e; rfl
      · simp only [Res.bind_ok_iff] at e
        obtain ⟨kd, -, e⟩ := e
        split at e
        · cases e
        · split at e
          · cases e; exact hs t
          · simp only [Res.bind_ok_iff] at e
            obtain ⟨q, e1, e⟩ := e
            rw [ih _ _ _ _ e]
            unfold HashHeap.nextPosition at e1
            split at e1
            · cases e1; rfl
            · simp only [Res.bind_ok_iff] at e1
              obtain ⟨b, -, e1⟩ := e1
              split at e1
              · cases e1; rfl
              · split at e1
                · cases e1
                · split at e1 <;> (cases e1; rfl)
  unfold PoolCount at I
  cases o with
  | exists_ s =>
    simp only [poolStep, out_ok, quiet_ok, StrPool.step, StrPool.exists_, Res.bind_ok_iff, Res.ok.injEq, Prod.mk.injEq] at h
    obtain ⟨⟨r, ⟨t, -, q, e, rfl⟩, rfl, -⟩, rfl⟩ := h
    obtain ⟨h1, h2, h3, h4⟩ := hret e
    unfold PoolCount
    rw [h1, h3, h4]; exact I
  | find u =>
    simp only [poolStep, find, Res.bind_ok_iff, Res.ok.injEq, Prod.mk.injEq] at h
    obtain ⟨⟨r, m⟩, ⟨t, -, q, e, h⟩, ⟨rfl, rfl⟩, -⟩ := h
    obtain ⟨h1, h2, h3, h4⟩ := hret e
    split at h
    · cases h
      unfold PoolCount
      rw [h1, h3, h4]; exact I
    · simp only [Res.bind_ok_iff, Res.ok.injEq, Prod.mk.injEq] at h
      obtain ⟨⟨w, k⟩, e1, ⟨v, j⟩, e2, rfl, rfl⟩ := h
      have := strcpy_count e1
      refine poolInsert_count ?_ e2
      unfold PoolCount
      simp only
      rw [h1] at this
      rw [h3, h4]
      omega
  | copy u =>
    simp only [poolStep, copy, Res.bind_ok_iff, Res.ok.injEq, Prod.mk.injEq] at h
    obtain ⟨⟨r, m⟩, ⟨⟨w, k⟩, e1, rfl, rfl⟩, ⟨rfl, rfl⟩, -⟩ := h
    have := strcpy_count e1
    unfold PoolCount
    simp only
    omega
  | copyn u l =>
    simp only [poolStep, copyn, Res.bind_ok_iff, Res.ok.injEq, Prod.mk.injEq] at h
    obtain ⟨⟨r, m⟩, ⟨⟨w, k⟩, e1, rfl, rfl⟩, ⟨rfl, rfl⟩, -⟩ := h
    have := strncpy_count e1
    unfold PoolCount
    simp only
    omega
  | grow u l =>
    simp only [poolStep, poolGrow, Res.bind_ok_iff, Res.ok.injEq, Prod.mk.injEq] at h
    obtain ⟨⟨r, m⟩, ⟨⟨w, k⟩, e1, rfl, rfl⟩, ⟨rfl, rfl⟩, -⟩ := h
    have := grow_count e1
    unfold PoolCount
    simp only
    omega
  | finish =>
    simp only [poolStep, poolFinish, poolGrow, Res.bind_ok_iff, Res.ok.injEq, Prod.mk.injEq] at h
    obtain ⟨⟨r, m⟩, ⟨⟨p1, m1⟩, ⟨⟨w, k⟩, e1, rfl, rfl⟩, ⟨v, j⟩, e2, ⟨u, i⟩, e3, rfl, rfl⟩, ⟨rfl, rfl⟩, -⟩ := h
    have h1 := grow_count e1
    have h2 := finish_count e2
    refine poolInsert_count ?_ e3
    unfold PoolCount
    simp only at *
    omega
  | iterate f =>
    simp only [poolStep, out_ok, quiet_ok, StrPool.step, StrPool.iterate, Res.bind_ok_iff, Res.ok.injEq, Prod.mk.injEq] at h
    obtain ⟨⟨r, ⟨q, e, rfl⟩, rfl, -⟩, rfl⟩ := h
    have := hiter f id (fun _ => rfl) _ _ _ _ _ e
    unfold PoolCount
    simp only
    rw [this, hinit]; exact I
  | iterateArg f =>
    simp only [poolStep, out_ok, quiet_ok, StrPool.step, StrPool.iterateArg, Res.bind_ok_iff, Res.ok.injEq, Prod.mk.injEq] at h
    obtain ⟨⟨r, ⟨q, e, rfl⟩, rfl, -⟩, rfl⟩ := h
    have := hiter f (fun t => { t with readonly := 0 }) (fun _ => rfl) _ _ _ _ _ e
    unfold PoolCount
    simp only
    rw [this, hinit]; exact I

/-! ## Skip lists -/

/-- Three requests for a new list (of which two are saved when its structure has been in use before), one for an entry; giving a
structure back costs one, and saves two later. -/
def slCost : Spec.SlOp → Int
  | .create _ _ => 3
  | .insert _ _ _ => 1
  | .destroy _ => -1
  | _ => 0

/-- The requests made, less three for the pool and two for every structure waiting in it. -/
def slPotential (s : Sls × Nat) : Int :=
  match s.1.pool with
  | none => s.2
  | some k => s.2 - 3 - 2 * k

theorem sl_count {s s' : Sls} {n n' : Nat} {o : Spec.SlOp} {x : Nat} (h : slStep fails (s, n) o = .ok ((s', n'), x)) :
    slPotential (s', n') = slPotential (s, n) + slCost o := by
  cases o with
  | create cmp key =>
    have h := out_ok.1 h
    simp only [slCreate, Res.bind_ok_iff] at h
    obtain ⟨⟨k, m⟩, h0, h⟩ := h
    have hk : (match s.pool with | none => k = 0 ∧ m = n + 3 | some j => k = j ∧ m = n) := by
      cases hp : s.pool with
      | none =>
        simp only [hp, createObjects, Res.bind_ok_iff, xreq_ok, Res.ok.injEq, Prod.mk.injEq] at h0
        obtain ⟨⟨a, b⟩, ⟨_, ⟨-, rfl⟩, _, ⟨-, rfl⟩, _, ⟨-, rfl⟩, e⟩, rfl, rfl⟩ := h0
        exact ⟨rfl, (Prod.mk.inj e).2.symm⟩
      | some j =>
        simp only [hp, Res.ok.injEq, Prod.mk.injEq] at h0
        exact ⟨h0.1.symm, h0.2.symm⟩
    split at h
    · simp only [Res.bind_ok_iff, xreq_ok, Res.ok.injEq, Prod.mk.injEq] at h
      obtain ⟨⟨k', m'⟩, h1, _, ⟨-, rfl⟩, r, -, ⟨rfl, -⟩, rfl⟩ := h
      have h2 : (m' : Int) - 2 * k' = m - 2 * k + 2 := by
        simp only [slHeader] at h1
        split at h1
        · simp only [Res.bind_ok_iff, xreq_ok, bareReq_ok, Res.ok.injEq, Prod.mk.injEq] at h1
          obtain ⟨_, ⟨-, rfl⟩, _, ⟨-, rfl⟩, rfl, rfl⟩ := h1
          omega
        · simp only [Res.ok.injEq, Prod.mk.injEq] at h1
          omega
      simp only [slPotential, slCost]
      cases hp : s.pool with
      | none => rw [hp] at hk; simp only at hk ⊢; omega
      | some j => rw [hp] at hk; simp only at hk ⊢; omega
    · cases h
  | destroy l =>
    simp only [slStep, slDestroy, Res.bind_ok_iff, Res.ok.injEq, Prod.mk.injEq] at h
    obtain ⟨⟨a, m⟩, ⟨σ, -, h⟩, ⟨rfl, rfl⟩, -⟩ := h
    cases hp : s.pool with
    | none => rw [hp] at h; cases h
    | some k =>
      rw [hp] at h
      simp only [Res.bind_ok_iff, bareReq_ok, Res.ok.injEq, Prod.mk.injEq] at h
      obtain ⟨_, ⟨-, rfl⟩, rfl, rfl⟩ := h
      simp only [slPotential, slCost, hp]
      omega
  | insert l d rnd =>
    simp only [slStep, slInsert, Res.bind_ok_iff, xreq_ok, Res.ok.injEq, Prod.mk.injEq] at h
    obtain ⟨⟨a, m⟩, ⟨σ, -, _, ⟨-, rfl⟩, rfl, rfl⟩, ⟨rfl, rfl⟩, -⟩ := h
    simp only [slPotential, slCost]
    cases s.pool <;> simp only <;> omega
  | _ =>
    simp only [slStep, Res.bind_ok_iff, Res.ok.injEq, Prod.mk.injEq] at h
    obtain ⟨r, -, ⟨rfl, rfl⟩, -⟩ := h
    simp only [slPotential, slCost]
    cases s.pool <;> simp only <;> omega

/-- Adding up over a history. -/
theorem run_potential {S O X : Type} (φ : S → Int) (cost : O → Int) (step : S → O → Res (S × X))
    (h : ∀ s o s' x, step s o = .ok (s', x) → φ s' = φ s + cost o) (hist : List O) :
    ∀ s s' xs, run step s hist = .ok (s', xs) → φ s' = φ s + (hist.map cost).sum := by
  induction hist with
  | nil => intro s s' xs e; cases e; simp
  | cons o os ih =>
    intro s s' xs e
    simp only [run, Res.bind_ok_iff, Res.ok.injEq, Prod.mk.injEq] at e
    obtain ⟨⟨s1, x⟩, e1, ⟨s2, ys⟩, e2, rfl, -⟩ := e
    rw [ih _ _ _ e2, h _ _ _ _ e1]
    simp only [List.map_cons, List.sum_cons]
    omega

end Maa.Oom
