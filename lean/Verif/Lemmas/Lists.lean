import Verif.Model.Lists
import Verif.Lemmas.Heap
import Verif.Lemmas.Objects

namespace Maa.Lst

open Spec (Lists LstOp firstPos lastPos nth)
open Objects (Pool PoolOk)
open Heap (Seg Chain)

abbrev pos (l : List (Nat × Nat)) : List Nat := l.map Prod.fst

/-- One list is laid out in memory. -/
def Lay (h : Heap Nat) (o : LObj) (l : List (Nat × Nat)) : Prop :=
  Chain h.mem o.head l ∧ o.tail = lastPos l ∧ o.count = l.length

/-- The node pool holds exactly the elements of the lists. -/
def PoolRep (σ : State) (S : Lists) : Prop :=
  (σ.mem = none ∧ S.alive = false ∧ ∀ a, ¬ S.InUse a) ∨
  (∃ p held, σ.mem = some p ∧ S.alive = true ∧ PoolOk σ.heap p held ∧ ∀ a, a ∈ held ↔ S.InUse a)

/-- Memory represents the abstract lists. -/
structure Rep (σ : State) (S : Lists) : Prop where
  ok : σ.heap.Ok
  next : σ.next = S.next
  npos : 0 < S.next
  bytes : σ.allocated = S.bytes
  list : ∀ i l, S.lists i = some l → ∃ o, σ.lists i = some o ∧ Lay σ.heap o l
  disj : ∀ i j l l', i ≠ j → S.lists i = some l → S.lists j = some l' → ∀ a ∈ pos l, a ∉ pos l'
  pool : PoolRep σ S
  old : ∀ i, S.next ≤ i → S.lists i = none
  null : S.lists 0 = none

theorem Rep.nodup {σ : State} {S : Lists} (r : Rep σ S) {i l} (h : S.lists i = some l) : (pos l).Nodup := by
  obtain ⟨o, -, h2, -⟩ := r.list i l h
  exact Heap.Chain.nodup h2

theorem inUse_set {S : Lists} {σ : State} (r : Rep σ S) {i l} (hi : S.lists i = some l) (lx : Option (List (Nat × Nat)))
    {S' : Lists} (hS : S'.lists = fun j => if j = i then lx else S.lists j) (a : Nat) :
    S'.InUse a ↔ (S.InUse a ∧ a ∉ pos l) ∨ (∃ l', lx = some l' ∧ a ∈ pos l') := by
  constructor
  · rintro ⟨j, l', h1, h2⟩
    rw [hS] at h1
    by_cases hj : j = i
    · simp only [hj, if_true] at h1
      exact Or.inr ⟨l', h1, h2⟩
    · simp only [hj, if_false] at h1
      exact Or.inl ⟨⟨j, l', h1, h2⟩, r.disj j i l' l hj h1 hi a h2⟩
  · rintro (⟨⟨j, l', h1, h2⟩, h3⟩ | ⟨l', h1, h2⟩)
    · refine ⟨j, l', ?_, h2⟩
      rw [hS]
      have : j ≠ i := by rintro rfl; rw [hi] at h1; cases h1; exact h3 h2
      simp only [this, if_false]; exact h1
    · exact ⟨i, l', by rw [hS]; simpa using h1, h2⟩

theorem Rep.update {σ σ' : State} {S S' : Lists} (r : Rep σ S) {i l} (hi : S.lists i = some l)
    (ox : Option LObj) (lx : Option (List (Nat × Nat)))
    (hσ : σ'.lists = fun j => if j = i then ox else σ.lists j)
    (hS : S'.lists = fun j => if j = i then lx else S.lists j)
    (hok : σ'.heap.Ok) (hn : σ'.next = σ.next) (hn' : S'.next = S.next) (hb : σ'.allocated = S'.bytes)
    (frame : ∀ a, S.InUse a → a ∉ pos l → σ'.heap.mem a = σ.heap.mem a)
    (new : ∀ l', lx = some l' → ∃ o, ox = some o ∧ Lay σ'.heap o l')
    (fresh : ∀ l', lx = some l' → ∀ a ∈ pos l', a ∈ pos l ∨ ¬ S.InUse a)
    (pool : PoolRep σ' S') : Rep σ' S' := by
  have dis : ∀ j lj l', j ≠ i → S.lists j = some lj → lx = some l' → ∀ a ∈ pos lj, a ∉ pos l' := by
    intro j lj l' hj h1 h2 a ha ha'
    rcases fresh l' h2 a ha' with h | h
    · exact r.disj j i lj l hj h1 hi a ha h
    · exact h ⟨j, lj, h1, ha⟩
  refine ⟨hok, by rw [hn, r.next, hn'], by rw [hn']; exact r.npos, hb, ?_, ?_, pool, ?_, ?_⟩
  · intro j lj hj
    rw [hS] at hj
    rw [hσ]
    by_cases hji : j = i
    · simp only [hji, if_true] at hj ⊢
      exact new lj hj
    · simp only [hji, if_false] at hj ⊢
      obtain ⟨o, h1, h2, h3, h4⟩ := r.list j lj hj
      refine ⟨o, h1, h2.frame fun a ha => frame a ⟨j, lj, hj, ha⟩ ?_, h3, h4⟩
      exact r.disj j i lj l hji hj hi a ha
  · intro j k lj lk hjk hj hk a ha ha'
    rw [hS] at hj hk
    by_cases hji : j = i
    · have hki : k ≠ i := fun h => hjk (hji.trans h.symm)
      simp only [hji, if_true] at hj
      simp only [hki, if_false] at hk
      exact dis k lk lj hki hk hj a ha' ha
    · simp only [hji, if_false] at hj
      by_cases hki : k = i
      · simp only [hki, if_true] at hk
        exact dis j lj lk hji hj hk a ha ha'
      · simp only [hki, if_false] at hk
        exact r.disj j k lj lk hjk hj hk a ha ha'
  · intro j hj
    rw [hS]
    have h1 := r.old j (by rw [← hn']; exact hj)
    have : j ≠ i := by rintro rfl; rw [hi] at h1; cases h1
    simp only [this, if_false]
    exact h1
  · rw [hS]
    have h1 := r.null
    have : 0 ≠ i := by rintro rfl; rw [hi] at h1; cases h1
    simp only [this, if_false]
    exact h1

theorem check_some {σ : State} {i : Nat} {o : LObj} (h0 : i ≠ 0) (h : σ.lists i = some o) : σ.check i = .ok o := by
  simp [State.check, h0, h]

theorem check_zero (σ : State) : σ.check 0 = .abort := by simp [State.check]

/-- The freeing loop gives back the rest of the chain. -/
theorem freeRest_ok (l : List (Nat × Nat)) : ∀ (n : Nat) (σ : State) (d : Nat) (p : Pool) (held : List Nat),
    l.length < n → Chain σ.heap.mem d l → σ.mem = some p → PoolOk σ.heap p held → (∀ a ∈ pos l, a ∈ held) →
    ∃ p' held', freeRest n σ d = .ok ({ σ with mem := some p' }, l.length) ∧ PoolOk σ.heap p' held' ∧
      ∀ a, a ∈ held' ↔ a ∈ held ∧ a ∉ pos l := by
  induction l with
  | nil =>
    intro n σ d p held hn hc hm hp hh
    obtain ⟨k, rfl⟩ : ∃ k, n = k + 1 := ⟨n - 1, by omega⟩
    have hd : d = 0 := hc
    refine ⟨p, held, ?_, hp, by simp⟩
    simp [freeRest, hd, ← hm]
  | cons c l ih =>
    intro n σ d p held hn hc hm hp hh
    obtain ⟨k, rfl⟩ : ∃ k, n = k + 1 := ⟨n - 1, by omega⟩
    have hnd := Heap.Chain.nodup hc
    obtain ⟨a, x⟩ := c
    obtain ⟨rfl, h0, nx, h1, h2⟩ := hc
    have hin : d ∈ held := hh d (by simp)
    have hp' := Objects.freeObject_ok hp hin
    have hnd' : held.Nodup := (List.nodup_append.1 hp.nodup').2.1
    simp only [List.map_cons, List.nodup_cons] at hnd
    obtain ⟨p', held', e1, e2, e3⟩ := ih k { σ with mem := some (Objects.freeObject p d) } nx _ _
      (by simp at hn; omega) h2 rfl hp' (by
        intro b hb
        have : b ≠ d := by rintro rfl; exact hnd.1 hb
        exact (List.mem_erase_of_ne this).2 (hh b (by simp [hb])))
    refine ⟨p', held', ?_, e2, ?_⟩
    · simp only [freeRest, h0, if_false, Heap.read_ok h1, Res.bind, memFree, hm, e1, List.length_cons]
    · intro b
      rw [e3, hnd'.mem_erase_iff]
      simp only [pos, List.map_cons, List.mem_cons]
      tauto

theorem freeRest_nil {n : Nat} {σ : State} (hn : 0 < n) : freeRest n σ 0 = .ok (σ, 0) := by
  obtain ⟨k, rfl⟩ : ∃ k, n = k + 1 := ⟨n - 1, by omega⟩
  simp [freeRest]

theorem nthLoop_ok (h : Heap Nat) (k : Nat) : ∀ (l : List (Nat × Nat)) (d : Nat), k ≤ l.length → Chain h.mem d l →
    nthLoop k h d = .ok (0, firstPos (l.drop k)) := by
  induction k with
  | zero =>
    intro l d _ hc
    cases l with
    | nil => have : d = 0 := hc; simp [nthLoop, firstPos, this]
    | cons c l => simp [nthLoop, firstPos, hc.1]
  | succ k ih =>
    intro l d hk hc
    cases l with
    | nil => simp at hk
    | cons c l =>
      obtain ⟨a, x⟩ := c
      obtain ⟨rfl, h0, nx, h1, h2⟩ := hc
      simp only [nthLoop, h0, if_false, Heap.read_ok h1, Res.bind]
      rw [ih l nx (by simpa using hk) h2]
      simp

theorem memberLoop_ok (h : Heap Nat) (datum : Nat) (l : List (Nat × Nat)) : ∀ (n d : Nat), l.length < n →
    Chain h.mem d l → memberLoop n h d datum = .ok (if datum ∈ l.map Prod.snd then 1 else 0) := by
  induction l with
  | nil =>
    intro n d hn hc
    obtain ⟨k, rfl⟩ : ∃ k, n = k + 1 := ⟨n - 1, by omega⟩
    have : d = 0 := hc
    simp [memberLoop, this]
  | cons c l ih =>
    intro n d hn hc
    obtain ⟨k, rfl⟩ : ∃ k, n = k + 1 := ⟨n - 1, by omega⟩
    obtain ⟨a, x⟩ := c
    obtain ⟨rfl, h0, nx, h1, h2⟩ := hc
    simp only [memberLoop, h0, if_false, Heap.read_ok h1, Res.bind]
    by_cases hx : x = datum
    · simp [hx]
    · have hx' : datum ≠ x := fun h => hx h.symm
      rw [if_neg hx, ih k nx (by simp at hn; omega) h2]
      simp only [List.map_cons, List.mem_cons, hx', false_or]

/-- with `length > 1` the loop of `lst_truncate` runs off the end -/
theorem truncLoop_walk (h : Heap Nat) (len : Nat) (hl : 1 < len) (l : List (Nat × Nat)) : ∀ (n d : Nat), l.length < n →
    Chain h.mem d l → truncLoop n h len d = .ok 0 := by
  induction l with
  | nil =>
    intro n d hn hc
    obtain ⟨k, rfl⟩ : ∃ k, n = k + 1 := ⟨n - 1, by omega⟩
    have : d = 0 := hc
    simp [truncLoop, this]
  | cons c l ih =>
    intro n d hn hc
    obtain ⟨k, rfl⟩ : ∃ k, n = k + 1 := ⟨n - 1, by omega⟩
    obtain ⟨a, x⟩ := c
    obtain ⟨rfl, h0, nx, h1, h2⟩ := hc
    simp only [truncLoop]
    rw [if_pos ⟨hl, h0⟩, Heap.read_ok h1]
    exact ih k nx (by simp at hn; omega) h2

theorem truncLoop_stop (h : Heap Nat) (len n d : Nat) (hl : ¬ 1 < len) (hn : 0 < n) : truncLoop n h len d = .ok d := by
  obtain ⟨k, rfl⟩ : ∃ k, n = k + 1 := ⟨n - 1, by omega⟩
  simp [truncLoop, hl]

/-- One call behaves as documented. -/
def Good (σ : State) (S : Lists) (o : LstOp) : Prop :=
  S.Undefined o ∨
  (∃ σ' S' x, step σ o = .ok (σ', x) ∧ S.Allowed (.ok (S', x)) o ∧ Rep σ' S') ∨
  (step σ o = .abort ∧ S.Allowed .abort o) ∨ (step σ o = .fatal ∧ S.Allowed .fatal o)

/-- Calls with a list argument. -/
theorem Good.handle {σ : State} {S : Lists} {o : LstOp} {i : Nat} (r : Rep σ S) (ho : o.handle = some i)
    (hz : i = 0 → Good σ S o)
    (hs : ∀ l ob, i ≠ 0 → S.lists i = some l → σ.lists i = some ob → Lay σ.heap ob l → Good σ S o) :
    Good σ S o := by
  by_cases h0 : i = 0
  · exact hz h0
  · cases hl : S.lists i with
    | none => exact Or.inl (Or.inl ⟨i, ho, h0, hl⟩)
    | some l =>
      obtain ⟨ob, h1, h2⟩ := r.list i l hl
      exact hs l ob h0 hl h1 h2

theorem Good.query {σ : State} {S : Lists} {o : LstOp} (r : Rep σ S) (x : Nat) (h1 : step σ o = .ok (σ, x))
    (h2 : S.Allowed (.ok (S, x)) o) : Good σ S o := Or.inr (Or.inl ⟨σ, S, x, h1, h2, r⟩)

theorem set_self {S : Lists} {i l} (h : S.lists i = some l) : S.set i (some l) = S := by
  cases S with
  | mk f n a b =>
    simp only [Lists.set, Lists.mk.injEq, and_true]
    funext j
    split
    · rename_i hj; rw [hj]; exact h.symm
    · rfl

theorem create_good {σ : State} {S : Lists} (r : Rep σ S) : Good σ S .create := by
  refine Or.inr (Or.inl ⟨_, _, _, rfl, by simp only [Lists.Allowed]; rw [← r.next], ?_⟩)
  have hnew := r.old S.next (Nat.le_refl _)
  have hn := r.next
  have huse : ∀ a, Lists.InUse (Lists.mk (fun j => if j = S.next then some [] else S.lists j) (S.next + 1) true
      (S.bytes + 32)) a ↔ S.InUse a := by
    intro a
    constructor
    · rintro ⟨j, l, h1, h2⟩
      simp only at h1
      split at h1
      · cases h1; simp at h2
      · exact ⟨j, l, h1, h2⟩
    · rintro ⟨j, l, h1, h2⟩
      refine ⟨j, l, ?_, h2⟩
      have : j ≠ S.next := by rintro rfl; rw [hnew] at h1; cases h1
      simp only [this, if_false]; exact h1
  refine ⟨r.ok, by simp [hn], by simp, by simp [r.bytes], ?_, ?_, ?_, ?_, ?_⟩
  · intro j l hj
    simp only [hn] at hj ⊢
    by_cases h : j = S.next
    · simp only [h, if_true, Option.some.injEq] at hj ⊢
      subst hj
      exact ⟨_, rfl, rfl, rfl, rfl⟩
    · simp only [h, if_false] at hj ⊢
      exact r.list j l hj
  · intro j k l l' hjk hj hk a ha ha'
    simp only [hn] at hj hk
    by_cases h : j = S.next
    · simp only [h, if_true, Option.some.injEq] at hj; subst hj; simp at ha
    · by_cases h' : k = S.next
      · simp only [h', if_true, Option.some.injEq] at hk; subst hk; simp at ha'
      · simp only [h, h', if_false] at hj hk
        exact r.disj j k l l' hjk hj hk a ha ha'
  · refine Or.inr ?_
    rw [hn]
    rcases r.pool with ⟨h1, h2, h3⟩ | ⟨p, held, h1, h2, h3, h4⟩
    · refine ⟨Objects.create 16, [], by simp [h1], rfl, ⟨?_, ?_, ?_⟩, ?_⟩
      · simp [Objects.create]
      · simp [Objects.create]
      · simp [Objects.create]
      · intro a
        rw [huse]
        constructor
        · intro h; simp at h
        · intro h; exact absurd h (h3 a)
    · refine ⟨p, held, by simp [h1], rfl, h3, fun a => by rw [huse]; exact h4 a⟩
  · intro j hj
    simp only [hn] at hj ⊢
    rw [if_neg (by omega)]
    exact r.old j (by omega)
  · have := r.npos
    simp only [hn]
    rw [if_neg (by omega)]
    exact r.null

/-- The pool of a program that has a non-empty list. -/
theorem Rep.poolOf {σ : State} {S : Lists} (r : Rep σ S) {a : Nat} (h : S.InUse a) :
    ∃ p held, σ.mem = some p ∧ S.alive = true ∧ PoolOk σ.heap p held ∧ ∀ a, a ∈ held ↔ S.InUse a := by
  rcases r.pool with ⟨h1, h2, h3⟩ | h4
  · exact absurd h (h3 a)
  · exact h4

theorem PoolRep.empty {σ σ' : State} {S S' : Lists} (p : PoolRep σ S) (hm : σ'.mem = σ.mem) (ha : S'.alive = S.alive)
    (hh : ∀ a, (σ.heap.mem a).isSome → (σ'.heap.mem a).isSome)
    (hu : ∀ a, S'.InUse a ↔ S.InUse a) : PoolRep σ' S' := by
  rcases p with ⟨h1, h2, h3⟩ | ⟨p, held, h1, h2, h3, h4⟩
  · exact Or.inl ⟨hm.trans h1, ha.trans h2, fun a h => h3 a ((hu a).1 h)⟩
  · exact Or.inr ⟨p, held, hm.trans h1, ha.trans h2, h3.congr hh, fun a => by rw [hu]; exact h4 a⟩

/-- Freeing a tail of list `i`: what `freeRest` leads to, whatever else changes in list `i`. -/
theorem freeTail {σ σ' : State} {S : Lists} (r : Rep σ S) {i : Nat} {l keep rest : List (Nat × Nat)}
    (hi : S.lists i = some l) (hl : pos l = pos keep ++ pos rest) (lx : Option (List (Nat × Nat)))
    (hlx : ∀ a, (∃ l', lx = some l' ∧ a ∈ pos l') ↔ a ∈ pos keep)
    (hm : σ'.mem = σ.mem) (hh : ∀ a, (σ.heap.mem a).isSome → (σ'.heap.mem a).isSome)
    {d : Nat} (hc : Chain σ'.heap.mem d rest) {n : Nat} (hn : rest.length < n)
    {S' : Lists} (hS : S'.lists = fun j => if j = i then lx else S.lists j) (ha : S'.alive = S.alive) :
    ∃ m, freeRest n σ' d = .ok ({ σ' with mem := m }, rest.length) ∧
      ∀ σ'' : State, σ''.heap = σ'.heap → σ''.mem = m → PoolRep σ'' S' := by
  have hnd := r.nodup hi
  rw [hl, List.nodup_append] at hnd
  by_cases hr : rest = []
  · subst hr
    have hd : d = 0 := hc
    refine ⟨σ'.mem, by rw [hd, freeRest_nil (by omega)]; rfl, ?_⟩
    intro σ'' e1 e2
    simp only [List.map_nil, List.append_nil] at hl
    refine PoolRep.empty r.pool (e2.trans hm) ha (by rw [e1]; exact hh) ?_
    · intro a
      rw [inUse_set r hi lx hS, hlx, ← hl]
      constructor
      · rintro (h | h)
        · exact h.1
        · exact ⟨i, l, hi, h⟩
      · intro h
        by_cases hal : a ∈ pos l
        · exact Or.inr hal
        · exact Or.inl ⟨h, hal⟩
  · obtain ⟨c, hc'⟩ := List.exists_mem_of_ne_nil _ hr
    have hcr : c.1 ∈ pos rest := List.mem_map.2 ⟨c, hc', rfl⟩
    obtain ⟨p, held, h1, h2, h3, h4⟩ := r.poolOf (a := c.1) ⟨i, l, hi, by show c.1 ∈ pos l; rw [hl]; simp [hcr]⟩
    obtain ⟨p', held', e1, e2, e3⟩ := freeRest_ok rest n σ' d p held hn hc (hm.trans h1) (h3.congr hh) (by
      intro a ha
      rw [h4]
      exact ⟨i, l, hi, by show a ∈ pos l; rw [hl]; exact List.mem_append.2 (Or.inr ha)⟩)
    refine ⟨some p', e1, ?_⟩
    intro σ'' f1 f2
    refine Or.inr ⟨p', held', f2, ha.trans h2, by rw [f1]; exact e2, ?_⟩
    intro a
    rw [e3, h4, inUse_set r hi lx hS, hlx, hl, List.mem_append]
    constructor
    · rintro ⟨h5, h6⟩
      by_cases hk : a ∈ pos keep
      · exact Or.inr hk
      · exact Or.inl ⟨h5, by tauto⟩
    · rintro (⟨h5, h6⟩ | h5)
      · exact ⟨h5, by tauto⟩
      · refine ⟨⟨i, l, hi, by show a ∈ pos l; rw [hl]; exact List.mem_append.2 (Or.inl h5)⟩, ?_⟩
        intro h6
        exact hnd.2.2 a h5 a h6 rfl

theorem memGet_ok {σ : State} {S : Lists} (r : Rep σ S) (ha : S.alive = true) :
    ∃ h1 p1 d held, memGet σ = .ok ({ σ with heap := h1, mem := some p1 }, d) ∧ h1.Ok ∧ PoolOk h1 p1 (d :: held) ∧
      (∀ a, a ∈ held ↔ S.InUse a) ∧ ¬ S.InUse d ∧ d ≠ 0 ∧ (h1.mem d).isSome ∧
      ∀ a, a ≠ d → h1.mem a = σ.heap.mem a := by
  rcases r.pool with ⟨-, h2, -⟩ | ⟨p, held, h1, h2, h3, h4⟩
  · rw [ha] at h2; simp at h2
  · obtain ⟨g1, g2, g3, g4, g5, g6, g7, g8, g9⟩ := Objects.getObject_ok (0, 0) r.ok h3
    refine ⟨_, _, _, held, by simp only [memGet, h1], g1, g2, h4, ?_, g4, g5, g8⟩
    rw [← h4]; exact g3

theorem write_mem {h : Heap Nat} {p : Nat} {c : Nat × Nat} (hs : (h.mem p).isSome) :
    ∃ h', h.write p c = .ok h' ∧ h'.mem = (fun a => if a = p then some c else h.mem a) ∧ h'.clock = h.clock ∧
      ∀ a, (h'.mem a).isSome = (h.mem a).isSome := by
  obtain ⟨x, hx⟩ := Option.isSome_iff_exists.1 hs
  refine ⟨_, Heap.write_ok hx, rfl, rfl, ?_⟩
  intro a
  simp only
  split
  · rename_i e; rw [e, hx]; rfl
  · rfl

theorem nil_or_snoc {β : Type} (l : List β) : l = [] ∨ ∃ l' x, l = l' ++ [x] := by
  rcases List.eq_nil_or_concat l with h | ⟨l', x, h⟩
  · exact Or.inl h
  · exact Or.inr ⟨l', x, by rw [h, List.concat_eq_append]⟩

theorem lastPos_snoc (l : List (Nat × Nat)) (x : Nat × Nat) : lastPos (l ++ [x]) = x.1 := by
  simp [lastPos]

theorem firstPos_chain {m : Nat → Option (Nat × Nat)} {p : Nat} {l : List (Nat × Nat)} (h : Chain m p l) :
    p = firstPos l := by
  cases l with
  | nil => exact h
  | cons c l => exact h.1

/-- the pool after a node was taken for list `i` -/
theorem PoolRep.take {σ' : State} {S S' : Lists} {σ : State} (r : Rep σ S) {i : Nat} {l l' : List (Nat × Nat)}
    (hi : S.lists i = some l) (hS : S'.lists = fun j => if j = i then some l' else S.lists j)
    (ha : S'.alive = true) {p : Pool} {d : Nat} {held : List Nat} (hm : σ'.mem = some p)
    (hp : PoolOk σ'.heap p (d :: held)) (hh : ∀ a, a ∈ held ↔ S.InUse a) (hl' : ∀ a, a ∈ pos l' ↔ a = d ∨ a ∈ pos l) :
    PoolRep σ' S' := by
  refine Or.inr ⟨p, d :: held, hm, ha, hp, fun a => ?_⟩
  rw [inUse_set r hi _ hS, List.mem_cons, hh]
  simp only [Option.some.injEq, exists_eq_left', hl']
  constructor
  · rintro (h | h)
    · exact Or.inr (Or.inl h)
    · by_cases hal : a ∈ pos l
      · exact Or.inr (Or.inr hal)
      · exact Or.inl ⟨h, hal⟩
  · rintro (h | h | h)
    · exact Or.inr h.1
    · exact Or.inl h
    · exact Or.inr ⟨i, l, hi, h⟩

theorem append_good {σ : State} {S : Lists} (r : Rep σ S) (i datum : Nat) : Good σ S (.append i datum) := by
  refine Good.handle (i := i) r rfl ?_ ?_
  · intro h0
    exact Good.query r 0 (by simp [step, lstAppend, h0, Res.bind]) (by simp [Lists.Allowed, h0])
  · intro l ob h0 hl hob hlay
    by_cases ha : S.alive = false
    · exact Or.inl (Or.inr ⟨h0, ha⟩)
    have ha : S.alive = true := by simpa using ha
    obtain ⟨h1, p1, d, held, g1, g2, g3, g4, g5, g6, g7, g8⟩ := memGet_ok r ha
    obtain ⟨h2, w1, w2, w3, w4⟩ := write_mem (c := (datum, 0)) g7
    obtain ⟨l1, l2, l3⟩ := hlay
    have hd : d ∉ pos l := fun h => g5 ⟨i, l, hl, h⟩
    have hok2 : h2.Ok := g2.write w1
    have hc2 : Chain h2.mem ob.head l := l1.frame (fun a ha => by
      have : a ≠ d := by rintro rfl; exact hd ha
      rw [w2]; simp only [this, if_false]; exact g8 a this)
    have hcd : h2.mem d = some (datum, 0) := by rw [w2]; simp
    refine Or.inr (Or.inl ?_)
    have key : ∃ h3, step σ (.append i datum) = .ok (State.set
          { σ with heap := h3, mem := some p1, allocated := σ.allocated + 16 } i
          (some (LObj.mk (if ob.head = 0 then d else ob.head) d (ob.count + 1))), 0) ∧ h3.Ok ∧
        (∀ a, (h3.mem a).isSome = (h1.mem a).isSome) ∧ (∀ a, a ≠ d → a ∉ pos l → h3.mem a = h1.mem a) ∧
        Chain h3.mem (if ob.head = 0 then d else ob.head) (l ++ [(d, datum)]) := by
      rcases nil_or_snoc l with rfl | ⟨l', ⟨t, x⟩, rfl⟩
      · have hh : ob.head = 0 := l1
        refine ⟨h2, ?_, hok2, w4, ?_, ?_⟩
        · simp [step, lstAppend, h0, g1, Res.bind, State.check, hob, w1, l2, lastPos]
        · intro a h _; rw [w2]; simp [h]
        · simp only [hh, if_true]
          exact ⟨rfl, g6, 0, hcd, rfl⟩
      · have ht : ob.tail = t := by rw [l2, lastPos_snoc]
        obtain ⟨n, c1, c2, c3, c4⟩ := Heap.Seg.cell hc2
        have hn0 : n = 0 := c2
        subst hn0
        obtain ⟨h3, v1, v2, v3, v4⟩ := write_mem (h := h2) (p := t) (c := (x, d)) (by rw [c1]; rfl)
        have hnd := Heap.Chain.nodup hc2
        simp only [List.map_append, List.map_cons, List.map_nil] at hnd
        have htl : t ∉ pos l' := fun h => (List.nodup_append.1 hnd).2.2 t h t (by simp) rfl
        have hhead : ob.head ≠ 0 := fun h => by
          have := (Heap.Chain.zero hc2).1 h; simp at this
        refine ⟨h3, ?_, hok2.write v1, fun a => (v4 a).trans (w4 a), ?_, ?_⟩
        · simp [step, lstAppend, h0, g1, Res.bind, State.check, hob, w1, ht, c3, Heap.read_ok c1, v1]
        · intro a h h'
          have : a ≠ t := by rintro rfl; simp at h'
          rw [v2, w2]; simp [h, this]
        · rw [if_neg hhead]
          have hdt : d ≠ t := by rintro rfl; simp at hd
          refine Heap.Seg.append (q := d) ?_ ⟨rfl, g6, 0, ?_, rfl⟩
          · rw [v2]; exact Heap.Seg.poke hc2 htl x d
          · rw [v2]; simp only [hdt, if_false]; exact hcd
    obtain ⟨h3, e1, e2, e3, e4, e5⟩ := key
    refine ⟨_, { S.set i (some (l ++ [(d, datum)])) with bytes := S.bytes + 16 }, _, e1, ?_, ?_⟩
    · simp only [Lists.Allowed, h0, if_false]
      exact ⟨l, d, hl, g6, g5, rfl⟩
    · refine Rep.update r hl _ _ rfl rfl e2 rfl rfl ?_ ?_ ?_ ?_ ?_
      · simp [State.set, r.bytes]
      · intro a h1 h2
        have : a ≠ d := by rintro rfl; exact g5 h1
        show h3.mem a = _
        rw [e4 a this h2]; exact g8 a this
      · intro l' h'
        cases h'
        exact ⟨_, rfl, e5, by rw [lastPos_snoc], by simp [l3]⟩
      · intro l' h' a h
        cases h'
        simp only [List.map_append, List.map_cons, List.map_nil, List.mem_append, List.mem_singleton] at h
        rcases h with h | h
        · exact Or.inl h
        · rw [h]; exact Or.inr g5
      · refine PoolRep.take r hl rfl ha rfl (g3.congr (fun a h => by show (h3.mem a).isSome = true; rw [e3]; exact h)) g4 ?_
        intro a
        simp only [List.map_append, List.map_cons, List.map_nil, List.mem_append, List.mem_singleton]
        exact Or.comm

theorem push_good {σ : State} {S : Lists} (r : Rep σ S) (i datum : Nat) : Good σ S (.push i datum) := by
  by_cases ha : S.alive = false
  · exact Or.inl (Or.inr ha)
  have ha : S.alive = true := by simpa using ha
  obtain ⟨h1, p1, d, held, g1, g2, g3, g4, g5, g6, g7, g8⟩ := memGet_ok r ha
  refine Good.handle (i := i) r rfl ?_ ?_
  · intro h0
    exact Or.inr (Or.inr (Or.inl ⟨by simp [step, lstPush, g1, Res.bind, State.check, h0], by simp [Lists.Allowed, Lists.on, h0]⟩))
  · intro l ob h0 hl hob hlay
    obtain ⟨l1, l2, l3⟩ := hlay
    obtain ⟨h2, w1, w2, w3, w4⟩ := write_mem (c := (datum, ob.head)) g7
    have hd : d ∉ pos l := fun h => g5 ⟨i, l, hl, h⟩
    have hc2 : Chain h2.mem ob.head l := l1.frame (fun a ha => by
      have : a ≠ d := by rintro rfl; exact hd ha
      rw [w2]; simp only [this, if_false]; exact g8 a this)
    refine Or.inr (Or.inl ⟨State.set
          { σ with heap := h2, mem := some p1, allocated := σ.allocated + 16 } i
          (some (LObj.mk d (if ob.tail = 0 then d else ob.tail) (ob.count + 1))),
        { S.set i (some ((d, datum) :: l)) with bytes := S.bytes + 16 }, 0, ?_, ?_, ?_⟩)
    · simp [step, lstPush, h0, g1, Res.bind, State.check, hob, w1]
    · simp only [Lists.Allowed, Lists.on, h0, if_false]
      exact ⟨l, hl, d, g6, g5, rfl⟩
    · refine Rep.update r hl _ _ rfl rfl (g2.write w1) rfl rfl ?_ ?_ ?_ ?_ ?_
      · simp [State.set, r.bytes]
      · intro a h1 h2'
        have : a ≠ d := by rintro rfl; exact g5 h1
        show h2.mem a = _
        rw [w2]; simp only [this, if_false]; exact g8 a this
      · intro l' h'
        cases h'
        refine ⟨_, rfl, ⟨rfl, g6, ob.head, ?_, hc2⟩, ?_, by simp [l3]⟩
        · show h2.mem d = _; rw [w2]; simp
        · rcases nil_or_snoc l with rfl | ⟨l', ⟨t, x⟩, rfl⟩
          · simp [l2, lastPos]
          · have : t ≠ 0 := by
              have := (Heap.Seg.live l1 t (by simp)).2; exact this
            rw [l2, lastPos_snoc]
            rw [← List.cons_append, lastPos_snoc]
            simp [this]
      · intro l' h' a h
        cases h'
        simp only [List.map_cons, List.mem_cons] at h
        rcases h with h | h
        · rw [h]; exact Or.inr g5
        · exact Or.inl h
      · refine PoolRep.take r hl rfl ha rfl (g3.congr (fun a h => by show (h2.mem a).isSome = true; rw [w4]; exact h)) g4 ?_
        intro a
        simp only [List.map_cons, List.mem_cons]

theorem good_abort {σ : State} {S : Lists} {o : LstOp} (h1 : step σ o = .abort) (h2 : S.Allowed .abort o) :
    Good σ S o := Or.inr (Or.inr (Or.inl ⟨h1, h2⟩))

theorem destroy_good {σ : State} {S : Lists} (r : Rep σ S) (i : Nat) : Good σ S (.destroy i) := by
  refine Good.handle (i := i) r rfl ?_ ?_
  · rintro rfl
    exact good_abort (by simp [step, lstDestroy, check_zero, Res.bind]) (by simp [Lists.Allowed, Lists.on])
  · intro l ob h0 hl hob hlay
    obtain ⟨m, e1, e2⟩ := freeTail (σ' := σ) (S' := S.set i none) r (keep := []) (rest := l) hl (by simp) none
      (by simp) rfl (fun _ h => h) hlay.1 (Heap.Chain.length_lt r.ok hlay.1) rfl rfl
    refine Or.inr (Or.inl ⟨State.set { σ with mem := m } i none, S.set i none, 0, ?_, ?_, ?_⟩)
    · simp [step, lstDestroy, check_some h0 hob, Res.bind, e1]
    · simp only [Lists.Allowed, Lists.on, h0, if_false]
      exact ⟨l, hl, trivial⟩
    · exact Rep.update r hl none none rfl rfl r.ok rfl rfl r.bytes (fun _ _ _ => rfl) (by simp) (by simp)
        (e2 _ rfl rfl)

theorem pop_good {σ : State} {S : Lists} (r : Rep σ S) (i : Nat) : Good σ S (.pop i) := by
  refine Good.handle (i := i) r rfl ?_ ?_
  · rintro rfl
    exact good_abort (by simp [step, lstPop, check_zero, Res.bind]) (by simp [Lists.Allowed, Lists.on])
  · intro l ob h0 hl hob hlay
    obtain ⟨l1, l2, l3⟩ := hlay
    cases l with
    | nil =>
      have hh : ob.head = 0 := l1
      refine Good.query r 0 ?_ ?_
      · simp [step, lstPop, check_some h0 hob, Res.bind, hh]
      · simp only [Lists.Allowed, Lists.on, h0, if_false]
        exact ⟨[], hl, by simp [set_self hl]⟩
    | cons c l =>
      obtain ⟨a, x⟩ := c
      have hnd := r.nodup hl
      obtain ⟨l4, h00, nx, h1, h2⟩ := l1
      obtain ⟨p, held, p1, p2, p3, p4⟩ := r.poolOf (a := a) ⟨i, _, hl, by simp⟩
      have hin : a ∈ held := (p4 a).2 ⟨i, _, hl, by simp⟩
      have hnd' : held.Nodup := (List.nodup_append.1 p3.nodup').2.1
      have p5 := Objects.freeObject_ok p3 hin
      refine Or.inr (Or.inl ⟨{ State.set σ i (some (LObj.mk nx (if nx = 0 then 0 else ob.tail) (ob.count - 1))) with
        mem := some (Objects.freeObject p a) }, S.set i (some l), x, ?_, ?_, ?_⟩)
      · simp [step, lstPop, check_some h0 hob, Res.bind, l4, h00, Heap.read_ok h1, memFree, State.set, p1]
      · simp only [Lists.Allowed, Lists.on, h0, if_false]
        exact ⟨_, hl, by simp⟩
      · simp only [List.map_cons, List.nodup_cons] at hnd
        refine Rep.update r hl _ (some l) rfl rfl r.ok rfl rfl r.bytes (fun _ _ _ => rfl) ?_ ?_ ?_
        · intro l' h'
          cases h'
          refine ⟨_, rfl, h2, ?_, by simp [l3]⟩
          simp only
          rcases nil_or_snoc l with rfl | ⟨l', ⟨t, y⟩, rfl⟩
          · have : nx = 0 := h2
            simp [this, lastPos]
          · have : nx ≠ 0 := fun h => by have := (Heap.Chain.zero h2).1 h; simp at this
            rw [if_neg this, l2, ← List.cons_append, lastPos_snoc, lastPos_snoc]
        · intro l' h' b hb
          cases h'
          exact Or.inl (by simp [hb])
        · refine Or.inr ⟨_, _, rfl, p2, p5, fun b => ?_⟩
          rw [inUse_set (S' := S.set i (some l)) r hl (some l) rfl, hnd'.mem_erase_iff, p4]
          simp only [Option.some.injEq, exists_eq_left', List.map_cons, List.mem_cons, not_or]
          constructor
          · rintro ⟨h3, h4⟩
            by_cases hb : b ∈ pos l
            · exact Or.inr hb
            · exact Or.inl ⟨h4, h3, hb⟩
          · rintro (⟨h3, h4, -⟩ | h3)
            · exact ⟨h4, h3⟩
            · exact ⟨by rintro rfl; exact hnd.1 h3, ⟨i, _, hl, by simp [h3]⟩⟩

theorem top_good {σ : State} {S : Lists} (r : Rep σ S) (i : Nat) : Good σ S (.top i) := by
  refine Good.handle (i := i) r rfl ?_ ?_
  · rintro rfl
    exact good_abort (by simp [step, lstTop, check_zero, Res.bind]) (by simp [Lists.Allowed, Lists.on])
  · intro l ob h0 hl hob hlay
    refine Good.query r ((l.head?.map Prod.snd).getD 0) ?_ ?_
    · cases l with
      | nil =>
        have hh : ob.head = 0 := hlay.1
        simp [step, lstTop, check_some h0 hob, Res.bind, hh]
      | cons c l =>
        obtain ⟨a, x⟩ := c
        obtain ⟨l4, h00, nx, h1, h2⟩ := hlay.1
        simp [step, lstTop, check_some h0 hob, Res.bind, l4, h00, Heap.read_ok h1]
    · simp only [Lists.Allowed, Lists.on, h0, if_false]
      exact ⟨_, hl, rfl⟩

theorem split_nth {β : Type} {l : List β} {n : Nat} (h1 : 1 ≤ n) (h2 : n ≤ l.length) :
    ∃ b x a, l = b ++ x :: a ∧ b.length = n - 1 ∧ l.drop (n - 1) = x :: a := by
  have hlt : n - 1 < l.length := by omega
  refine ⟨l.take (n - 1), l[n - 1], l.drop (n - 1 + 1), ?_, by simp; omega, by simp⟩
  rw [List.getElem_cons_drop, List.take_append_drop]

/-- the three search loops -/
theorem nth_found {σ : State} {ob : LObj} {l : List (Nat × Nat)} (hlay : Lay σ.heap ob l) {n : Nat}
    (hn : ¬ (n < 1 ∨ n > ob.count)) :
    ∃ b p x a, l = b ++ (p, x) :: a ∧ b.length = n - 1 ∧ nth l n = some (p, x) ∧
      nthLoop (n - 1) σ.heap ob.head = .ok (0, p) ∧ ∃ nx, σ.heap.mem p = some (x, nx) := by
  obtain ⟨l1, l2, l3⟩ := hlay
  rw [l3] at hn
  obtain ⟨b, ⟨p, x⟩, a, e1, e2, e3⟩ := split_nth (l := l) (n := n) (by omega) (by omega)
  refine ⟨b, p, x, a, e1, e2, ?_, ?_, ?_⟩
  · have : n ≠ 0 := by omega
    simp only [nth, this, if_false]
    rw [e1, ← e2]; simp
  · rw [nthLoop_ok _ _ l _ (by omega) l1, e3]; rfl
  · rw [e1] at l1
    obtain ⟨nx, c1, -⟩ := Heap.Seg.cell l1
    exact ⟨nx, c1⟩

theorem nth_none {σ : State} {ob : LObj} {l : List (Nat × Nat)} (hlay : Lay σ.heap ob l) {n : Nat}
    (hn : n < 1 ∨ n > ob.count) : nth l n = none := by
  rw [hlay.2.2] at hn
  simp only [nth]
  split
  · rfl
  · exact List.getElem?_eq_none (by omega)

theorem nthGet_good {σ : State} {S : Lists} (r : Rep σ S) (i n : Nat) : Good σ S (.nthGet i n) := by
  refine Good.handle (i := i) r rfl ?_ ?_
  · rintro rfl
    exact good_abort (by simp [step, lstNthGet, check_zero, Res.bind]) (by simp [Lists.Allowed, Lists.on])
  · intro l ob h0 hl hob hlay
    refine Good.query r (((nth l n).map Prod.snd).getD 0) ?_ ?_
    · by_cases hn : n < 1 ∨ n > ob.count
      · rw [nth_none hlay hn]
        simp only [step, lstNthGet, check_some h0 hob, Res.bind, if_pos hn]; rfl
      · obtain ⟨b, p, x, a, e1, e2, e3, e4, nx, e5⟩ := nth_found hlay hn
        rw [e3]
        simp only [step, lstNthGet, check_some h0 hob, Res.bind, if_neg hn, e4, ne_eq, not_true_eq_false, if_false,
          Heap.read_ok e5]; rfl
    · simp only [Lists.Allowed, Lists.on, h0, if_false]
      exact ⟨_, hl, rfl⟩

theorem nthPosition_good {σ : State} {S : Lists} (r : Rep σ S) (i n : Nat) : Good σ S (.nthPosition i n) := by
  refine Good.handle (i := i) r rfl ?_ ?_
  · rintro rfl
    exact good_abort (by simp [step, lstNthPosition, check_zero, Res.bind]) (by simp [Lists.Allowed, Lists.on])
  · intro l ob h0 hl hob hlay
    refine Good.query r (((nth l n).map Prod.fst).getD 0) ?_ ?_
    · by_cases hn : n < 1 ∨ n > ob.count
      · rw [nth_none hlay hn]
        simp only [step, lstNthPosition, check_some h0 hob, Res.bind, if_pos hn]; rfl
      · obtain ⟨b, p, x, a, e1, e2, e3, e4, nx, e5⟩ := nth_found hlay hn
        rw [e3]
        simp only [step, lstNthPosition, check_some h0 hob, Res.bind, if_neg hn, e4, ne_eq, not_true_eq_false, if_false]; rfl
    · simp only [Lists.Allowed, Lists.on, h0, if_false]
      exact ⟨_, hl, rfl⟩

/-- writing the datum of an element -/
theorem poke_rep {σ : State} {S : Lists} (r : Rep σ S) {i p x e nx : Nat} {b a : List (Nat × Nat)}
    (hl : S.lists i = some (b ++ (p, x) :: a)) (hm : σ.heap.mem p = some (x, nx)) :
    ∃ h', σ.heap.write p (e, nx) = .ok h' ∧ Rep { σ with heap := h' } (S.set i (some (b ++ (p, e) :: a))) := by
  obtain ⟨h', w1, w2, w3, w4⟩ := write_mem (h := σ.heap) (p := p) (c := (e, nx)) (by rw [hm]; rfl)
  obtain ⟨ob, hob, l1, l2, l3⟩ := r.list i _ hl
  have hnd := r.nodup hl
  simp only [List.map_append, List.map_cons, List.nodup_append, List.nodup_cons, List.mem_cons] at hnd
  have hpb : p ∉ pos b := fun h => hnd.2.2 p h p (Or.inl rfl) rfl
  refine ⟨h', w1, Rep.update r hl (some ob) _ ?_ rfl (r.ok.write w1) rfl rfl r.bytes ?_ ?_ ?_ ?_⟩
  · funext j
    by_cases hj : j = i
    · simp only [hj, if_true]; exact hob
    · simp [hj]
  · intro c h1 h2
    have : c ≠ p := by rintro rfl; exact h2 (by simp)
    show h'.mem c = _
    rw [w2]; simp [this]
  · intro l' h'
    cases h'
    refine ⟨ob, rfl, ?_, ?_, by simpa using l3⟩
    · obtain ⟨n, c1, c2, c3, c4⟩ := Heap.Seg.cell l1
      rw [hm] at c1
      simp only [Option.some.injEq, Prod.mk.injEq, true_and] at c1
      subst c1
      have h5 := Heap.Seg.poke l1 hpb e nx
      have h6 : Seg (fun c => if c = p then some (e, nx) else σ.heap.mem c) nx a 0 := c2.frame (fun c hc => by
        have : c ≠ p := by rintro rfl; exact hnd.2.1.1 hc
        simp [this])
      have h7 := h5.append h6
      rw [List.append_assoc, List.singleton_append] at h7
      show Seg h'.mem _ _ _
      rw [w2]; exact h7
    · rw [l2]
      rcases nil_or_snoc a with rfl | ⟨a', t, rfl⟩
      · rw [lastPos_snoc, lastPos_snoc]
      · rw [← List.cons_append, ← List.append_assoc, lastPos_snoc, ← List.cons_append, ← List.append_assoc, lastPos_snoc]
  · intro l' h' c hc
    cases h'
    exact Or.inl (by simpa using hc)
  · refine PoolRep.empty r.pool rfl rfl (fun c h => by show (h'.mem c).isSome = true; rw [w4]; exact h) ?_
    intro c
    rw [inUse_set (S' := S.set i (some (b ++ (p, e) :: a))) r hl _ rfl]
    simp only [Option.some.injEq, exists_eq_left']
    have hsame : pos (b ++ (p, e) :: a) = pos (b ++ (p, x) :: a) := by simp
    rw [hsame]
    constructor
    · rintro (h | h)
      · exact h.1
      · exact ⟨i, _, hl, h⟩
    · intro h
      by_cases hc : c ∈ pos (b ++ (p, x) :: a)
      · exact Or.inr hc
      · exact Or.inl ⟨h, hc⟩

theorem nthSet_good {σ : State} {S : Lists} (r : Rep σ S) (i n e : Nat) : Good σ S (.nthSet i n e) := by
  refine Good.handle (i := i) r rfl ?_ ?_
  · rintro rfl
    exact good_abort (by simp [step, lstNthSet, check_zero, Res.bind]) (by simp [Lists.Allowed, Lists.on])
  · intro l ob h0 hl hob hlay
    by_cases hn : n < 1 ∨ n > ob.count
    · refine Or.inr (Or.inr (Or.inr ⟨?_, ?_⟩))
      · simp only [step, lstNthSet, check_some h0 hob, Res.bind, if_pos hn]
      · simp only [Lists.Allowed, Lists.on, h0, if_false]
        exact ⟨l, hl, by rw [nth_none hlay hn]; trivial⟩
    · obtain ⟨b, p, x, a, e1, e2, e3, e4, nx, e5⟩ := nth_found hlay hn
      obtain ⟨h', w1, w2⟩ := poke_rep r (e := e) (by rw [hl, e1]) e5
      refine Or.inr (Or.inl ⟨_, _, 0, ?_, ?_, w2⟩)
      · simp only [step, lstNthSet, check_some h0 hob, Res.bind, if_neg hn, e4, ne_eq, not_true_eq_false, if_false,
          Heap.read_ok e5, w1]
      · simp only [Lists.Allowed, Lists.on, h0, if_false]
        refine ⟨l, hl, ?_⟩
        rw [e3]
        simp only
        rw [e1, ← e2]; simp

theorem member_good {σ : State} {S : Lists} (r : Rep σ S) (i d : Nat) : Good σ S (.member i d) := by
  refine Good.handle (i := i) r rfl ?_ ?_
  · rintro rfl
    exact good_abort (by simp [step, lstMember, check_zero, Res.bind]) (by simp [Lists.Allowed, Lists.on])
  · intro l ob h0 hl hob hlay
    refine Good.query r (if d ∈ l.map Prod.snd then 1 else 0) ?_ ?_
    · simp only [step, lstMember, check_some h0 hob, Res.bind]
      rw [memberLoop_ok _ _ l _ _ (Heap.Chain.length_lt r.ok hlay.1) hlay.1]
    · simp only [Lists.Allowed, Lists.on, h0, if_false]
      exact ⟨_, hl, rfl⟩

theorem length_good {σ : State} {S : Lists} (r : Rep σ S) (i : Nat) : Good σ S (.length i) := by
  refine Good.handle (i := i) r rfl ?_ ?_
  · rintro rfl
    exact good_abort (by simp [step, lstLength, check_zero, Res.bind]) (by simp [Lists.Allowed, Lists.on])
  · intro l ob h0 hl hob hlay
    refine Good.query r l.length ?_ ?_
    · simp [step, lstLength, check_some h0 hob, Res.bind, hlay.2.2]
    · simp only [Lists.Allowed, Lists.on, h0, if_false]
      exact ⟨_, hl, rfl⟩

theorem initPosition_good {σ : State} {S : Lists} (r : Rep σ S) (i : Nat) : Good σ S (.initPosition i) := by
  refine Good.handle (i := i) r rfl ?_ ?_
  · rintro rfl
    exact good_abort (by simp [step, lstInitPosition, check_zero, Res.bind]) (by simp [Lists.Allowed, Lists.on])
  · intro l ob h0 hl hob hlay
    refine Good.query r (firstPos l) ?_ ?_
    · simp [step, lstInitPosition, check_some h0 hob, Res.bind, firstPos_chain hlay.1]
    · simp only [Lists.Allowed, Lists.on, h0, if_false]
      exact ⟨_, hl, rfl⟩

theorem lastPosition_good {σ : State} {S : Lists} (r : Rep σ S) (i : Nat) : Good σ S (.lastPosition i) := by
  refine Good.handle (i := i) r rfl ?_ ?_
  · rintro rfl
    exact good_abort (by simp [step, lstLastPosition, check_zero, Res.bind]) (by simp [Lists.Allowed, Lists.on])
  · intro l ob h0 hl hob hlay
    refine Good.query r (lastPos l) ?_ ?_
    · simp [step, lstLastPosition, check_some h0 hob, Res.bind, hlay.2.1]
    · simp only [Lists.Allowed, Lists.on, h0, if_false]
      exact ⟨_, hl, rfl⟩

/-- a position in use -/
theorem Rep.at {σ : State} {S : Lists} (r : Rep σ S) {p : Nat} (h : S.InUse p) :
    ∃ i b x a nx, S.lists i = some (b ++ (p, x) :: a) ∧ σ.heap.mem p = some (x, nx) ∧ nx = firstPos a := by
  obtain ⟨i, l, h1, h2⟩ := h
  obtain ⟨⟨p', x⟩, h3, h4⟩ := List.mem_map.1 h2
  simp only at h4
  subst h4
  obtain ⟨b, a, rfl⟩ := List.append_of_mem h3
  obtain ⟨ob, hob, l1, l2, l3⟩ := r.list i _ h1
  obtain ⟨n, c1, c2, c3, c4⟩ := Heap.Seg.cell l1
  exact ⟨i, b, x, a, n, h1, c1, firstPos_chain c2⟩

theorem nextPosition_good {σ : State} {S : Lists} (r : Rep σ S) (p : Nat) : Good σ S (.nextPosition p) := by
  by_cases h0 : p = 0
  · exact Good.query r 0 (by simp [step, lstNextPosition, h0, Res.bind]) (by simp [Lists.Allowed, h0])
  by_cases hu : S.InUse p
  · obtain ⟨i, b, x, a, nx, h1, h2, h3⟩ := r.at hu
    refine Good.query r nx (by simp [step, lstNextPosition, h0, Res.bind, Heap.read_ok h2]) ?_
    simp only [Lists.Allowed, h0, if_false]
    exact ⟨i, b, x, a, h1, by rw [h3]⟩
  · exact Or.inl (Or.inr ⟨h0, hu⟩)

theorem getPosition_good {σ : State} {S : Lists} (r : Rep σ S) (p : Nat) : Good σ S (.getPosition p) := by
  by_cases h0 : p = 0
  · exact Good.query r 0 (by simp [step, lstGetPosition, h0, Res.bind]) (by simp [Lists.Allowed, h0])
  by_cases hu : S.InUse p
  · obtain ⟨i, b, x, a, nx, h1, h2, h3⟩ := r.at hu
    refine Good.query r x (by simp [step, lstGetPosition, h0, Res.bind, Heap.read_ok h2]) ?_
    simp only [Lists.Allowed, h0, if_false]
    exact ⟨i, b, x, a, h1, rfl⟩
  · exact Or.inl (Or.inr ⟨h0, hu⟩)

theorem setPosition_good {σ : State} {S : Lists} (r : Rep σ S) (p e : Nat) : Good σ S (.setPosition p e) := by
  by_cases h0 : p = 0
  · exact Good.query r 0 (by simp [step, lstSetPosition, h0, Res.bind]) (by simp [Lists.Allowed, h0])
  by_cases hu : S.InUse p
  · obtain ⟨i, b, x, a, nx, h1, h2, h3⟩ := r.at hu
    obtain ⟨h', w1, w2⟩ := poke_rep r (e := e) h1 h2
    refine Or.inr (Or.inl ⟨_, _, 0, ?_, ?_, w2⟩)
    · simp [step, lstSetPosition, h0, Res.bind, Heap.read_ok h2, w1]
    · simp only [Lists.Allowed, h0, if_false]
      exact ⟨i, b, x, a, h1, rfl⟩
  · exact Or.inl (Or.inr ⟨h0, hu⟩)

/-- cutting a list after an element: the common part of the two truncating functions -/
theorem cut_rep {σ : State} {S : Lists} (r : Rep σ S) {i p x : Nat} {ob : LObj} {b a : List (Nat × Nat)}
    (hl : S.lists i = some (b ++ (p, x) :: a)) (hob : σ.lists i = some ob) :
    ∃ nx h' m, σ.heap.mem p = some (x, nx) ∧ σ.heap.write p (x, 0) = .ok h' ∧
      freeRest σ.heap.clock ({ σ with heap := h' }.set i (some { ob with tail := p })) nx =
        .ok ({ { σ with heap := h' }.set i (some { ob with tail := p }) with mem := m }, a.length) ∧
      Rep ({ { σ with heap := h' }.set i (some { ob with tail := p }) with mem := m }.set i
        (some (LObj.mk ob.head p (ob.count - a.length)))) (S.set i (some (b ++ [(p, x)]))) := by
  obtain ⟨ob', hob', l1, l2, l3⟩ := r.list i _ hl
  rw [hob] at hob'
  cases hob'
  obtain ⟨nx, c1, c2, c3, c4⟩ := Heap.Seg.cell l1
  obtain ⟨h', w1, w2, w3, w4⟩ := write_mem (h := σ.heap) (p := p) (c := (x, 0)) (by rw [c1]; rfl)
  have hnd := r.nodup hl
  simp only [List.map_append, List.map_cons, List.nodup_append, List.nodup_cons, List.mem_cons] at hnd
  have hpb : p ∉ pos b := fun h => hnd.2.2 p h p (Or.inl rfl) rfl
  have hca : Chain h'.mem nx a := c2.frame (fun c hc => by
    have : c ≠ p := by rintro rfl; exact hnd.2.1.1 hc
    rw [w2]; simp [this])
  have hcb : Chain h'.mem ob.head (b ++ [(p, x)]) := by rw [w2]; exact Heap.Seg.poke l1 hpb x 0
  obtain ⟨m, e1, e2⟩ := freeTail (σ' := { σ with heap := h' }.set i (some { ob with tail := p }))
    (S' := S.set i (some (b ++ [(p, x)]))) r (keep := b ++ [(p, x)]) (rest := a) hl
    (by simp) (some (b ++ [(p, x)])) (fun c => by simp only [Option.some.injEq, exists_eq_left']) rfl (fun c h => by show (h'.mem c).isSome = true; rw [w4]; exact h) hca
    (n := σ.heap.clock) (by have := Heap.Chain.length_lt (r.ok.write w1) hca; rw [← w3]; exact this) rfl rfl
  refine ⟨nx, h', m, c1, w1, e1, ?_⟩
  refine Rep.update r hl (some (LObj.mk ob.head p (ob.count - a.length))) _ ?_ rfl (r.ok.write w1) rfl rfl r.bytes ?_ ?_ ?_ (e2 _ rfl rfl)
  · funext j
    by_cases hj : j = i <;> simp [State.set, hj]
  · intro c h1 h2
    have : c ≠ p := by rintro rfl; exact h2 (by simp)
    show h'.mem c = _
    rw [w2]; simp [this]
  · intro l' h'
    cases h'
    refine ⟨_, rfl, hcb, by rw [lastPos_snoc], ?_⟩
    simp only [List.length_append, List.length_cons, List.length_nil] at l3 ⊢
    omega
  · intro l' h' c hc
    cases h'
    refine Or.inl ?_
    simp only [List.map_append, List.map_cons, List.map_nil, List.mem_append, List.mem_cons, List.not_mem_nil, or_false] at hc ⊢
    tauto

theorem clear_rep {σ : State} {S : Lists} (r : Rep σ S) {i : Nat} {ob : LObj} {l : List (Nat × Nat)}
    (hl : S.lists i = some l) (hob : σ.lists i = some ob) :
    ∃ m, freeRest σ.heap.clock (σ.set i (some { ob with head := 0, tail := 0 })) ob.head =
        .ok ({ σ.set i (some { ob with head := 0, tail := 0 }) with mem := m }, l.length) ∧
      Rep ({ σ.set i (some { ob with head := 0, tail := 0 }) with mem := m }.set i
        (some (LObj.mk 0 0 (ob.count - l.length)))) (S.set i (some [])) := by
  obtain ⟨ob', hob', l1, l2, l3⟩ := r.list i _ hl
  rw [hob] at hob'
  cases hob'
  obtain ⟨m, e1, e2⟩ := freeTail (σ' := σ.set i (some { ob with head := 0, tail := 0 })) (S' := S.set i (some [])) r
    (keep := []) (rest := l) hl (by simp) (some []) (by simp) rfl (fun _ h => h) l1
    (Heap.Chain.length_lt r.ok l1) rfl rfl
  refine ⟨m, e1, ?_⟩
  refine Rep.update r hl (some (LObj.mk 0 0 (ob.count - l.length))) _ ?_ rfl r.ok rfl rfl r.bytes (fun _ _ _ => rfl) ?_ ?_ (e2 _ rfl rfl)
  · funext j
    by_cases hj : j = i <;> simp [State.set, hj]
  · intro l' h'
    cases h'
    exact ⟨_, rfl, rfl, rfl, by simp [l3]⟩
  · intro l' h' c hc
    cases h'
    simp at hc

theorem truncatePosition_good {σ : State} {S : Lists} (r : Rep σ S) (i p : Nat) : Good σ S (.truncatePosition i p) := by
  refine Good.handle (i := i) r rfl ?_ ?_
  · rintro rfl
    exact good_abort (by simp [step, lstTruncatePosition, check_zero, Res.bind]) (by simp [Lists.Allowed, Lists.on])
  · intro l ob h0 hl hob hlay
    by_cases hp : p = 0
    · obtain ⟨m, e1, e2⟩ := clear_rep r hl hob
      refine Or.inr (Or.inl ⟨_, _, 0, ?_, ?_, e2⟩)
      · simp only [step, lstTruncatePosition, check_some h0 hob, Res.bind, if_pos hp, e1]
      · simp only [Lists.Allowed, Lists.on, h0, if_false, hp, if_true]
        exact ⟨l, hl, trivial⟩
    by_cases hu : S.InList i p
    · obtain ⟨l', h1, h2⟩ := hu
      rw [hl] at h1; cases h1
      obtain ⟨⟨p', x⟩, h3, h4⟩ := List.mem_map.1 h2
      simp only at h4
      subst h4
      obtain ⟨b, a, rfl⟩ := List.append_of_mem h3
      obtain ⟨nx, h', m, e1, e2, e3, e4⟩ := cut_rep r hl hob
      refine Or.inr (Or.inl ⟨_, _, 0, ?_, ?_, e4⟩)
      · simp only [step, lstTruncatePosition, check_some h0 hob, Res.bind, if_neg hp, Heap.read_ok e1, e2, e3]
      · simp only [Lists.Allowed, Lists.on, h0, if_false, hp]
        exact ⟨_, hl, b, x, a, rfl, rfl⟩
    · exact Or.inl (Or.inr ⟨h0, hp, hu⟩)

/-- `lst_truncate` is right when it need not walk or when there is nothing to do -/
theorem truncate_good {σ : State} {S : Lists} (r : Rep σ S) (i n : Nat)
    (hn : n ≤ 1 ∨ ∀ l, S.lists i = some l → l.length ≤ n) : Good σ S (.truncate i n) := by
  refine Good.handle (i := i) r rfl ?_ ?_
  · rintro rfl
    exact good_abort (by simp [step, lstTruncate, check_zero, Res.bind]) (by simp [Lists.Allowed, Lists.on])
  · intro l ob h0 hl hob hlay
    by_cases hle : ob.count ≤ n
    · refine Good.query r 0 ?_ ?_
      · simp [step, lstTruncate, check_some h0 hob, Res.bind, hle]
      · simp only [Lists.Allowed, Lists.on, h0, if_false]
        refine ⟨l, hl, ?_⟩
        rw [List.take_of_length_le (by rw [← hlay.2.2]; exact hle), set_self hl]
    · have hn1 : n ≤ 1 := by
        rcases hn with h | h
        · exact h
        · have := h l hl; rw [hlay.2.2] at hle; omega
      by_cases hz : n = 0
      · subst hz
        obtain ⟨m, e1, e2⟩ := clear_rep r hl hob
        refine Or.inr (Or.inl ⟨_, _, 0, ?_, ?_, e2⟩)
        · simp only [step, lstTruncate, check_some h0 hob, Res.bind, if_neg hle, if_true, e1]
          simp [hlay.2.2]
        · simp only [Lists.Allowed, Lists.on, h0, if_false]
          exact ⟨l, hl, rfl⟩
      · have hn : n = 1 := by omega
        subst hn
        cases l with
        | nil => have := hlay.2.2; simp at this; omega
        | cons c a =>
          obtain ⟨p, x⟩ := c
          have hhd : ob.head = p := hlay.1.1
          subst hhd
          obtain ⟨nx, h', m, e1, e2, e3, e4⟩ := cut_rep r (b := []) hl hob
          refine Or.inr (Or.inl ⟨_, _, 0, ?_, ?_, e4⟩)
          · simp only [step, lstTruncate, check_some h0 hob, Res.bind, if_neg hle, hz, if_false]
            rw [truncLoop_stop _ _ _ _ (by omega) r.ok.pos]
            simp only [Heap.read_ok e1, e2, e3]
            have := hlay.2.2
            simp only [List.length_cons] at this
            rw [if_neg (by omega)]
          · simp only [Lists.Allowed, Lists.on, h0, if_false]
            exact ⟨_, hl, by simp⟩

/-- otherwise it dereferences NULL -/
theorem truncate_bad {σ : State} {S : Lists} (r : Rep σ S) {i n : Nat} {l : List (Nat × Nat)} (h0 : i ≠ 0)
    (hl : S.lists i = some l) (h1 : 1 < n) (h2 : n < l.length) : step σ (.truncate i n) = .ub := by
  obtain ⟨ob, hob, l1, l2, l3⟩ := r.list i l hl
  have hle : ¬ ob.count ≤ n := by omega
  have hz : n ≠ 0 := by omega
  simp only [step, lstTruncate, check_some h0 hob, Res.bind, if_neg hle, hz, if_false]
  rw [truncLoop_walk _ _ h1 l _ _ (Heap.Chain.length_lt r.ok l1) l1]
  simp [Heap.read_null r.ok]

theorem shutdown_good {σ : State} {S : Lists} (r : Rep σ S) : Good σ S .shutdown := by
  have hempty : ∀ a, ¬ Lists.InUse { S with alive := false, lists := fun j => if S.lists j = some [] then some [] else none } a := by
    rintro a ⟨j, l, h1, h2⟩
    simp only at h1
    split at h1
    · cases h1; simp at h2
    · simp at h1
  have hall : ∀ (σ' : State), σ'.heap.Ok → σ'.next = σ.next → σ'.allocated = σ.allocated → σ'.lists = σ.lists → σ'.mem = none →
      Rep σ' { S with alive := false, lists := fun j => if S.lists j = some [] then some [] else none } := by
    intro σ' e1 e2 e3 e4 e5
    refine ⟨e1, e2.trans r.next, r.npos, e3.trans r.bytes, ?_, ?_, Or.inl ⟨e5, rfl, hempty⟩, ?_, by simp only; rw [r.null]; simp⟩
    · intro j l hj
      simp only at hj
      split at hj
      · rename_i hs
        cases hj
        obtain ⟨ob, hob, l1, l2, l3⟩ := r.list j [] hs
        exact ⟨ob, by rw [e4]; exact hob, l1, l2, l3⟩
      · simp at hj
    · intro j k l l' _ hj hk a ha
      exact absurd ⟨j, l, hj, ha⟩ (hempty a)
    · intro j hj
      simp only
      rw [r.old j hj]; simp
  refine Or.inr (Or.inl ?_)
  rcases r.pool with ⟨h1, h2, h3⟩ | ⟨p, held, h1, h2, h3, h4⟩
  · exact ⟨σ, _, 0, by simp [step, lstShutdown, h1, Res.bind], rfl, hall σ r.ok rfl rfl rfl h1⟩
  · obtain ⟨h', d1, d2, d3⟩ := Objects.destroyLoop_ok p.allocated (h := σ.heap) h3.nodup (fun a ha => (h3.live a ha).1)
    refine ⟨{ σ with heap := h', mem := none }, _, 0, by simp [step, lstShutdown, h1, Objects.destroy, d1, Res.bind], rfl,
      hall _ (r.ok.of d2.2 (by rw [d2.1]; exact Nat.le_refl _) fun a ha => ?_) rfl rfl rfl rfl⟩
    simp only [d3] at ha
    split at ha
    · simp at ha
    · exact ha

/-- the histories in which `lst_truncate` works: it is used with lengths 0 and 1 only -/
def TruncateOk : LstOp → Prop
  | .truncate _ n => n ≤ 1
  | _ => True

theorem step_good {σ : State} {S : Lists} (r : Rep σ S) (o : LstOp) (ho : TruncateOk o) : Good σ S o := by
  cases o with
  | create => exact create_good r
  | destroy i => exact destroy_good r i
  | append i d => exact append_good r i d
  | push i d => exact push_good r i d
  | pop i => exact pop_good r i
  | top i => exact top_good r i
  | nthGet i n => exact nthGet_good r i n
  | nthSet i n d => exact nthSet_good r i n d
  | member i d => exact member_good r i d
  | length i => exact length_good r i
  | truncate i n => exact truncate_good r i n (Or.inl ho)
  | truncatePosition i p => exact truncatePosition_good r i p
  | initPosition i => exact initPosition_good r i
  | lastPosition i => exact lastPosition_good r i
  | nextPosition p => exact nextPosition_good r p
  | nthPosition i n => exact nthPosition_good r i n
  | getPosition p => exact getPosition_good r p
  | setPosition p d => exact setPosition_good r p d
  | totalAllocated => exact Good.query r S.bytes (by simp [step, lstTotalAllocated, r.bytes]) rfl
  | shutdown => exact shutdown_good r

theorem init_rep {place : Policy} (hp : Heap.Allocator place) : Rep (State.init place) Lists.empty :=
  ⟨Heap.Ok.init hp, rfl, by decide, rfl, fun i l h => by simp [Lists.empty] at h, fun i j l l' _ h => by simp [Lists.empty] at h,
    Or.inl ⟨rfl, rfl, fun a ⟨i, l, h, _⟩ => by simp [Lists.empty] at h⟩, fun _ _ => rfl, rfl⟩

/-- Whole histories, from any represented state; also gives the final state. -/
theorem run_good (hist : List LstOp) : ∀ {σ : State} {S : Lists}, Rep σ S → (∀ o ∈ hist, TruncateOk o) →
    ∃ T, Lists.Runs S hist (Spec.observe (Spec.run step σ hist)) T ∧
      ∀ S', T = some S' → ∃ σ' xs, Spec.run step σ hist = .ok (σ', xs) ∧ Rep σ' S' := by
  induction hist with
  | nil =>
    intro σ S r _
    exact ⟨some S, .done S, fun S' h => ⟨σ, [], rfl, by cases h; exact r⟩⟩
  | cons o os ih =>
    intro σ S r ho
    rcases step_good r o (ho o (by simp)) with h | ⟨σ', S', x, h1, h2, h3⟩ | ⟨h1, h2⟩ | ⟨h1, h2⟩
    · exact ⟨none, .undefined S o os _ h, by simp⟩
    · obtain ⟨T, i1, i2⟩ := ih h3 (fun o h => ho o (by simp [h]))
      refine ⟨T, ?_, ?_⟩
      · have := Lists.Runs.returns S S' o os x _ T h2 i1
        have e : Spec.observe (Spec.run step σ (o :: os)) =
            (Spec.observe (Spec.run step σ' os)).bind fun xs => .ok (x :: xs) := by
          simp only [Spec.run, h1, Res.bind, Spec.observe]
          cases Spec.run step σ' os <;> rfl
        rw [e]; exact this
      · intro S'' hS
        obtain ⟨σ'', xs, j1, j2⟩ := i2 S'' hS
        exact ⟨σ'', x :: xs, by simp [Spec.run, h1, Res.bind, j1], j2⟩
    · refine ⟨none, ?_, by simp⟩
      have e : Spec.observe (Spec.run step σ (o :: os)) = .abort := by
        simp only [Spec.run, h1, Res.bind, Spec.observe]
      rw [e]; exact .aborts S o os h2
    · refine ⟨none, ?_, by simp⟩
      have e : Spec.observe (Spec.run step σ (o :: os)) = .fatal := by
        simp only [Spec.run, h1, Res.bind, Spec.observe]
      rw [e]; exact .exits S o os h2

end Maa.Lst
