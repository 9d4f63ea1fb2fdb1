import Verif.Model.Heap
import Mathlib.Data.List.Nodup
import Mathlib.Data.List.Perm.Subperm
import Mathlib.Tactic.Common

namespace Maa.Heap
variable {α : Type}

/-- `Seg m p l q`: starting at `p` and following `next` pointers one meets the cells `l` (address and
payload) and arrives at `q`. -/
def Seg (m : Nat → Option (α × Nat)) : Nat → List (Nat × α) → Nat → Prop
  | p, [], q => p = q
  | p, (a, x) :: l, q => p = a ∧ a ≠ 0 ∧ ∃ n, m a = some (x, n) ∧ Seg m n l q

/-- A NULL-terminated chain. -/
abbrev Chain (m : Nat → Option (α × Nat)) (p : Nat) (l : List (Nat × α)) : Prop := Seg m p l 0

theorem Seg.append {m : Nat → Option (α × Nat)} {p q r : Nat} {l l' : List (Nat × α)}
    (h : Seg m p l q) (h' : Seg m q l' r) : Seg m p (l ++ l') r := by
  induction l generalizing p with
  | nil => cases h; exact h'
  | cons c l ih =>
    obtain ⟨h1, h2, n, h3, h4⟩ := h
    exact ⟨h1, h2, n, h3, ih h4⟩

theorem Seg.split {m : Nat → Option (α × Nat)} {p r : Nat} {l l' : List (Nat × α)}
    (h : Seg m p (l ++ l') r) : ∃ q, Seg m p l q ∧ Seg m q l' r := by
  induction l generalizing p with
  | nil => exact ⟨p, rfl, h⟩
  | cons c l ih =>
    obtain ⟨h1, h2, n, h3, h4⟩ := h
    obtain ⟨q, h5, h6⟩ := ih h4
    exact ⟨q, ⟨h1, h2, n, h3, h5⟩, h6⟩

/-- only the cells of the segment matter -/
theorem Seg.frame {m m' : Nat → Option (α × Nat)} {p q : Nat} {l : List (Nat × α)}
    (h : Seg m p l q) (hf : ∀ a ∈ l.map Prod.fst, m' a = m a) : Seg m' p l q := by
  induction l generalizing p with
  | nil => exact h
  | cons c l ih =>
    obtain ⟨h1, h2, n, h3, h4⟩ := h
    exact ⟨h1, h2, n, by rw [hf c.1 (by simp), h3], ih h4 (fun a ha => hf a (by simp at ha ⊢; exact Or.inr ha))⟩

theorem Seg.live {m : Nat → Option (α × Nat)} {p q : Nat} {l : List (Nat × α)}
    (h : Seg m p l q) : ∀ a ∈ l.map Prod.fst, (m a).isSome ∧ a ≠ 0 := by
  induction l generalizing p with
  | nil => simp
  | cons c l ih =>
    obtain ⟨h1, h2, n, h3, h4⟩ := h
    intro a ha
    simp only [List.map_cons, List.mem_cons] at ha
    rcases ha with rfl | ha
    · exact ⟨by rw [h3]; rfl, h2⟩
    · exact ih h4 a ha

theorem Chain.zero {m : Nat → Option (α × Nat)} {p : Nat} {l : List (Nat × α)}
    (h : Chain m p l) : p = 0 ↔ l = [] := by
  cases l with
  | nil => exact ⟨fun _ => rfl, fun _ => h⟩
  | cons c l =>
    obtain ⟨h1, h2, -⟩ := h
    constructor
    · intro hp; exact absurd (h1.symm.trans hp) h2
    · intro hc; simp at hc

/-- a chain is determined by its head -/
theorem Chain.unique {m : Nat → Option (α × Nat)} {p : Nat} {l l' : List (Nat × α)}
    (h : Chain m p l) (h' : Chain m p l') : l = l' := by
  induction l generalizing p l' with
  | nil => exact ((h'.zero).1 h).symm
  | cons c l ih =>
    cases l' with
    | nil => exact absurd (h.zero.1 h') (by simp)
    | cons c' l' =>
      obtain ⟨h1, h2, n, h3, h4⟩ := h
      obtain ⟨h1', h2', n', h3', h4'⟩ := h'
      have ha : c.1 = c'.1 := h1.symm.trans h1'
      rw [ha, h3'] at h3
      simp only [Option.some.injEq, Prod.mk.injEq] at h3
      rw [h3.2] at h4'
      rw [ih h4 h4', Prod.ext ha h3.1.symm]

/-- a chain never visits an address twice -/
theorem Chain.nodup {m : Nat → Option (α × Nat)} {p : Nat} {l : List (Nat × α)}
    (h : Chain m p l) : (l.map Prod.fst).Nodup := by
  induction l generalizing p with
  | nil => simp
  | cons c l ih =>
    have h0 := h
    obtain ⟨h1, h2, n, h3, h4⟩ := h
    simp only [List.map_cons, List.nodup_cons]
    refine ⟨?_, ih h4⟩
    intro hm
    obtain ⟨c', hc', he⟩ := List.mem_map.1 hm
    obtain ⟨s, t, rfl⟩ := List.append_of_mem hc'
    obtain ⟨q, -, h6⟩ := Seg.split h4
    have hq : q = c.1 := by rw [h6.1, ← he]
    rw [hq, ← h1] at h6
    have := Chain.unique h0 h6
    have hl := congrArg List.length this
    simp at hl
    omega

theorem read_ok {h : Heap α} {p : Nat} {c : α × Nat} (hm : h.mem p = some c) : h.read p = .ok c := by
  simp [read, hm]

theorem write_ok {h : Heap α} {p : Nat} {c c' : α × Nat} (hm : h.mem p = some c) :
    h.write p c' = .ok { h with mem := fun a => if a = p then some c' else h.mem a } := by
  simp [write, hm]

theorem free_ok {h : Heap α} {p : Nat} {c : α × Nat} (hm : h.mem p = some c) :
    h.free p = .ok { h with mem := fun a => if a = p then none else h.mem a } := by
  simp [free, hm]

/-! ## allocators -/

theorem neverAgain_spec (f : Nat → Bool) : ∀ t, (neverAgain t f = 0 ∧ ∀ a, 0 < a → a ≤ t → f a = true) ∨
    (neverAgain t f ≠ 0 ∧ f (neverAgain t f) = false)
  | 0 => Or.inl ⟨rfl, fun a h1 h2 => by omega⟩
  | t + 1 => by
    unfold neverAgain
    cases hf : f (t + 1)
    · exact Or.inr ⟨by simp, by simp [hf]⟩
    · rw [if_pos rfl]
      rcases neverAgain_spec f t with ⟨h1, h2⟩ | h
      · refine Or.inl ⟨h1, fun a h3 h4 => ?_⟩
        by_cases ha : a = t + 1
        · rw [ha]; exact hf
        · exact h2 a h3 (by omega)
      · exact Or.inr h

/-- fewer than `t` addresses cannot cover the addresses `1, ..., t` -/
theorem room {f : Nat → Bool} {t : Nat} {l : List Nat} (h : ∀ a, f a = true → a ∈ l) (hl : l.length < t) :
    ¬ ∀ a, 0 < a → a ≤ t → f a = true := by
  intro hall
  have h1 : ((List.range t).map (· + 1)).Nodup :=
    List.nodup_range.map (fun a b h => by simpa using h)
  have h2 := (List.subperm_of_subset h1 (l₂ := l) (by
    intro a ha
    obtain ⟨b, hb, rfl⟩ := List.mem_map.1 ha
    have := List.mem_range.1 hb
    exact h _ (hall _ (by omega) (by omega)))).length_le
  simp at h2
  omega

theorem neverAgain_ok : Allocator neverAgain := by
  intro t f l h1 h2
  rcases neverAgain_spec f t with ⟨-, h⟩ | ⟨h3, h4⟩
  · exact absurd h (room h1 h2)
  · exact ⟨h4, h3⟩

theorem atOnce_ok : Allocator atOnce := by
  intro t f l h1 h2
  unfold atOnce
  cases hf : ((List.range t).map (· + 1)).find? fun a => !f a with
  | none =>
    refine absurd (fun a ha hat => ?_) (room h1 h2)
    rw [List.find?_eq_none] at hf
    have := hf a (List.mem_map.2 ⟨a - 1, List.mem_range.2 (by omega), by omega⟩)
    simpa using this
  | some a =>
    obtain ⟨b, -, hb⟩ := List.mem_map.1 (List.mem_of_find?_eq_some hf)
    have := List.find?_some hf
    simp only [Option.getD_some]
    exact ⟨by simpa using this, by omega⟩

theorem Ok.init {place : Policy} (hp : Allocator place) : Ok (Heap.init place : Heap α) :=
  ⟨hp, ⟨[], fun a h => by simp [Heap.init] at h, by simp [Heap.init]⟩, rfl⟩

theorem Ok.init0 : Ok (Heap.init : Heap α) := Ok.init neverAgain_ok

theorem Ok.pos {h : Heap α} (ok : Ok h) : 0 < h.clock := by obtain ⟨l, -, h2⟩ := ok.fin; omega

theorem Ok.addr {h : Heap α} (ok : Ok h) : h.mem h.addr = none ∧ h.addr ≠ 0 := by
  obtain ⟨l, h1, h2⟩ := ok.fin
  obtain ⟨h3, h4⟩ := ok.policy h.clock (fun a => (h.mem a).isSome) l h1 h2
  exact ⟨by simpa [Heap.addr] using h3, h4⟩

theorem Ok.ne {h : Heap α} (ok : Ok h) {a : Nat} (ha : (h.mem a).isSome) : a ≠ h.addr := by
  rintro rfl
  rw [ok.addr.1] at ha; simp at ha

/-- changing memory without making more addresses live -/
theorem Ok.of {h h' : Heap α} (ok : Ok h) (hp : h'.place = h.place) (hc : h.clock ≤ h'.clock)
    (hm : ∀ a, (h'.mem a).isSome → (h.mem a).isSome) : Ok h' := by
  obtain ⟨l, h1, h2⟩ := ok.fin
  refine ⟨hp ▸ ok.policy, ⟨l, fun a ha => h1 a (hm a ha), by omega⟩, ?_⟩
  by_contra hn
  have := hm 0 (Option.isSome_iff_ne_none.2 hn)
  rw [ok.null] at this; simp at this

theorem Ok.alloc {h : Heap α} (ok : Ok h) (c : α × Nat) : Ok (h.alloc c).1 := by
  obtain ⟨l, h1, h2⟩ := ok.fin
  refine ⟨ok.policy, ⟨h.addr :: l, fun a ha => ?_, by simp [Heap.alloc]; omega⟩, ?_⟩
  · simp only [Heap.alloc] at ha
    by_cases hc : a = h.addr
    · simp [hc]
    · rw [if_neg hc] at ha
      exact List.mem_cons_of_mem _ (h1 a ha)
  · simp only [Heap.alloc]
    rw [if_neg (Ne.symm ok.addr.2)]
    exact ok.null

theorem Ok.write {h h' : Heap α} (ok : Ok h) {p : Nat} {c : α × Nat} (hw : h.write p c = .ok h') :
    Ok h' := by
  unfold Heap.write at hw
  split at hw
  · rename_i c' hc
    simp only [Res.ok.injEq] at hw
    rw [← hw]
    refine ok.of rfl (Nat.le_refl _) fun a ha => ?_
    simp only at ha
    by_cases hap : a = p
    · rw [hap, hc]; rfl
    · rwa [if_neg hap] at ha
  · simp at hw

theorem Ok.free {h h' : Heap α} (ok : Ok h) {p : Nat} (hw : h.free p = .ok h') : Ok h' := by
  unfold Heap.free at hw
  split at hw
  · simp only [Res.ok.injEq] at hw
    rw [← hw]
    refine ok.of rfl (Nat.le_refl _) fun a ha => ?_
    simp only at ha
    by_cases hap : a = p
    · rw [if_pos hap] at ha; simp at ha
    · rwa [if_neg hap] at ha
  · simp at hw

/-- a set of live addresses is smaller than the clock -/
theorem Ok.length_lt {h : Heap α} (ok : Ok h) {l : List Nat} (hn : l.Nodup) (hl : ∀ a ∈ l, (h.mem a).isSome) :
    l.length < h.clock := by
  obtain ⟨m, h1, h2⟩ := ok.fin
  have := (List.subperm_of_subset hn (fun a ha => h1 a (hl a ha))).length_le
  omega

/-- a chain is shorter than the number of addresses ever allocated -/
theorem Chain.length_lt {h : Heap α} (ok : Ok h) {p : Nat} {l : List (Nat × α)}
    (hc : Chain h.mem p l) : l.length < h.clock := by
  have := ok.length_lt (Chain.nodup hc) (fun a ha => (Seg.live hc a ha).1)
  simpa using this

/-- the cell in the middle of a segment -/
theorem Seg.cell {m : Nat → Option (α × Nat)} {p q : Nat} {l r : List (Nat × α)} {b : Nat} {x : α}
    (h : Seg m p (l ++ (b, x) :: r) q) : ∃ n, m b = some (x, n) ∧ Seg m n r q ∧ b ≠ 0 ∧ Seg m p l b := by
  obtain ⟨s, h1, h2⟩ := h.split
  obtain ⟨h3, h4, n, h5, h6⟩ := h2
  exact ⟨n, h5, h6, h4, h3 ▸ h1⟩

/-- overwriting the last cell of a segment -/
theorem Seg.poke {m : Nat → Option (α × Nat)} {p q : Nat} {l r : List (Nat × α)} {b : Nat} {x : α}
    (h : Seg m p (l ++ (b, x) :: r) q) (hb : b ∉ l.map Prod.fst) (y : α) (n' : Nat) :
    Seg (fun a => if a = b then some (y, n') else m a) p (l ++ [(b, y)]) n' := by
  obtain ⟨n, h1, h2, h3, h4⟩ := h.cell
  refine Seg.append (h4.frame fun a ha => ?_) ⟨rfl, h3, n', by simp, rfl⟩
  have : a ≠ b := by rintro rfl; exact hb ha
  simp [this]

theorem read_null {h : Heap α} (ok : Ok h) : h.read 0 = .ub := by simp [read, ok.null]

end Maa.Heap
