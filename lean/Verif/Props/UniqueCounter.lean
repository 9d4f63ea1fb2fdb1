import Verif.Props.StrPool
import Verif.Props.Counters
import Mathlib.Data.Finset.Prod
import Mathlib.Data.Finset.Card

/-! # C75: the counter of `str_unique`

`static int i` (maa/string.c:370) grows by more than one in a call of `str_unique`: every string that is already in the pool is
skipped.  The strings skipped were put there by earlier calls, so the counter still is at most eleven times the number of calls
made since the program started: it does not reach 2³¹ in a program that has made fewer than 195 million calls. -/

namespace Maa.StrPool

open Spec (GlobalOp)

/-- What a call may add to the counter, now or later: the number it uses, and the strings ending in a number of at most ten digits. -/
def uniqueCost : GlobalOp → Nat
  | .unique _ => 11
  | _ => 10

theorem decimal_pos (n : Nat) : 0 < (Spec.decimal n).length := by
  rw [Spec.decimal_eq]; split <;> simp

theorem decimal_length (f : Nat) : ∀ n, n < 10 ^ (f + 1) → (Spec.decimal n).length ≤ f + 1 := by
  induction f with
  | zero => intro n h; rw [Spec.decimal_eq, if_pos (by omega)]; simp
  | succ f ih =>
    intro n h
    rw [Spec.decimal_eq]
    split
    · simp
    · have := ih (n / 10) (by rw [Nat.pow_succ] at h; omega)
      simp only [List.length_append, List.length_singleton]
      omega

/-- the number in the last `n + 1` bytes of a string -/
def endNumber (t : List Byte) (n : Nat) : Nat := ofDigits (t.drop (t.length - (n + 1)))

theorem endNumber_append (pre : List Byte) (j : Nat) : endNumber (pre ++ Spec.decimal j) ((Spec.decimal j).length - 1) = j := by
  have h := decimal_pos j
  unfold endNumber
  rw [List.length_append, show pre.length + (Spec.decimal j).length - ((Spec.decimal j).length - 1 + 1) = pre.length by omega,
    List.drop_left, ofDigits_decimal]

/-- The numbers of at most ten digits, not below `c`, at the ends of the interned strings. -/
def obstacles (M : List (List Byte × Nat)) (c : Nat) : Finset (List Byte × Nat) :=
  ((M.map Prod.fst).toFinset ×ˢ Finset.range 10).filter fun x => c ≤ endNumber x.1 x.2

theorem mem_obstacles {M : List (List Byte × Nat)} {c : Nat} {x : List Byte × Nat} :
    x ∈ obstacles M c ↔ ((∃ d, (x.1, d) ∈ M) ∧ x.2 < 10) ∧ c ≤ endNumber x.1 x.2 := by
  simp [obstacles]

theorem obstacles_grow {M M' : List (List Byte × Nat)} {t : List Byte} (h : ∀ x ∈ M', x ∈ M ∨ x.1 = t) (c : Nat) :
    (obstacles M' c).card ≤ (obstacles M c).card + 10 := by
  have hsub : obstacles M' c ⊆ obstacles M c ∪ (Finset.range 10).image fun n => (t, n) := by
    intro x hx
    rw [mem_obstacles] at hx
    obtain ⟨⟨⟨d, hd⟩, h1⟩, h2⟩ := hx
    rw [Finset.mem_union, mem_obstacles, Finset.mem_image]
    rcases h _ hd with h3 | h3
    · exact Or.inl ⟨⟨⟨d, h3⟩, h1⟩, h2⟩
    · exact Or.inr ⟨x.2, Finset.mem_range.2 h1, by rw [← h3]⟩
  have h1 := Finset.card_le_card hsub
  have h2 := Finset.card_union_le (obstacles M c) ((Finset.range 10).image fun n => (t, n))
  have h3 : ((Finset.range 10).image fun n => (t, n)).card ≤ 10 := by
    simpa using Finset.card_image_le (s := Finset.range 10) (f := fun n => (t, n))
  omega

theorem obstacles_skip {M : List (List Byte × Nat)} {pre : List Byte} {c k : Nat} (hck : c ≤ k) (hk : k ≤ 10 ^ 10)
    (h : ∀ j, c ≤ j → j < k → (lookup M (pre ++ Spec.decimal j)).isSome) :
    (obstacles M k).card + (k - c) ≤ (obstacles M c).card := by
  let f : Nat → List Byte × Nat := fun j => (pre ++ Spec.decimal j, (Spec.decimal j).length - 1)
  have hinj : Function.Injective f := by
    intro a b hab
    exact decimal_inj (List.append_cancel_left (Prod.mk.inj hab).1)
  have hcard : ((Finset.Ico c k).image f).card = k - c := by
    rw [Finset.card_image_of_injective _ hinj, Nat.card_Ico]
  have hdis : Disjoint (obstacles M k) ((Finset.Ico c k).image f) := by
    rw [Finset.disjoint_left]
    intro x hx hx'
    obtain ⟨j, hj, rfl⟩ := Finset.mem_image.1 hx'
    rw [mem_obstacles] at hx
    have h1 := hx.2
    simp only [f] at h1
    rw [endNumber_append] at h1
    have := (Finset.mem_Ico.1 hj).2
    omega
  have hsub : obstacles M k ∪ (Finset.Ico c k).image f ⊆ obstacles M c := by
    intro x hx
    rcases Finset.mem_union.1 hx with hx | hx
    · rw [mem_obstacles] at hx ⊢
      exact ⟨hx.1, by omega⟩
    · obtain ⟨j, hj, rfl⟩ := Finset.mem_image.1 hx
      obtain ⟨hj1, hj2⟩ := Finset.mem_Ico.1 hj
      obtain ⟨d, hd⟩ := Option.isSome_iff_exists.1 (h j hj1 hj2)
      rw [mem_obstacles]
      have h1 := decimal_length 9 j (by omega)
      have h2 := decimal_pos j
      exact ⟨⟨⟨d, lookup_some hd⟩, by simp only [f]; omega⟩, by simp only [f]; rw [endNumber_append]; exact hj1⟩
  have := Finset.card_le_card hsub
  rw [Finset.card_union_of_disjoint hdis, hcard] at this
  exact this

theorem obstacles_anti {M : List (List Byte × Nat)} {c k : Nat} (h : c ≤ k) : (obstacles M k).card ≤ (obstacles M c).card :=
  Finset.card_le_card fun x hx => by rw [mem_obstacles] at hx ⊢; exact ⟨hx.1, by omega⟩

/-- One call. -/
theorem unique_step {g g' : Global} {M M' : List (List Byte × Nat)} {o : GlobalOp} (h : Grows g g' M M' o) {n : Nat}
    (hn : g.counter + (obstacles M g.counter).card ≤ n) (hb : n + uniqueCost o ≤ 10 ^ 10) :
    g'.counter + (obstacles M' g'.counter).card ≤ n + uniqueCost o := by
  obtain ⟨t, ht⟩ := h.one
  have hgrow := obstacles_grow ht g'.counter
  by_cases hu : ∃ s, o = .unique s
  · obtain ⟨s, rfl⟩ := hu
    simp only [uniqueCost] at hb ⊢
    obtain ⟨pre, hsk⟩ := h.skipped
    have hle := h.le
    by_cases hz : g'.counter = g.counter
    · rw [hz] at hgrow ⊢; omega
    have hbig : g'.counter ≤ 10 ^ 10 := by
      refine Classical.byContradiction fun hlt => ?_
      have := obstacles_skip (M := M) (pre := pre) (c := g.counter) (k := 10 ^ 10) (by omega) (Nat.le_refl _)
        (fun j h1 h2 => hsk j h1 (by omega))
      omega
    have hs := obstacles_skip (M := M) (pre := pre) (c := g.counter) (k := g'.counter - 1) (by omega) (by omega)
      (fun j h1 h2 => hsk j h1 (by omega))
    have ha := obstacles_anti (M := M) (c := g'.counter - 1) (k := g'.counter) (by omega)
    omega
  · have hc : uniqueCost o = 10 := by
      cases o <;> simp [uniqueCost]
      exact hu ⟨_, rfl⟩
    rw [h.same fun s hs => hu ⟨s, hs⟩] at hgrow ⊢
    omega

/-- C75: after any calls with permitted arguments on the global string pool since the program started, the counter of `str_unique`
is at most 1 and 11 for every call of `str_unique` and 10 for every other call, provided these make less than 2³¹; so it has not
overflowed. -/
theorem C75_unique_counter (p1 p2 : Policy) (hp1 : Heap.Allocator p1) (hp2 : Heap.Allocator p2) (hist : List GlobalOp)
    (permitted : ∀ o ∈ hist, o.Permitted) (g : Global) (xs : List Spec.Ret)
    (run : Spec.run gstep (Global.init p1 p2) hist = .ok (g, xs)) (few : 1 + (hist.map uniqueCost).sum < 2 ^ 31) :
    g.counter ≤ 1 + (hist.map uniqueCost).sum := by
  have := Spec.run_measure_of GlobalOp.Permitted
    (fun n g => ∃ M, GInv g M ∧ (n ≤ 10 ^ 10 → g.counter + (obstacles M g.counter).card ≤ n)) uniqueCost gstep
    (fun n g o g' x hP ⟨M, i, hi⟩ hs => by
      rcases gstep_full i o hP with ⟨g1, r, M', e1, e2, e3, -⟩ | ⟨-, -, e1⟩
      · rw [hs] at e1
        obtain ⟨rfl, rfl⟩ := Prod.mk.inj (Res.ok.inj e1)
        exact ⟨M', e2, fun hb => unique_step e3 (hi (by omega)) hb⟩
      · rw [hs] at e1; simp at e1)
    hist permitted 1 (Global.init p1 p2) g xs ⟨[], GInv.init hp1 hp2, fun _ => by simp [obstacles, Global.init]⟩ run
  obtain ⟨M, -, h⟩ := this
  have := h (by omega)
  omega

/-- C75: so every `int` the counter takes is the number the model counts with. -/
theorem C75_unique_counter_int (p1 p2 : Policy) (hp1 : Heap.Allocator p1) (hp2 : Heap.Allocator p2) (hist : List GlobalOp)
    (permitted : ∀ o ∈ hist, o.Permitted) (g : Global) (xs : List Spec.Ret)
    (run : Spec.run gstep (Global.init p1 p2) hist = .ok (g, xs)) (few : 1 + 11 * hist.length < 2 ^ 31) :
    g.counter < 2 ^ 31 := by
  have hs : (hist.map uniqueCost).sum ≤ 11 * hist.length := by
    clear permitted run few
    induction hist with
    | nil => simp
    | cons o os ih =>
      have : uniqueCost o ≤ 11 := by cases o <;> simp [uniqueCost]
      simp only [List.map_cons, List.sum_cons, List.length_cons]
      omega
  have := C75_unique_counter p1 p2 hp1 hp2 hist permitted g xs run (by omega)
  omega

/-- Four calls: "a1", "a2" and "a3" are in the pool, so `str_unique("a")` makes "a4" and leaves the counter at 5, more than the number
of calls. -/
example : (match Spec.run gstep Global.init [.find [97, 49, 0], .find [97, 50, 0], .find [97, 51, 0], .unique [97, 0]] with
    | .ok (g, _) => g.counter | _ => 0) = 5 := by decide +kernel

end Maa.StrPool
