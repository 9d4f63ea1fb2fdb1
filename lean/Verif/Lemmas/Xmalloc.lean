import Verif.Model.Xmalloc
import Verif.Spec.Run

namespace Maa.Xmalloc

open Spec (Allocator MemOp Fits Blocks)

/-- the `n` bytes from `p` on -/
def bytesAt (mem : Nat → UInt8) (p n : Nat) : List UInt8 := (List.range n).map fun i => mem (p + i)

@[simp] theorem bytesAt_length (mem : Nat → UInt8) (p n : Nat) : (bytesAt mem p n).length = n := by simp [bytesAt]

/-- one block with its bytes -/
def blockOf (mem : Nat → UInt8) (b : Nat × Nat) : Nat × List UInt8 := (b.1, bytesAt mem b.1 b.2)

/-- the blocks as arrays -/
def abs (s : Proc) : Blocks := { blocks := s.live.map (blockOf s.mem), time := s.time }

/-- live blocks do not overlap -/
structure Sep (live : List (Nat × Nat)) : Prop where
  pw : live.Pairwise fun x y => x.1 ≠ y.1 ∧ (x.1 + x.2 ≤ y.1 ∨ y.1 + y.2 ≤ x.1)
  nz : ∀ b ∈ live, b.1 ≠ 0

theorem abs_live (s : Proc) : (abs s).live = s.live := by
  simp only [abs, Blocks.live, List.map_map]
  conv => rhs; rw [← List.map_id s.live]
  apply List.map_congr_left
  intro b _
  simp [blockOf]

theorem bytesAt_congr {mem mem' : Nat → UInt8} {p n : Nat} (h : ∀ i < n, mem' (p + i) = mem (p + i)) : bytesAt mem' p n = bytesAt mem p n := by
  apply List.map_congr_left
  intro i hi
  exact h i (List.mem_range.1 hi)

theorem bytesAt_fill_other (mem : Nat → UInt8) {p n b m : Nat} (g : Nat → UInt8) (h : p + n ≤ b ∨ b + m ≤ p) :
    bytesAt (fillMem mem p n g) b m = bytesAt mem b m := by
  apply bytesAt_congr
  intro i hi
  unfold fillMem
  rw [if_neg (by omega)]

theorem bytesAt_fill_self (mem : Nat → UInt8) (p n : Nat) (g : Nat → UInt8) : bytesAt (fillMem mem p n g) p n = (List.range n).map g := by
  apply List.map_congr_left
  intro i hi
  have := List.mem_range.1 hi
  unfold fillMem
  rw [if_pos (by omega)]
  congr 1; omega

theorem map_fill {live : List (Nat × Nat)} (mem : Nat → UInt8) {p n : Nat} (g : Nat → UInt8) (h : Fits live p n) :
    live.map (blockOf (fillMem mem p n g)) = live.map (blockOf mem) := by
  apply List.map_congr_left
  intro b hb
  unfold blockOf
  rw [bytesAt_fill_other mem g (h.2 b.1 b.2 hb).2]

theorem Sep.cons {live : List (Nat × Nat)} {p n : Nat} (s : Sep live) (h : Fits live p n) : Sep ((p, n) :: live) :=
  ⟨List.Pairwise.cons (fun b hb => h.2 b.1 b.2 hb) s.pw, fun b hb => by
    rcases List.mem_cons.1 hb with rfl | hb
    · exact h.1
    · exact s.nz b hb⟩

theorem Sep.filter {live : List (Nat × Nat)} (s : Sep live) (q : Nat × Nat → Bool) : Sep (live.filter q) :=
  ⟨List.Pairwise.filter q s.pw, fun b hb => s.nz b (List.mem_filter.1 hb).1⟩

theorem find_map (live : List (Nat × Nat)) (mem : Nat → UInt8) (P : Nat × List UInt8 → Bool) (Q : Nat × Nat → Bool)
    (h : ∀ b ∈ live, P (blockOf mem b) = Q b) : (live.map (blockOf mem)).find? P = (live.find? Q).map (blockOf mem) := by
  induction live with
  | nil => rfl
  | cons b live ih =>
    simp only [List.map_cons, List.find?_cons, h b (by simp)]
    cases Q b
    · exact ih fun b hb => h b (by simp [hb])
    · rfl

theorem any_map (live : List (Nat × Nat)) (mem : Nat → UInt8) (P : Nat × List UInt8 → Bool) (Q : Nat × Nat → Bool)
    (h : ∀ b ∈ live, P (blockOf mem b) = Q b) : (live.map (blockOf mem)).any P = live.any Q := by
  induction live with
  | nil => rfl
  | cons b live ih =>
    simp only [List.map_cons, List.any_cons, h b (by simp), ih fun b hb => h b (by simp [hb])]

theorem filter_map (live : List (Nat × Nat)) (mem : Nat → UInt8) (P : Nat × List UInt8 → Bool) (Q : Nat × Nat → Bool)
    (h : ∀ b ∈ live, P (blockOf mem b) = Q b) : (live.map (blockOf mem)).filter P = (live.filter Q).map (blockOf mem) := by
  induction live with
  | nil => rfl
  | cons b live ih =>
    simp only [List.map_cons, List.filter_cons, h b (by simp), ih fun b hb => h b (by simp [hb])]
    cases Q b <;> simp

theorem drop_bytesAt (mem : Nat → UInt8) {b m a : Nat} (h : b ≤ a) : (bytesAt mem b m).drop (a - b) = bytesAt mem a (b + m - a) := by
  apply List.ext_getElem
  · simp; omega
  · intro i h1 h2
    simp only [bytesAt, List.getElem_drop, List.getElem_map, List.getElem_range]
    congr 1; omega

theorem bytesAt_succ (mem : Nat → UInt8) (a n : Nat) : bytesAt mem a (n + 1) = mem a :: bytesAt mem (a + 1) n := by
  unfold bytesAt
  rw [List.range_succ_eq_map, List.map_cons, List.map_map]
  simp only [Nat.add_zero, List.cons.injEq, true_and]
  apply List.map_congr_left
  intro i _
  simp only [Function.comp, Nat.succ_eq_add_one]
  congr 1; omega

theorem strlen_spec (mem : Nat → UInt8) (n : Nat) : ∀ a,
    (0 ∉ bytesAt mem a n ∧ strlen mem n a = none) ∨
    (0 ∈ bytesAt mem a n ∧ ∃ len, strlen mem n a = some len ∧ len < n ∧ (bytesAt mem a n).takeWhile (· ≠ 0) = bytesAt mem a len ∧
      bytesAt mem a (len + 1) = bytesAt mem a len ++ [0]) := by
  induction n with
  | zero => intro a; left; exact ⟨by simp [bytesAt], rfl⟩
  | succ n ih =>
    intro a
    rw [bytesAt_succ]
    simp only [strlen]
    by_cases h : mem a = 0
    · right
      refine ⟨by simp [h], 0, by simp [h], by omega, by simp [h, bytesAt], by simp [bytesAt, h]⟩
    · rw [if_neg h]
      rcases ih (a + 1) with ⟨h1, h2⟩ | ⟨h1, len, h2, h3, h4, h5⟩
      · left
        refine ⟨by simp [h1, Ne.symm h], by rw [h2]; rfl⟩
      · right
        refine ⟨by simp [h1], len + 1, by rw [h2]; rfl, by omega, ?_, ?_⟩
        · rw [List.takeWhile_cons, if_pos (by simpa using h), h4, bytesAt_succ]
        · rw [bytesAt_succ, h5, bytesAt_succ mem a len]; rfl

theorem find_fst {live : List (Nat × Nat)} {p : Nat} {b : Nat × Nat} (h : live.find? (·.1 = p) = some b) : b ∈ live ∧ b.1 = p :=
  ⟨List.mem_of_find?_eq_some h, by have := List.find?_some h; simpa using this⟩

theorem realloc_bytes (mem : Nat → UInt8) (p m n : Nat) (g : Nat → UInt8) :
    (List.range n).map (fun i => if i < m then mem (p + i) else g i) = (bytesAt mem p m).take n ++ ((List.range n).map g).drop m := by
  apply List.ext_getElem
  · simp; omega
  · intro i h1 h2
    simp only [List.length_map, List.length_range] at h1
    rw [List.getElem_append]
    simp only [List.getElem_map, List.getElem_range, List.length_take, bytesAt_length]
    by_cases h : i < m
    · rw [if_pos h, dif_pos (by omega)]
      simp [bytesAt]
    · rw [if_neg h, dif_neg (by omega)]
      simp only [List.getElem_drop, List.getElem_map, List.getElem_range]
      congr 1; omega

theorem set_bytes (mem : Nat → UInt8) (b m a : Nat) (v : UInt8) (h1 : b ≤ a) :
    bytesAt (fun x => if x = a then v else mem x) b m = (bytesAt mem b m).set (a - b) v := by
  apply List.ext_getElem
  · simp
  · intro i g1 g2
    simp only [bytesAt, List.getElem_map, List.getElem_range, List.getElem_set]
    by_cases h : b + i = a
    · rw [if_pos h, if_pos (by omega)]
    · rw [if_neg h, if_neg (by omega)]

theorem inBlock_blockOf (mem : Nat → UInt8) (a : Nat) (b : Nat × Nat) :
    Spec.inBlock a (blockOf mem b) = (decide (b.1 ≤ a) && decide (a < b.1 + b.2)) := by
  rw [Bool.eq_iff_iff]; simp [Spec.inBlock, blockOf]
  exact fun _ => decide_eq_true_iff

theorem find_apart {live : List (Nat × Nat)} {a : Nat} {b : Nat × Nat}
    (h : live.find? (fun b => decide (b.1 ≤ a) && decide (a < b.1 + b.2)) = some b) : b ∈ live ∧ b.1 ≤ a ∧ a < b.1 + b.2 :=
  ⟨List.mem_of_find?_eq_some h, by have := List.find?_some h; simpa using this⟩

/-- one operation -/
theorem step_sim {e : Allocator} (ok : e.Ok) (s : Proc) (o : MemOp) (sep : Sep s.live) :
    Spec.ResRel (fun c b => c.2 = b.2 ∧ b.1 = abs c.1 ∧ Sep c.1.live) (step e s o) (Spec.memStep e (abs s) o) := by
  have ht : (abs s).time = s.time := rfl
  cases o with
  | malloc n =>
    simp only [step, xmalloc, cMalloc, Spec.memStep, abs_live, ht]
    cases h : e.malloc s.time s.live n with
    | none => trivial
    | some p =>
      have f := ok.malloc _ _ _ _ h
      refine ⟨rfl, ?_, sep.cons f⟩
      simp only [abs, List.map_cons, map_fill s.mem (e.fill s.time) f, blockOf, bytesAt_fill_self, Spec.freshBytes]
  | calloc num size =>
    simp only [step, xcalloc, cCalloc, Spec.memStep, abs_live, ht]
    cases h : e.calloc s.time s.live num size with
    | none => trivial
    | some p =>
      have f := (ok.calloc _ _ _ _ _ h).2
      refine ⟨rfl, ?_, sep.cons f⟩
      simp only [abs, List.map_cons, map_fill s.mem _ f, blockOf, bytesAt_fill_self]
      congr 3
      simp [List.map_const']
  | realloc p n =>
    simp only [step, xrealloc, cRealloc, Spec.memStep, abs_live, ht]
    by_cases hp : p = 0
    · subst hp
      simp only [if_true]
      cases h : e.realloc s.time s.live 0 n with
      | none => trivial
      | some q =>
        have f := ok.realloc _ _ _ _ _ h
        rw [List.filter_eq_self.2 (fun b hb => by simpa using sep.nz b hb)] at f
        refine ⟨rfl, ?_, sep.cons f⟩
        simp only [abs, List.map_cons, map_fill s.mem (e.fill s.time) f, blockOf, bytesAt_fill_self, Spec.freshBytes]
    · rw [if_neg hp, if_neg hp]
      simp only [abs]
      rw [find_map s.live s.mem (fun b => decide (b.1 = p)) (fun b => decide (b.1 = p)) (fun _ _ => rfl)]
      cases hf : s.live.find? (fun b => decide (b.1 = p)) with
      | none => trivial
      | some b =>
        obtain ⟨b1, b2⟩ := find_fst hf
        simp only [Option.map_some, blockOf, bytesAt_length]
        cases h : e.realloc s.time s.live p n with
        | none => trivial
        | some q =>
          have f := ok.realloc _ _ _ _ _ h
          refine ⟨rfl, ?_, (sep.filter _).cons f⟩
          simp only [List.map_cons, map_fill s.mem _ f]
          rw [filter_map s.live s.mem (fun b => decide (b.1 ≠ p)) (fun b => decide (b.1 ≠ p)) (fun _ _ => rfl)]
          simp only [blockOf, bytesAt_fill_self, realloc_bytes, Spec.freshBytes, b2]
  | free p =>
    simp only [step, xfree, cFree, Spec.memStep]
    by_cases hp : p = 0
    · simp [hp, Res.bind, Spec.ResRel]
    · rw [if_pos hp, if_neg hp]
      have ha : ((abs s).blocks.any fun b => decide (b.1 = p)) = s.live.any fun b => decide (b.1 = p) :=
        any_map s.live s.mem (fun b => decide (b.1 = p)) (fun b => decide (b.1 = p)) (fun _ _ => rfl)
      by_cases hf : s.live.any (fun b => decide (b.1 = p)) = true
      · rw [if_pos hf, if_pos (ha.trans hf)]
        refine ⟨rfl, ?_, sep.filter _⟩
        simp only [abs]
        rw [filter_map s.live s.mem (fun b => decide (b.1 ≠ p)) (fun b => decide (b.1 ≠ p)) (fun _ _ => rfl)]
      · rw [if_neg hf, if_neg (fun h => hf (ha.symm.trans h))]; trivial
  | strdup a =>
    simp only [step, xstrdup, Spec.memStep, abs_live, ht]
    simp only [abs]
    rw [find_map s.live s.mem (Spec.inBlock a) (fun b => decide (b.1 ≤ a) && decide (a < b.1 + b.2)) (fun b _ => inBlock_blockOf s.mem a b)]
    cases hf : s.live.find? (fun b => decide (b.1 ≤ a) && decide (a < b.1 + b.2)) with
    | none => trivial
    | some b =>
      obtain ⟨b1, b2, b3⟩ := find_apart hf
      simp only [Option.map_some, blockOf]
      rw [drop_bytesAt s.mem b2]
      rcases strlen_spec s.mem (b.1 + b.2 - a) a with ⟨h1, h2⟩ | ⟨h1, len, h2, h3, h4, h5⟩
      · rw [if_neg h1, h2]; trivial
      · rw [if_pos h1, h2, h4]
        simp only [bytesAt_length, xmalloc, cMalloc]
        cases h : e.malloc s.time s.live (len + 1) with
        | none => trivial
        | some p =>
          have f := ok.malloc _ _ _ _ h
          refine ⟨rfl, ?_, sep.cons f⟩
          simp only [List.map_cons, map_fill _ _ f, blockOf, bytesAt_fill_self]
          have hd := (f.2 b.1 b.2 b1).2
          have : (List.range (len + 1)).map (fun i => fillMem s.mem p (len + 1) (e.fill s.time) (a + i)) = bytesAt s.mem a (len + 1) := by
            apply List.map_congr_left
            intro i hi
            have := List.mem_range.1 hi
            unfold fillMem
            rw [if_neg (by omega)]
          rw [this, h5]
  | store a v =>
    simp only [step, Spec.memStep]
    have ha : (abs s).blocks.any (Spec.inBlock a) = s.live.any fun b => decide (b.1 ≤ a) && decide (a < b.1 + b.2) :=
      any_map s.live s.mem (Spec.inBlock a) (fun b => decide (b.1 ≤ a) && decide (a < b.1 + b.2)) (fun b _ => inBlock_blockOf s.mem a b)
    by_cases hf : s.live.any (fun b => decide (b.1 ≤ a) && decide (a < b.1 + b.2)) = true
    · rw [if_pos hf, if_pos (ha.trans hf)]
      refine ⟨rfl, ?_, sep⟩
      simp only [abs, List.map_map, Blocks.mk.injEq, and_true]
      apply List.map_congr_left
      intro b hb
      simp only [Function.comp, inBlock_blockOf]
      by_cases hin : b.1 ≤ a ∧ a < b.1 + b.2
      · rw [if_pos (by simpa using hin)]
        simp only [blockOf, set_bytes s.mem b.1 b.2 a v hin.1]
      · rw [if_neg (by simpa using hin)]
        simp only [blockOf, Prod.mk.injEq, true_and]
        symm
        apply bytesAt_congr
        intro i hi
        rw [if_neg (by omega)]
    · rw [if_neg hf, if_neg (fun h => hf (ha.symm.trans h))]; trivial
  | fetch a =>
    simp only [step, Spec.memStep]
    simp only [abs]
    rw [find_map s.live s.mem (Spec.inBlock a) (fun b => decide (b.1 ≤ a) && decide (a < b.1 + b.2)) (fun b _ => inBlock_blockOf s.mem a b)]
    cases hf : s.live.find? (fun b => decide (b.1 ≤ a) && decide (a < b.1 + b.2)) with
    | none =>
      rw [if_neg]
      · trivial
      · rw [List.find?_eq_none] at hf
        simpa using hf
    | some b =>
      obtain ⟨b1, b2, b3⟩ := find_apart hf
      rw [if_pos]
      · refine ⟨?_, rfl, sep⟩
        simp only [blockOf]
        have : a - b.1 < b.2 := by omega
        simp [bytesAt, List.getD_eq_getElem?_getD, this, show b.1 + (a - b.1) = a by omega]
      · rw [List.any_eq_true]
        exact ⟨b, b1, by simp [b2, b3]⟩

theorem history_sim {e : Allocator} (ok : e.Ok) (mem : Nat → UInt8) (hist : List MemOp) :
    Spec.ResRel (fun c b => c.2 = b.2 ∧ b.1 = abs c.1 ∧ Sep c.1.live) (Spec.run (step e) (Proc.init mem) hist)
      (Spec.run (Spec.memStep e) { blocks := [], time := 0 } hist) :=
  Spec.run_sim (fun s b => b = abs s ∧ Sep s.live) _ _ (fun s b o h => by rw [h.1]; exact step_sim ok s o h.2) (Proc.init mem) _ hist
    ⟨rfl, List.Pairwise.nil, fun _ h => by simp [Proc.init] at h⟩

theorem sep_uniq (l : List (Nat × Nat)) : l.Pairwise (fun x y => x.1 ≠ y.1 ∧ (x.1 + x.2 ≤ y.1 ∨ y.1 + y.2 ≤ x.1)) →
    ∀ x ∈ l, ∀ y ∈ l, x.1 = y.1 → x = y := by
  induction l with
  | nil => intro _ x h; simp at h
  | cons c l ih =>
    intro hp x hx y hy he
    obtain ⟨h1, h2⟩ := List.pairwise_cons.1 hp
    rcases List.mem_cons.1 hx with rfl | hx' <;> rcases List.mem_cons.1 hy with rfl | hy'
    · rfl
    · exact absurd he (h1 y hy').1
    · exact absurd he.symm (h1 x hx').1
    · exact ih h2 x hx' y hy' he

theorem sep_meet (l : List (Nat × Nat)) (hp : l.Pairwise (fun x y => x.1 ≠ y.1 ∧ (x.1 + x.2 ≤ y.1 ∨ y.1 + y.2 ≤ x.1)))
    (x : Nat × Nat) (hx : x ∈ l) (y : Nat × Nat) (hy : y ∈ l) (h : ∃ a, x.1 ≤ a ∧ a < x.1 + x.2 ∧ y.1 ≤ a ∧ a < y.1 + y.2) : x = y := by
  obtain ⟨a, h1, h2, h3, h4⟩ := h
  induction l with
  | nil => simp at hx
  | cons c l ih =>
    obtain ⟨g1, g2⟩ := List.pairwise_cons.1 hp
    rcases List.mem_cons.1 hx with rfl | hx' <;> rcases List.mem_cons.1 hy with rfl | hy'
    · rfl
    · have := (g1 y hy').2; omega
    · have := (g1 x hx').2; omega
    · exact ih g2 hx' hy'

end Maa.Xmalloc
