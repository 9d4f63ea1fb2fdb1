import Verif.Model.Tab
import Verif.Spec.Table

namespace Maa.Tab

/-- A generic "call until non-zero" loop over any item type. -/
def loop {σ ι : Type} (f : σ → ι → σ × Int) : σ → List ι → σ × Int
  | s, [] => (s, 0)
  | s, e :: es => if (f s e).2 ≠ 0 then ((f s e).1, 1) else loop f (f s e).1 es

theorem iterLoop_eq_loop {σ K D : Type} {ι : Type} (g : Entry K D → ι) (f : σ → ι → σ × Int)
    (s : σ) (l : List (Entry K D)) :
    iterLoop (fun s e => f s (g e)) s l = loop f s (l.map g) := by
  induction l generalizing s with
  | nil => rfl
  | cons a l ih =>
    simp only [iterLoop, List.map_cons, loop]
    split
    · rfl
    · exact ih _

theorem loop_recorder {σ ι : Type} (f : σ → ι → σ × Int) (s : σ) (pre : List (ι × Int)) (l : List ι) :
    ∃ log rest, (loop (Spec.recorder f) (s, pre) l).1.2 = pre ++ log ∧
      l = log.map Prod.fst ++ rest ∧
      ((loop (Spec.recorder f) (s, pre) l).2 = 0 → rest = [] ∧ ∀ c ∈ log, c.2 = 0) ∧
      ((loop (Spec.recorder f) (s, pre) l).2 ≠ 0 →
        ∃ b x, log = b ++ [x] ∧ x.2 ≠ 0 ∧ ∀ c ∈ b, c.2 = 0) := by
  induction l generalizing s pre with
  | nil => exact ⟨[], [], by simp [loop], rfl, by simp [loop], by simp [loop]⟩
  | cons a l ih =>
    simp only [loop]
    by_cases h : (Spec.recorder f (s, pre) a).2 ≠ 0
    · rw [if_pos h]
      refine ⟨[(a, (f s a).2)], l, rfl, rfl, by simp, fun _ => ⟨[], _, rfl, h, by simp⟩⟩
    · rw [if_neg h]
      obtain ⟨log, rest, h1, h2, h3, h4⟩ := ih (f s a).1 (pre ++ [(a, (f s a).2)])
      have h0 : (f s a).2 = 0 := by simpa [Spec.recorder] using h
      refine ⟨(a, (f s a).2) :: log, rest, ?_, by simp [← h2], ?_, ?_⟩
      · show (loop (Spec.recorder f) ((f s a).1, pre ++ [(a, (f s a).2)]) l).1.2 = _
        rw [h1]; simp
      · intro hr
        obtain ⟨h5, h6⟩ := h3 hr
        refine ⟨h5, ?_⟩
        intro c hc
        rcases List.mem_cons.1 hc with rfl | hc
        · exact h0
        · exact h6 c hc
      · intro hr
        obtain ⟨b, x, h5, h6, h7⟩ := h4 hr
        refine ⟨(a, (f s a).2) :: b, x, by simp [h5], h6, ?_⟩
        intro c hc
        rcases List.mem_cons.1 hc with rfl | hc
        · exact h0
        · exact h7 c hc

theorem loop_iteration {σ ι : Type} (f : σ → ι → σ × Int) (s : σ) (l items : List ι)
    (hp : l.Perm items) :
    Spec.IterationOf items (loop (Spec.recorder f) (s, []) l).1.2
      (loop (Spec.recorder f) (s, []) l).2 := by
  obtain ⟨log, rest, h1, h2, h3, h4⟩ := loop_recorder f s [] l
  rw [h1, List.nil_append]
  exact ⟨⟨rest, h2 ▸ hp, fun h => (h3 h).1⟩, fun h => (h3 h).2, h4⟩

/-- recording does not change what the iteration does -/
theorem loop_recorder_fst {σ ι : Type} (f : σ → ι → σ × Int) (s : σ) (pre : List (ι × Int))
    (l : List ι) :
    ((loop (Spec.recorder f) (s, pre) l).1.1, (loop (Spec.recorder f) (s, pre) l).2) = loop f s l := by
  induction l generalizing s pre with
  | nil => rfl
  | cons a l ih =>
    simp only [loop]
    by_cases h : (f s a).2 ≠ 0
    · rw [if_pos h, if_pos (by exact h)]; rfl
    · rw [if_neg h, if_neg (by exact h)]
      exact ih _ _

end Maa.Tab
