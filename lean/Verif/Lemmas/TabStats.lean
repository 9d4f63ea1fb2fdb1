import Verif.Lemmas.Tab

/-! Counter lemmas for the common table code (used by Props/TabStats.lean). -/

namespace Maa.Tab

variable {K D : Type}

theorem getStats_fields {t : Tab K D} {s : Stats} (h : getStats t = .ok s) :
    s.size = t.prime ∧ s.resizings = t.resizings ∧ s.entries = t.entries ∧
    s.retrievals = t.retrievals ∧ s.hits = t.hits ∧ s.misses = t.misses := by
  obtain ⟨e1, e2, e3, e4, e5, -⟩ := stats_fold t (List.range t.prime)
    { size := t.prime, resizings := t.resizings, entries := 0, buckets_used := 0, singletons := 0,
      maximum_length := 0, retrievals := t.retrievals, hits := t.hits, misses := t.misses }
  unfold getStats at h
  simp only at h e1 e2 e3 e4 e5
  split at h
  · simp at h
  · rename_i hc
    simp only [Res.ok.injEq] at h
    subst h
    exact ⟨e1, e2, (not_not.1 hc).symm, e3, e4, e5⟩

theorem insert_fields {ops : KeyOps K} {t t' : Tab K D} {k : K} {d : D} {x : Int}
    (h : insert ops t k d = .ok (t', x)) :
    t'.retrievals = t.retrievals ∧ t'.hits = t.hits ∧ t'.misses = t.misses ∧
    (¬ t.entries * 2 > t.prime → t'.resizings = t.resizings ∧ t'.prime = t.prime) ∧
    (t.entries * 2 > t.prime → t'.resizings = t.resizings + 1 ∧
      Prime.prmNextPrime (t.prime * 3) = some t'.prime) := by
  unfold insert at h
  simp only at h
  split at h
  · simp at h
  · have hg : ∀ {u : Tab K D}, grow t = .ok u → u.retrievals = t.retrievals ∧ u.hits = t.hits ∧
        u.misses = t.misses ∧
        (¬ t.entries * 2 > t.prime → u.resizings = t.resizings ∧ u.prime = t.prime) ∧
        (t.entries * 2 > t.prime → u.resizings = t.resizings + 1 ∧
          Prime.prmNextPrime (t.prime * 3) = some u.prime) := by
      intro u hu
      unfold grow at hu
      split at hu
      · rename_i hc
        unfold resize create at hu
        cases hp : Prime.prmNextPrime (t.prime * 3) with
        | none => rw [hp] at hu; simp at hu
        | some p =>
          rw [hp] at hu
          simp only [Res.bind_ok, Res.pure_eq, Res.ok.injEq] at hu
          subst hu
          refine ⟨rfl, rfl, rfl, fun hn => absurd hc hn, fun _ => ⟨rfl, ?_⟩⟩
          simp only [foldl_push_prime]
      · rename_i hc
        simp only [Res.ok.injEq] at hu
        subst hu
        exact ⟨rfl, rfl, rfl, fun _ => ⟨rfl, rfl⟩, fun hn => absurd hn hc⟩
    cases hu : grow t with
    | ok u =>
      rw [hu] at h
      obtain ⟨g1, g2, g3, g4, g5⟩ := hg hu
      simp only [Res.bind] at h
      split at h
      · simp at h
      · split at h <;> simp only [Res.ok.injEq, Prod.mk.injEq] at h <;> obtain ⟨rfl, -⟩ := h
        · exact ⟨g1, g2, g3, g4, g5⟩
        · exact ⟨g1, g2, g3, g4, g5⟩
    | _ => rw [hu] at h; simp [Res.bind] at h

theorem delete_fields {ops : KeyOps K} {t t' : Tab K D} {k : K} {x : Int}
    (h : delete ops t k = .ok (t', x)) :
    t'.retrievals = t.retrievals ∧ t'.hits = t.hits ∧ t'.misses = t.misses ∧
    t'.resizings = t.resizings ∧ t'.prime = t.prime := by
  unfold delete at h
  split at h
  · simp at h
  · simp only at h
    split at h
    · simp at h
    · split at h <;> simp only [Res.ok.injEq, Prod.mk.injEq] at h <;> obtain ⟨rfl, -⟩ := h <;>
        exact ⟨rfl, rfl, rfl, rfl, rfl⟩

/-- Is the entry that compares equal to `k` the first of its chain? -/
def atHead (ops : KeyOps K) (t : Tab K D) (k : K) : Bool :=
  match t.buckets (ops.hash k % t.prime) with
  | [] => false
  | e :: _ => ops.cmp e.key k == 0

theorem retrieve_fields {ops : KeyOps K} {t t' : Tab K D} {k : K} {x : Option D}
    (h : retrieve ops t k = .ok (t', x)) :
    t'.retrievals = t.retrievals + 1 ∧ t'.resizings = t.resizings ∧ t'.prime = t.prime ∧
    t'.hits = (if atHead ops t k then t.hits + 1 else t.hits) ∧
    t'.misses = (if x.isSome then t.misses else t.misses + 1) ∧
    t'.readonly = t.readonly ∧
    (x.isSome → t.readonly = 0 → atHead ops t' k = true) ∧
    (t.readonly ≠ 0 → t'.buckets = t.buckets) := by
  unfold retrieve at h
  split at h
  · simp at h
  · simp only at h
    unfold atHead
    cases hb : t.buckets (ops.hash k % t.prime) with
    | nil =>
      rw [hb] at h
      simp only [Res.ok.injEq, Prod.mk.injEq] at h
      obtain ⟨rfl, rfl⟩ := h
      simp
    | cons pt rest =>
      rw [hb] at h
      simp only at h
      by_cases hp : (ops.cmp pt.key k == 0) = true
      · rw [if_pos hp] at h
        simp only [Res.ok.injEq, Prod.mk.injEq] at h
        obtain ⟨rfl, rfl⟩ := h
        simp [hp, hb]
      · rw [if_neg hp] at h
        cases hq : rest.find? (fun pt => ops.cmp pt.key k == 0) with
        | none =>
          rw [hq] at h
          simp only [Res.ok.injEq, Prod.mk.injEq] at h
          obtain ⟨rfl, rfl⟩ := h
          simp [hp]
        | some q =>
          rw [hq] at h
          simp only at h
          have := List.find?_some hq
          split at h <;> simp only [Res.ok.injEq, Prod.mk.injEq] at h <;> obtain ⟨rfl, rfl⟩ := h
          · rename_i hro
            simp only [hp, setBucket]
            simp [hro]
            simpa using this
          · rename_i hro
            simp [hp, hro]

theorem atHead_congr {ops : KeyOps K} (law : ops.Lawful) (t : Tab K D) {k k' : K}
    (h : eqv ops k k' = true) : atHead ops t k = atHead ops t k' := by
  have hk : ops.cmp k k' = 0 := by simpa [eqv] using h
  unfold atHead
  rw [law.hash k k' hk]
  cases t.buckets (ops.hash k' % t.prime) with
  | nil => rfl
  | cons e l =>
    simp only
    rw [Bool.eq_iff_iff]
    simp only [beq_iff_eq]
    exact ⟨fun h1 => law.trans _ _ _ h1 hk, fun h1 => law.trans _ _ _ h1 (law.symm _ _ hk)⟩

end Maa.Tab
