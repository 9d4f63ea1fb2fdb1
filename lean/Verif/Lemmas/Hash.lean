import Verif.Model.Hash
import Verif.Spec.Table
import Verif.Lemmas.Tab
import Verif.Lemmas.Load
import Verif.Lemmas.Iter

namespace Maa.Hash

variable {K : Type}

/-- Table and specification state agree. -/
structure Sim (ops : KeyOps K) (t : Table K) (s : Spec.MapState K) : Prop where
  rep : Tab.Rep ops t s.map
  ro : t.readonly = s.readonly
  retr : t.retrievals = s.retrievals
  miss : t.misses = s.misses
  hits : t.hits + t.misses ≤ t.retrievals

theorem step_sim {ops : KeyOps K} (law : ops.Lawful) (t : Table K) (s : Spec.MapState K)
    (o : Spec.HashOp K) (h : Sim ops t s) :
    Spec.ResRel (fun c b => c.2 = b.2 ∧ Sim ops c.1 b.1) (hshStep ops t o)
      (Spec.hashStep (eqv ops) s o) := by
  cases o with
  | insert k d =>
    simp only [hshStep, Spec.hashStep, hshInsert]
    by_cases hro : s.readonly = 0
    · obtain ⟨t', h1, h2, h3, h4, h5, h6⟩ := Tab.insert_rep law h.rep (h.ro.trans hro) k d
      rw [h1, if_neg (by simp [hro])]
      refine ⟨rfl, h2, h3.trans h.ro, h4.trans h.retr, h6.trans h.miss, ?_⟩
      simp only
      rw [h4, h5, h6]; exact h.hits
    · rw [if_pos hro]
      have : t.readonly ≠ 0 := by rw [h.ro]; exact hro
      simp [Tab.insert, this, Res.bind, Spec.ResRel]
  | delete k =>
    simp only [hshStep, Spec.hashStep, hshDelete]
    by_cases hro : s.readonly = 0
    · obtain ⟨t', h1, h2, h3, h4, h5, h6, -⟩ := Tab.delete_rep law h.rep (h.ro.trans hro) k
      rw [h1, if_neg (by simp [hro])]
      refine ⟨rfl, h2, h3.trans h.ro, h4.trans h.retr, h6.trans h.miss, ?_⟩
      simp only
      rw [h4, h5, h6]; exact h.hits
    · rw [if_pos hro]
      have : t.readonly ≠ 0 := by rw [h.ro]; exact hro
      have hp : t.prime ≠ 0 := by have := h.rep.inv.pos; omega
      simp [Tab.delete, this, hp, Res.bind, Spec.ResRel]
  | retrieve k =>
    simp only [hshStep, Spec.hashStep, hshRetrieve]
    obtain ⟨t', h1, h2, h3⟩ := Tab.retrieve_rep law h.rep k
    rw [h1]
    have e1 := h3.retrievals
    have e2 := h3.misses
    have e3 := h3.hits_le
    have e4 := h.hits
    cases hf : Spec.find (eqv ops) s.map k with
    | some d =>
      rw [hf] at e2 e3
      simp only [Option.isSome_some, if_true] at e2 e3
      refine ⟨rfl, h2, h3.readonly.trans h.ro, ?_, e2.trans h.miss, ?_⟩
      · simp only; rw [e1, h.retr]
      · simp only; omega
    | none =>
      rw [hf] at e2 e3
      simp only [Option.isSome_none, Bool.false_eq_true, if_false] at e2 e3
      refine ⟨rfl, h2, h3.readonly.trans h.ro, ?_, ?_, ?_⟩
      · simp only; rw [e1, h.retr]
      · simp only; rw [e2, h.miss]
      · simp only; omega
  | readonly f =>
    simp only [hshStep, Spec.hashStep, hshReadonly, Tab.setReadonly]
    exact ⟨by simp [h.ro], h.rep.congr rfl rfl rfl, rfl, h.retr, h.miss, h.hits⟩

theorem create_sim (ops : KeyOps K) : ∃ t, hshCreate (K := K) = .ok t ∧ Sim ops t {} := by
  obtain ⟨t, h1, h2, -, h3, h4, h5, h6, h7, h8, -⟩ := Tab.create_ok (K := K) (D := Ptr) 0
  exact ⟨t, h1, Tab.create_rep ops t h2 h4 h3, h5, h6, h8, by omega⟩

/-- Everything a history of calls on a fresh table preserves. -/
theorem history_sim {ops : KeyOps K} (law : ops.Lawful) (hist : List (Spec.HashOp K)) :
    ∃ t, hshCreate (K := K) = .ok t ∧
      Spec.ResRel (fun c b => c.2 = b.2 ∧ Sim ops c.1 b.1)
        (Spec.run (hshStep ops) t hist) (Spec.run (Spec.hashStep (eqv ops)) {} hist) := by
  obtain ⟨t, h1, h2⟩ := create_sim ops
  exact ⟨t, h1, Spec.run_sim (Sim ops) _ _ (step_sim law) t {} hist h2⟩

theorem Reaches.sim {ops : KeyOps K} (law : ops.Lawful) {hist : List (Spec.HashOp K)} {t : Table K}
    {s : Spec.MapState K} (h : Reaches ops hist t s) : Sim ops t s := by
  obtain ⟨t0, outs, h1, h2, h3⟩ := h
  obtain ⟨t', h4, h5⟩ := history_sim law hist
  rw [h1] at h4
  cases h4
  rw [h2, h3] at h5
  exact h5.2

/-! load -/

open Tab (Load)

theorem step_load {ops : KeyOps K} {t t' : Table K} {o : Spec.HashOp K} {x : Spec.Ret}
    (h : Load t) (hn : t'.entries ≤ Tab.many) (hs : hshStep ops t o = .ok (t', x)) : Load t' := by
  cases o with
  | insert k d =>
    simp only [hshStep] at hs
    cases hi : hshInsert ops t k d <;> rw [hi] at hs <;> simp [Res.bind] at hs
    rename_i r
    rw [← hs.1] at hn ⊢
    exact (Tab.insert_load h hn (r := r.2) hi).1
  | delete k =>
    simp only [hshStep] at hs
    cases hi : hshDelete ops t k <;> rw [hi] at hs <;> simp [Res.bind] at hs
    rename_i r
    rw [← hs.1]
    exact Tab.delete_load h (r := r.2) hi
  | retrieve k =>
    simp only [hshStep, hshRetrieve] at hs
    cases hr : Tab.retrieve ops t k <;> rw [hr] at hs <;> simp [Res.bind] at hs
    rename_i r
    rw [← hs.1]
    exact Tab.retrieve_load h (r := r.2) hr
  | readonly f =>
    simp only [hshStep, hshReadonly, Tab.setReadonly, Res.ok.injEq, Prod.mk.injEq] at hs
    rw [← hs.1]
    exact ⟨h.half, h.pos⟩

/-- A call adds at most one entry. -/
theorem step_entries {ops : KeyOps K} (law : ops.Lawful) {t t' : Table K} {m : Spec.MapState K} {o : Spec.HashOp K} {x : Spec.Ret}
    (h : Sim ops t m) (hs : hshStep ops t o = .ok (t', x)) : t'.entries ≤ t.entries + 1 := by
  cases o with
  | insert k d =>
    simp only [hshStep] at hs
    cases hi : hshInsert ops t k d <;> rw [hi] at hs <;> simp [Res.bind] at hs
    rename_i r
    rw [← hs.1]
    simp only [hshInsert, Tab.insert] at hi
    split at hi
    · simp at hi
    · cases hg : Tab.grow t <;> rw [hg] at hi <;> simp only [Res.bind] at hi <;> try simp at hi
      rename_i t1
      have g0 : t1.entries = t.entries := by
        unfold Tab.grow at hg
        split at hg
        · obtain ⟨nt, hn1, -⟩ := Tab.create_ok (K := K) (D := Ptr) (t.prime * 3)
          simp only [Tab.resize, hn1, Res.bind_ok, Res.pure_eq, Res.ok.injEq] at hg
          rw [← hg]
        · simp only [Res.ok.injEq] at hg
          rw [hg]
      split at hi
      · simp at hi
      · split at hi <;> simp only [Res.ok.injEq] at hi <;> rw [← hi] <;> (try simp only [Tab.push]) <;> omega
  | delete k =>
    simp only [hshStep] at hs
    cases hi : hshDelete ops t k <;> rw [hi] at hs <;> simp [Res.bind] at hs
    rename_i r
    rw [← hs.1]
    simp only [hshDelete, Tab.delete] at hi
    split at hi
    · simp at hi
    · split at hi
      · simp at hi
      · split at hi <;> simp at hi <;> rw [← hi] <;> simp only <;> omega
  | retrieve k =>
    simp only [hshStep, hshRetrieve] at hs
    obtain ⟨t2, h1, -, h3⟩ := Tab.retrieve_rep law h.rep k
    simp only [h1, Res.bind_ok, Res.pure_eq, Res.bind, Res.ok.injEq, Prod.mk.injEq] at hs
    rw [← hs.1, h3.entries]
    omega
  | readonly f =>
    simp only [hshStep, hshReadonly, Tab.setReadonly, Res.ok.injEq, Prod.mk.injEq] at hs
    rw [← hs.1]
    simp

end Maa.Hash
