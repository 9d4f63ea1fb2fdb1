import Verif.Model.Hash
import Verif.Spec.Table
import Verif.Lemmas.Hash

/-! # Properties C05, C06, C07, C09, C10: maa/hash.c

`Spec.run (hshStep ops) t hist` performs the calls `hist` on the model of hash.c;
`Spec.run (Spec.hashStep (eqv ops)) {} hist` performs them on a plain finite map (Spec/Map.lean,
Spec/Table.lean).  `Spec.observe` keeps the returned values (or the way the program ended).
`ops.Lawful` is the documented contract of the user's hash and compare functions. -/

namespace Maa.Hash

variable {K : Type}

/-- A concrete lawful instance with collisions: keys are numbers, all numbers equal modulo 2 hash
alike. -/
def exOps : KeyOps Nat := { hash := fun n => n % 2, cmp := fun a b => (a : Int) - b }

theorem exOps_lawful : exOps.Lawful := by
  constructor <;> simp only [exOps] <;> intros
  · omega
  · omega
  · omega
  · rename_i a b h
    have : a = b := by omega
    rw [this]

/-- C05: for every history of insert / delete / retrieve (and read-only switching) calls on a fresh
table, every returned value — and whether the program aborts, and where — is that of a plain finite
map.  In particular resizing, collisions and move-to-front are unobservable. -/
theorem C05_hash_table_is_finite_map (ops : KeyOps K) (law : ops.Lawful)
    (hist : List (Spec.HashOp K)) :
    (hshCreate.bind fun t => Spec.observe (Spec.run (hshStep ops) t hist)) =
      Spec.observe (Spec.run (Spec.hashStep (eqv ops)) {} hist) := by
  obtain ⟨t, h1, h2⟩ := history_sim law hist
  rw [h1]
  exact h2.observe

/-- C05, no call fails while the table is writable: histories of insert / delete / retrieve only
always run to the end. -/
theorem C05_never_aborts (ops : KeyOps K) (law : ops.Lawful) (hist : List (Spec.HashOp K))
    (h : ∀ o ∈ hist, ∀ f, o ≠ .readonly f) :
    ∃ t s, Reaches ops hist t s := by
  have key : ∀ (hist : List (Spec.HashOp K)) (s : Spec.MapState K), s.readonly = 0 →
      (∀ o ∈ hist, ∀ f, o ≠ .readonly f) →
      ∃ r, Spec.run (Spec.hashStep (eqv ops)) s hist = .ok r := by
    intro hist
    induction hist with
    | nil => intro s _ _; exact ⟨_, rfl⟩
    | cons o os ih =>
      intro s hs ho
      have hstep : ∃ r, Spec.hashStep (eqv ops) s o = .ok r ∧ r.1.readonly = 0 := by
        cases o with
        | insert k d => simp only [Spec.hashStep, hs]; exact ⟨_, rfl, rfl⟩
        | delete k => simp only [Spec.hashStep, hs]; exact ⟨_, rfl, rfl⟩
        | retrieve k =>
          simp only [Spec.hashStep]
          cases Spec.find (eqv ops) s.map k <;> exact ⟨_, rfl, hs⟩
        | readonly f => exact absurd rfl (ho _ (by simp) f)
      obtain ⟨r, h1, h2⟩ := hstep
      obtain ⟨q, hq⟩ := ih r.1 h2 (fun o ho' => ho o (by simp [ho']))
      exact ⟨(q.1, r.2 :: q.2), by simp only [Spec.run, h1, Res.bind, hq]⟩
  obtain ⟨⟨s, xs⟩, hr⟩ := key hist {} rfl h
  obtain ⟨t0, h1, h2⟩ := history_sim law hist
  rw [hr] at h2
  cases hrun : Spec.run (hshStep ops) t0 hist <;> rw [hrun] at h2 <;> simp only [Spec.ResRel] at h2
  rename_i r
  refine ⟨r.1, s, t0, xs, h1, ?_, hr⟩
  rw [hrun, ← h2.1]

/-- What the finite map of C05 means, stated as a function from keys to values: insert adds exactly
one binding, delete removes exactly one. -/
theorem C05_spec_is_map (ops : KeyOps K) (law : ops.Lawful) (m : List (K × Nat))
    (k x : K) (d : Nat) :
    (Spec.find (eqv ops) m k = none →
      Spec.find (eqv ops) (Spec.insert (eqv ops) m k d).1 x =
        (if eqv ops k x then some d else Spec.find (eqv ops) m x) ∧
      (Spec.insert (eqv ops) m k d).2 = 0) ∧
    (Spec.find (eqv ops) m k ≠ none → Spec.insert (eqv ops) m k d = (m, 1)) ∧
    (Spec.find (eqv ops) (Spec.delete (eqv ops) m k).1 x =
        (if eqv ops k x then none else Spec.find (eqv ops) m x)) ∧
    ((Spec.delete (eqv ops) m k).2 = if (Spec.find (eqv ops) m k).isSome then 0 else 1) := by
  refine ⟨?_, ?_, ?_, ?_⟩
  · intro h
    simp [Spec.insert, h, Spec.find]
  · intro h
    unfold Spec.insert
    cases hf : Spec.find (eqv ops) m k with
    | some d => rfl
    | none => exact absurd hf h
  · have hdel : (Spec.delete (eqv ops) m k).1 = m.filter (fun p => !eqv ops p.1 k) := by
      unfold Spec.delete
      cases hf : Spec.find (eqv ops) m k with
      | some d => rfl
      | none =>
        rw [Tab.find_none] at hf
        symm
        rw [List.filter_eq_self]
        intro p hp
        simp [hf p hp]
    rw [hdel]
    clear hdel
    induction m with
    | nil => simp [Spec.find]
    | cons p m ih =>
      obtain ⟨a, v⟩ := p
      simp only [List.filter_cons]
      by_cases hak : eqv ops a k = true
      · simp only [hak, Bool.not_true, Bool.false_eq_true, if_false, ih, Spec.find]
        by_cases hkx : eqv ops k x = true
        · simp [hkx]
        · have : eqv ops a x = false := by
            by_contra hc
            have hc : eqv ops a x = true := by simpa using hc
            exact hkx (Tab.eqv_trans law (by rw [Tab.eqv_symm law]; exact hak) hc)
          simp [hkx, this]
      · simp only [Bool.not_eq_true] at hak
        simp only [hak, Bool.not_false, if_true, Spec.find, ih]
        by_cases hax : eqv ops a x = true
        · have : eqv ops k x = false := by
            by_contra hc
            have hc : eqv ops k x = true := by simpa using hc
            have := Tab.eqv_trans law hax (by rw [Tab.eqv_symm law]; exact hc)
            rw [hak] at this; simp at this
          simp [hax, this]
        · simp [hax]
  · unfold Spec.delete
    cases Spec.find (eqv ops) m k <;> simp

/-- Non-vacuity for C05: colliding keys, a duplicate, a deletion, and growth of the table. -/
example : Spec.observe (Spec.run (Spec.hashStep (eqv exOps)) {}
    [.insert 1 10, .insert 3 30, .insert 1 11, .retrieve 1, .insert 5 50, .delete 3, .retrieve 3,
     .retrieve 5]) =
    .ok [.int 0, .int 0, .int 1, .ptr 10, .int 0, .int 0, .ptr 0, .ptr 50] := by decide

/-- C06: in every reachable state `hsh_get_stats` returns (it never aborts with "Incorrect count for
entries") and its numbers are the true ones. -/
theorem C06_stats_truthful (ops : KeyOps K) (law : ops.Lawful) (hist : List (Spec.HashOp K))
    (t : Table K) (m : Spec.MapState K) (h : Reaches ops hist t m) :
    ∃ s, hshGetStats t = .ok s ∧
      s.entries = m.map.length ∧ s.retrievals = m.retrievals ∧ s.misses = m.misses ∧
      s.hits + s.misses ≤ s.retrievals ∧
      s.buckets_used ≤ s.size ∧ s.singletons ≤ s.buckets_used ∧
      s.size = t.prime ∧
      s.buckets_used = (List.range t.prime).countP (fun i => !(t.buckets i).isEmpty) ∧
      s.singletons = (List.range t.prime).countP (fun i => (t.buckets i).length == 1) ∧
      (∀ i < t.prime, (t.buckets i).length ≤ s.maximum_length) ∧
      (s.maximum_length = 0 ∨ ∃ i < t.prime, (t.buckets i).length = s.maximum_length) := by
  have hs := h.sim law
  obtain ⟨e1, -, e2, e3, e4, e5, e6, e7, e8⟩ := Tab.stats_fold t (List.range t.prime)
    { size := t.prime, resizings := t.resizings, entries := 0, buckets_used := 0, singletons := 0,
      maximum_length := 0, retrievals := t.retrievals, hits := t.hits, misses := t.misses }
  simp only [Nat.zero_add] at e1 e2 e3 e4 e5 e6 e7 e8
  unfold hshGetStats Tab.getStats
  simp only
  set s := (List.range t.prime).foldl (Tab.statsStep t)
    { size := t.prime, resizings := t.resizings, entries := 0, buckets_used := 0, singletons := 0,
      maximum_length := 0, retrievals := t.retrievals, hits := t.hits, misses := t.misses } with hsdef
  have hcount : t.entries = s.entries := by rw [e5]; exact hs.rep.inv.count
  rw [if_neg (by simp [hcount])]
  have hmax : ∀ (l : List Nat) (a : Nat), (∀ i ∈ l, (t.buckets i).length ≤
      l.foldl (fun m i => max m (t.buckets i).length) a) ∧
      (a ≤ l.foldl (fun m i => max m (t.buckets i).length) a) ∧
      (l.foldl (fun m i => max m (t.buckets i).length) a = a ∨
        ∃ i ∈ l, (t.buckets i).length = l.foldl (fun m i => max m (t.buckets i).length) a) := by
    intro l
    induction l with
    | nil => intro a; simp
    | cons b l ih =>
      intro a
      simp only [List.foldl_cons]
      obtain ⟨i1, i2, i3⟩ := ih (max a (t.buckets b).length)
      refine ⟨?_, by omega, ?_⟩
      · intro i hi
        rcases List.mem_cons.1 hi with rfl | hi
        · omega
        · exact i1 i hi
      · rcases i3 with i3 | ⟨i, hi, i3⟩
        · by_cases hab : (t.buckets b).length ≤ a
          · left; omega
          · right; exact ⟨b, by simp, by omega⟩
        · right; exact ⟨i, by simp [hi], i3⟩
  refine ⟨s, rfl, ?_, by rw [e2, hs.retr], by rw [e4, hs.miss], ?_, ?_, ?_, e1, e6, e7, ?_, ?_⟩
  · rw [← hcount, hs.rep.inv.count, ← hs.rep.perm.length_eq]
    simp [Tab.pairsOf]
  · rw [e2, e3, e4]; exact hs.hits
  · rw [e6, e1]
    have := List.countP_le_length (p := fun i => !(t.buckets i).isEmpty) (l := List.range t.prime)
    simpa using this
  · rw [e6, e7]
    apply List.countP_mono_left
    intro i _ hi
    have : (t.buckets i).length = 1 := by simpa using hi
    cases hb : t.buckets i with
    | nil => rw [hb] at this; simp at this
    | cons _ _ => rfl
  · intro i hi
    rw [e8]
    exact (hmax (List.range t.prime) 0).1 i (List.mem_range.2 hi)
  · rw [e8]
    rcases (hmax (List.range t.prime) 0).2.2 with h0 | ⟨i, hi, h0⟩
    · exact Or.inl h0
    · exact Or.inr ⟨i, List.mem_range.1 hi, h0⟩

/-- C07: `hsh_iterate` / `hsh_iterate_arg` with any callback (any state, any decision to stop) on any
reachable table is a correct iteration over the map's pairs. -/
theorem C07_iterate (ops : KeyOps K) (law : ops.Lawful) (hist : List (Spec.HashOp K))
    (t : Table K) (m : Spec.MapState K) (h : Reaches ops hist t m) {σ : Type}
    (f : σ → K × Ptr → σ × Int) (s : σ) :
    let r := hshIterate t (fun st k d => Spec.recorder f st (k, d)) (s, [])
    Spec.IterationOf m.map r.1.2 r.2 ∧
    -- the recording changes nothing else
    hshIterate t (fun st k d => f st (k, d)) s = (r.1.1, r.2) := by
  have hs := h.sim law
  unfold hshIterate
  rw [Tab.iterLoop_eq_loop (fun e => (e.key, e.datum)) (Spec.recorder f),
    Tab.iterLoop_eq_loop (fun e => (e.key, e.datum)) f]
  exact ⟨Tab.loop_iteration f s _ _ hs.rep.perm, (Tab.loop_recorder_fst f s [] _).symm⟩

/-- Non-vacuity for C06 and C07: a reachable table with three entries. -/
example : ∃ t m, Reaches exOps [.insert 1 10, .insert 3 30, .insert 4 40, .retrieve 7] t m ∧
    m.map.length = 3 ∧ m.misses = 1 := by
  obtain ⟨t, m, h⟩ := C05_never_aborts exOps exOps_lawful
    [.insert 1 10, .insert 3 30, .insert 4 40, .retrieve 7] (by simp)
  refine ⟨t, m, h, ?_⟩
  obtain ⟨_, outs, -, -, h3⟩ := h
  have : ∀ r, Spec.run (Spec.hashStep (eqv exOps)) {}
      [.insert 1 10, .insert 3 30, .insert 4 40, .retrieve 7] = .ok r →
      r.1.map.length = 3 ∧ r.1.misses = 1 := by
    intro r hr
    have e : Spec.run (Spec.hashStep (eqv exOps)) {}
      [.insert 1 10, .insert 3 30, .insert 4 40, .retrieve 7] =
      .ok ({ map := [(4, 40), (3, 30), (1, 10)], readonly := 0, retrievals := 1, misses := 1 },
        [.int 0, .int 0, .int 0, .ptr 0]) := by rfl
    rw [e] at hr
    simp only [Res.ok.injEq] at hr
    rw [← hr]; simp
  exact this _ h3

/-- C09, proved part: while the flag is set, insert, delete and destroy abort in every reachable state,
and retrieve answers correctly, keeps the flag and does not change the order of the entries (the
order in which iteration visits them).  The last clause of the property — a user-set flag stays set
until the user clears it — is false of position iteration; see `C09_refuted_position` in
Props/HashHeap.lean. -/
theorem C09_readonly_partial (ops : KeyOps K) (law : ops.Lawful) (hist : List (Spec.HashOp K))
    (t : Table K) (m : Spec.MapState K) (h : Reaches ops hist t m) (hro : t.readonly ≠ 0)
    (k : K) (d : Ptr) :
    hshInsert ops t k d = .abort ∧ hshDelete ops t k = .abort ∧ hshDestroy t = .abort ∧
    ∃ t', hshRetrieve ops t k = .ok (t', (Spec.find (eqv ops) m.map k).getD 0) ∧
      t'.readonly = t.readonly ∧ Tab.all t' = Tab.all t := by
  have hs := h.sim law
  have hp : t.prime ≠ 0 := by have := hs.rep.inv.pos; omega
  refine ⟨by simp [hshInsert, Tab.insert, hro], by simp [hshDelete, Tab.delete, hro, hp],
    by simp [hshDestroy, Tab.destroy, hro], ?_⟩
  obtain ⟨t', h1, -, h3⟩ := Tab.retrieve_rep law hs.rep k
  refine ⟨t', ?_, h3.readonly, ?_⟩
  · simp only [hshRetrieve, h1, Res.bind_ok, Res.pure_eq]
    cases Spec.find (eqv ops) m.map k <;> rfl
  · simp [Tab.all, h3.prime, h3.ro_buckets hro]

/-- C09, over histories: only `hsh_readonly` changes the flag. -/
theorem C09_flag_stays (ops : KeyOps K) (law : ops.Lawful) (hist : List (Spec.HashOp K))
    (t : Table K) (m : Spec.MapState K) (h : Reaches ops hist t m) (o : Spec.HashOp K)
    (ho : ∀ f, o ≠ .readonly f) (t' : Table K) (x : Spec.Ret)
    (hstep : hshStep ops t o = .ok (t', x)) : t'.readonly = t.readonly := by
  have hs := h.sim law
  have hsim := step_sim law t m o hs
  rw [hstep] at hsim
  cases o with
  | insert k d =>
    simp only [Spec.hashStep] at hsim
    split at hsim
    · simp [Spec.ResRel] at hsim
    · exact hsim.2.ro.trans hs.ro.symm
  | delete k =>
    simp only [Spec.hashStep] at hsim
    split at hsim
    · simp [Spec.ResRel] at hsim
    · exact hsim.2.ro.trans hs.ro.symm
  | retrieve k =>
    simp only [Spec.hashStep] at hsim
    cases hf : Spec.find (eqv ops) m.map k <;> rw [hf] at hsim <;>
      exact hsim.2.ro.trans hs.ro.symm
  | readonly f => exact absurd rfl (ho f)

example : ∃ t m, Reaches exOps [.insert 1 10, .insert 3 30, .readonly 1] t m ∧ t.readonly ≠ 0 := by
  obtain ⟨t, h1, h2⟩ := history_sim exOps_lawful
    [.insert 1 10, .insert 3 30, .readonly 1]
  have e : Spec.run (Spec.hashStep (eqv exOps)) {} [.insert 1 10, .insert 3 30, .readonly 1] =
    .ok ({ map := [(3, 30), (1, 10)], readonly := 1, retrievals := 0, misses := 0 },
      [.int 0, .int 0, .int 0]) := by rfl
  rw [e] at h2
  cases hrun : Spec.run (hshStep exOps) t [.insert 1 10, .insert 3 30, .readonly 1] <;>
    rw [hrun] at h2 <;> simp only [Spec.ResRel] at h2
  rename_i r
  refine ⟨r.1, _, ⟨t, r.2, h1, hrun, by rw [e, h2.1]⟩, ?_⟩
  rw [h2.2.ro]; decide

/-- C10: after any history during which the table never had more than 715 827 880 entries the number of entries is at most half
the table size plus one, and the size is never 0 (so `hash % size` is always defined).  The bound is what keeps the prime
search (which starts at three times the size) within `unsigned int`. -/
theorem C10_load_bounded (ops : KeyOps K) (hist : List (Spec.HashOp K)) (t0 t : Table K) (outs : List Spec.Ret)
    (h0 : hshCreate = .ok t0) (hr : Spec.run (hshStep ops) t0 hist = .ok (t, outs))
    (few : ∀ pre, pre <+: hist → ∀ t' outs', Spec.run (hshStep ops) t0 pre = .ok (t', outs') → t'.entries ≤ 715827880) :
    t.entries ≤ t.prime / 2 + 1 ∧ 1 ≤ t.prime := by
  have hl := Spec.run_prefix_inv (hshStep ops) Tab.Load (fun t => t.entries ≤ 715827880)
    (fun s o s' x hP hQ hs => step_load hP hQ hs) hist t0 t outs (Tab.create_load h0) hr few
  have a := hl.half
  have b := hl.pos
  exact ⟨by omega, b⟩

/-- C10, in terms of the number of calls: a history of at most 715 827 880 calls never gets near the bound. -/
theorem C10_load_bounded_calls (ops : KeyOps K) (law : ops.Lawful) (hist : List (Spec.HashOp K)) (hlen : hist.length ≤ 715827880)
    (t0 t : Table K) (outs : List Spec.Ret) (h0 : hshCreate = .ok t0) (hr : Spec.run (hshStep ops) t0 hist = .ok (t, outs)) :
    t.entries ≤ t.prime / 2 + 1 ∧ 1 ≤ t.prime := by
  refine C10_load_bounded ops hist t0 t outs h0 hr fun pre hp t' outs' h => ?_
  have hle : t'.entries ≤ pre.length := by
    have key : ∀ (os : List (Spec.HashOp K)) (s : Table K) (m : Spec.MapState K) (s' : Table K) (xs : List Spec.Ret), Sim ops s m →
        Spec.run (hshStep ops) s os = .ok (s', xs) → s'.entries ≤ s.entries + os.length := by
      intro os
      induction os with
      | nil =>
        intro s m s' xs _ h
        simp only [Spec.run, Res.ok.injEq, Prod.mk.injEq] at h
        rw [← h.1]; simp
      | cons o os ih =>
        intro s m s' xs hsim h
        simp only [Spec.run] at h
        cases hs : hshStep ops s o <;> rw [hs] at h <;> simp [Res.bind] at h
        rename_i r
        cases hr2 : Spec.run (hshStep ops) r.1 os <;> rw [hr2] at h <;> simp at h
        rename_i q
        have e1 := step_entries law hsim hs
        have h2 := step_sim law s m o hsim
        rw [hs] at h2
        cases ha : Spec.hashStep (eqv ops) m o <;> rw [ha] at h2 <;> simp only [Spec.ResRel] at h2
        have e2 := ih r.1 _ q.1 q.2 h2.2 hr2
        rw [← h.1]
        simp only [List.length_cons]
        omega
    obtain ⟨t1, c1, c2⟩ := history_sim law ([] : List (Spec.HashOp K))
    rw [h0] at c1
    cases c1
    have hz : t0.entries = 0 := by
      have := h0
      unfold hshCreate Tab.create at this
      rw [Prime.C02_refuted_small.1] at this
      simp only [Res.ok.injEq] at this
      rw [← this]
    have := key pre t0 {} t' outs' c2.2 h
    omega
  have := hp.length_le
  omega

/-- C10 at any size: the table never has size 0, whatever happened before (no division by zero). -/
theorem C10_size_never_zero (ops : KeyOps K) (law : ops.Lawful) (hist : List (Spec.HashOp K))
    (t : Table K) (m : Spec.MapState K) (h : Reaches ops hist t m) : 1 ≤ t.prime :=
  (h.sim law).rep.inv.pos

end Maa.Hash
