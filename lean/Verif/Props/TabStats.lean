import Verif.Lemmas.TabStats
import Verif.Props.Hash
import Verif.Props.Set

/-! # Property C63: the counters of hsh_get_stats and set_get_stats

Stated on what `hsh_get_stats` / `set_get_stats` report before and after a call. -/

namespace Maa

/-- What one insertion does to the reported numbers: lookups are not counted; the table grows exactly when
more than half of it is full, and then the growth is counted and the new size is what
`prm_next_prime` returns for three times the old one. -/
def InsertCounts (s s' : Tab.Stats) : Prop :=
  s'.retrievals = s.retrievals ∧ s'.hits = s.hits ∧ s'.misses = s.misses ∧
  (s.entries * 2 ≤ s.size → s'.resizings = s.resizings ∧ s'.size = s.size) ∧
  (s.entries * 2 > s.size → s'.resizings = s.resizings + 1 ∧
    Prime.prmNextPrime (s.size * 3) = some s'.size)

/-- Nothing but (possibly) the entries and the distribution over buckets changed. -/
def SameCounts (s s' : Tab.Stats) : Prop :=
  s'.retrievals = s.retrievals ∧ s'.hits = s.hits ∧ s'.misses = s.misses ∧
  s'.resizings = s.resizings ∧ s'.size = s.size

/-- One lookup: counted; a miss is counted exactly when nothing was found; at most one hit is counted and
only when something was found. -/
def LookupCounts (found : Bool) (s s' : Tab.Stats) : Prop :=
  s'.retrievals = s.retrievals + 1 ∧ s'.misses = s.misses + (if found then 0 else 1) ∧
  (s'.hits = s.hits ∨ (found = true ∧ s'.hits = s.hits + 1)) ∧
  s'.resizings = s.resizings ∧ s'.size = s.size ∧ s'.entries = s.entries

theorem insertCounts_of {K D : Type} {ops : KeyOps K} {t t' : Tab.Tab K D} {k : K} {d : D} {x : Int}
    (h : Tab.insert ops t k d = .ok (t', x)) {s s' : Tab.Stats} (hs : Tab.getStats t = .ok s)
    (hs' : Tab.getStats t' = .ok s') : InsertCounts s s' := by
  obtain ⟨a1, a2, a3, a4, a5, a6⟩ := Tab.getStats_fields hs
  obtain ⟨b1, b2, b3, b4, b5, b6⟩ := Tab.getStats_fields hs'
  obtain ⟨f1, f2, f3, f4, f5⟩ := Tab.insert_fields h
  refine ⟨by rw [b4, a4, f1], by rw [b5, a5, f2], by rw [b6, a6, f3], ?_, ?_⟩
  · rw [a1, a2, a3, b1, b2]; intro hh; exact f4 (by omega)
  · rw [a1, a2, a3, b1, b2]; exact f5

theorem sameCounts_of_delete {K D : Type} {ops : KeyOps K} {t t' : Tab.Tab K D} {k : K} {x : Int}
    (h : Tab.delete ops t k = .ok (t', x)) {s s' : Tab.Stats} (hs : Tab.getStats t = .ok s)
    (hs' : Tab.getStats t' = .ok s') : SameCounts s s' := by
  obtain ⟨a1, a2, a3, a4, a5, a6⟩ := Tab.getStats_fields hs
  obtain ⟨b1, b2, b3, b4, b5, b6⟩ := Tab.getStats_fields hs'
  obtain ⟨f1, f2, f3, f4, f5⟩ := Tab.delete_fields h
  exact ⟨by rw [b4, a4, f1], by rw [b5, a5, f2], by rw [b6, a6, f3], by rw [b2, a2, f4], by rw [b1, a1, f5]⟩

theorem lookupCounts_of {K D : Type} {ops : KeyOps K} (law : ops.Lawful) {t t' : Tab.Tab K D} {k : K}
    {m : List (K × D)} (rep : Tab.Rep ops t m) {x : Option D}
    (h : Tab.retrieve ops t k = .ok (t', x)) {s s' : Tab.Stats} (hs : Tab.getStats t = .ok s)
    (hs' : Tab.getStats t' = .ok s') : LookupCounts x.isSome s s' := by
  obtain ⟨a1, a2, a3, a4, a5, a6⟩ := Tab.getStats_fields hs
  obtain ⟨b1, b2, b3, b4, b5, b6⟩ := Tab.getStats_fields hs'
  obtain ⟨u, h1, -, ef⟩ := Tab.retrieve_rep law rep k
  rw [h] at h1
  simp only [Res.ok.injEq, Prod.mk.injEq] at h1
  obtain ⟨rfl, rfl⟩ := h1
  refine ⟨by rw [b4, a4, ef.retrievals], ?_, ?_, by rw [b2, a2, ef.resizings], by rw [b1, a1, ef.prime],
    by rw [b3, a3, ef.entries]⟩
  · rw [b6, a6, ef.misses]; cases (Spec.find (eqv ops) m k).isSome <;> simp
  · have := ef.hits_ge
    have := ef.hits_le
    rw [b5, a5]
    cases hx : (Spec.find (eqv ops) m k).isSome <;> simp only [hx] at this <;> simp at this ⊢ <;> omega

/-- looking up the same key again right away -/
theorem repeat_of {K D : Type} {ops : KeyOps K} (law : ops.Lawful) {t t1 t2 : Tab.Tab K D} {k k' : K}
    {x y : Option D} (hk : eqv ops k k' = true)
    (h1 : Tab.retrieve ops t k = .ok (t1, x)) (h2 : Tab.retrieve ops t1 k' = .ok (t2, y))
    {s0 s1 s2 : Tab.Stats} (hs0 : Tab.getStats t = .ok s0) (hs1 : Tab.getStats t1 = .ok s1)
    (hs2 : Tab.getStats t2 = .ok s2) :
    (t.readonly = 0 → x.isSome → s2.hits = s1.hits + 1) ∧
    (t.readonly ≠ 0 → s2.hits - s1.hits = s1.hits - s0.hits) := by
  obtain ⟨-, -, -, -, a5, -⟩ := Tab.getStats_fields hs0
  obtain ⟨-, -, -, -, b5, -⟩ := Tab.getStats_fields hs1
  obtain ⟨-, -, -, -, c5, -⟩ := Tab.getStats_fields hs2
  obtain ⟨-, -, p1, f4, -, -, f7, f8⟩ := Tab.retrieve_fields h1
  obtain ⟨-, -, -, g4, -, -, -, -⟩ := Tab.retrieve_fields h2
  rw [← Tab.atHead_congr law t1 hk] at g4
  rw [a5, b5, c5]
  constructor
  · intro hro hx
    rw [g4, if_pos (f7 hx hro)]
  · intro hro
    have hsame : Tab.atHead ops t1 k = Tab.atHead ops t k := by
      unfold Tab.atHead; rw [f8 hro, p1]
    rw [g4, f4, hsame]
    split <;> omega

namespace Hash

variable {K : Type}

/-- C63, hash tables: after any history, one more call changes the numbers reported by `hsh_get_stats` in
exactly the documented way. -/
theorem C63_hash_counters (ops : KeyOps K) (law : ops.Lawful) (hist : List (Spec.HashOp K))
    (t : Table K) (m : Spec.MapState K) (h : Reaches ops hist t m) (o : Spec.HashOp K) (t' : Table K)
    (x : Spec.Ret) (hstep : hshStep ops t o = .ok (t', x)) :
    ∃ s s', hshGetStats t = .ok s ∧ hshGetStats t' = .ok s' ∧
      match o with
      | .insert _ _ => InsertCounts s s' ∧ s'.entries = s.entries + (if x = .int 0 then 1 else 0)
      | .delete _ => SameCounts s s' ∧ s'.entries + (if x = .int 0 then 1 else 0) = s.entries
      | .retrieve k => LookupCounts (Spec.find (eqv ops) m.map k).isSome s s'
      | .readonly _ => s' = s := by
  have hs := h.sim law
  have hsim := step_sim law t m o hs
  rw [hstep] at hsim
  have hst : ∀ (t : Table K) (m : Spec.MapState K), Sim ops t m →
      ∃ s, Tab.getStats t = .ok s ∧ s.entries = m.map.length := by
    intro t m hs
    obtain ⟨-, -, -, -, -, e5, -⟩ := Tab.stats_fold t (List.range t.prime)
      { size := t.prime, resizings := t.resizings, entries := 0, buckets_used := 0, singletons := 0,
        maximum_length := 0, retrievals := t.retrievals, hits := t.hits, misses := t.misses }
    unfold Tab.getStats
    simp only at e5 ⊢
    rw [Nat.zero_add] at e5
    have hcnt := hs.rep.inv.count
    have hl : (Tab.all t).length = m.map.length := by
      rw [← hs.rep.perm.length_eq]; simp [Tab.pairsOf]
    unfold Tab.all at hcnt hl
    rw [if_neg (by rw [e5, ← hcnt]; simp)]
    exact ⟨_, rfl, by rw [e5, hl]⟩
  obtain ⟨s, g1, g1'⟩ := hst t m hs
  cases ha : Spec.hashStep (eqv ops) m o <;> rw [ha] at hsim <;> simp only [Spec.ResRel] at hsim
  rename_i b
  obtain ⟨hx, hs'⟩ := hsim
  obtain ⟨s', g2, g2'⟩ := hst t' b.1 hs'
  refine ⟨s, s', g1, g2, ?_⟩
  cases o with
  | insert k d =>
    simp only [hshStep, hshInsert] at hstep
    cases hi : Tab.insert ops t k d <;> rw [hi] at hstep <;> simp only [Res.bind, reduceCtorEq] at hstep
    rename_i r
    simp only [Res.ok.injEq, Prod.mk.injEq] at hstep
    obtain ⟨rfl, rfl⟩ := hstep
    refine ⟨insertCounts_of hi g1 g2, ?_⟩
    rw [g1', g2']
    simp only [Spec.hashStep] at ha
    split at ha
    · simp at ha
    · simp only [Res.ok.injEq] at ha
      subst ha
      simp only [Spec.Ret.int.injEq] at hx ⊢
      rw [hx]
      cases hf : Spec.find (eqv ops) m.map k <;> simp [Spec.insert, hf]
  | delete k =>
    simp only [hshStep, hshDelete] at hstep
    cases hi : Tab.delete ops t k <;> rw [hi] at hstep <;> simp only [Res.bind, reduceCtorEq] at hstep
    rename_i r
    simp only [Res.ok.injEq, Prod.mk.injEq] at hstep
    obtain ⟨rfl, rfl⟩ := hstep
    refine ⟨sameCounts_of_delete hi g1 g2, ?_⟩
    have hro : t.readonly = 0 := by
      by_contra hc
      have := hs.rep.inv.pos
      rw [Tab.delete, if_neg (by omega)] at hi
      simp [hc] at hi
    obtain ⟨u, h1, h2, -, -, -, -, h7⟩ := Tab.delete_rep law hs.rep hro k
    rw [hi] at h1
    simp only [Res.ok.injEq] at h1
    obtain ⟨-, -, a3, -⟩ := Tab.getStats_fields g1
    obtain ⟨-, -, b3, -⟩ := Tab.getStats_fields g2
    have hlen : ∀ {u : Table K} {l}, Tab.Rep ops u l → u.entries = l.length := by
      intro u l hr
      rw [hr.inv.count, ← hr.perm.length_eq]; simp [Tab.pairsOf]
    have e1 := hlen hs.rep
    -- exactly one entry fewer
    unfold Tab.delete at hi
    have hp : ¬ t.prime = 0 := by have := hs.rep.inv.pos; omega
    rw [if_neg hp] at hi
    simp only [hro, ne_eq, not_true_eq_false, if_false] at hi
    split at hi <;> simp only [Res.ok.injEq] at hi <;> subst hi
    · rename_i hany
      rw [a3, b3]
      simp only [if_true]
      have : 0 < t.entries := by
        rw [hs.rep.inv.count, List.length_pos_iff]
        rw [List.any_eq_true] at hany
        obtain ⟨e, he, -⟩ := hany
        intro h0
        have := (Tab.mem_all t e).2 ⟨_, Nat.mod_lt _ (by omega), he⟩
        rw [h0] at this; simp at this
      omega
    · rw [a3, b3]; simp
  | retrieve k =>
    simp only [hshStep, hshRetrieve] at hstep
    cases hi : Tab.retrieve ops t k <;> rw [hi] at hstep <;> simp [Res.bind] at hstep
    rename_i r
    obtain ⟨rfl, -⟩ := hstep
    obtain ⟨u, h1, -⟩ := Tab.retrieve_rep law hs.rep k
    have hr2 : r.2 = Spec.find (eqv ops) m.map k := by
      rw [hi] at h1
      simp only [Res.ok.injEq] at h1
      rw [h1]
    have := lookupCounts_of law hs.rep (x := r.2) (t' := r.1) hi g1 g2
    rw [hr2] at this
    exact this
  | readonly f =>
    simp only [hshStep, hshReadonly, Tab.setReadonly, Res.ok.injEq, Prod.mk.injEq] at hstep
    obtain ⟨rfl, -⟩ := hstep
    have : Tab.getStats { t with readonly := f } = Tab.getStats t := rfl
    rw [this, g1] at g2
    exact (Res.ok.inj g2).symm

/-- C63, move-to-front seen through the hit counter: after a successful lookup on a writable table,
looking the key up again (or an equal one) counts exactly one hit; on a read-only table a lookup
counts as many hits as the one before it. -/
theorem C63_hash_repeated_lookup (ops : KeyOps K) (law : ops.Lawful) (hist : List (Spec.HashOp K))
    (t : Table K) (m : Spec.MapState K) (h : Reaches ops hist t m) (k k' : K) (hk : eqv ops k k' = true) :
    ∃ t1 t2 d s0 s1 s2, hshRetrieve ops t k = .ok (t1, d) ∧ hshRetrieve ops t1 k' = .ok (t2, d) ∧
      hshGetStats t = .ok s0 ∧ hshGetStats t1 = .ok s1 ∧ hshGetStats t2 = .ok s2 ∧
      (t.readonly = 0 → Spec.find (eqv ops) m.map k ≠ none → s2.hits = s1.hits + 1) ∧
      (t.readonly ≠ 0 → s2.hits - s1.hits = s1.hits - s0.hits) := by
  have hs := h.sim law
  obtain ⟨t1, h1, r1, -⟩ := Tab.retrieve_rep law hs.rep k
  obtain ⟨t2, h2, r2, -⟩ := Tab.retrieve_rep law r1 k'
  have hfind : Spec.find (eqv ops) m.map k' = Spec.find (eqv ops) m.map k := by
    have hcongr : ∀ (l : List (K × Nat)), Spec.find (eqv ops) l k' = Spec.find (eqv ops) l k := by
      intro l
      induction l with
      | nil => rfl
      | cons p l ih =>
        obtain ⟨a, d⟩ := p
        simp only [Spec.find, ih]
        have : eqv ops a k' = eqv ops a k := by
          rw [Bool.eq_iff_iff]
          exact ⟨fun h => Tab.eqv_trans law h (by rw [Tab.eqv_symm law]; exact hk),
            fun h => Tab.eqv_trans law h hk⟩
        rw [this]
    exact hcongr _
  have hst : ∀ (t : Table K), Tab.Rep ops t m.map → ∃ s, Tab.getStats t = .ok s := by
    intro t hs
    obtain ⟨-, -, -, -, -, e5, -⟩ := Tab.stats_fold t (List.range t.prime)
      { size := t.prime, resizings := t.resizings, entries := 0, buckets_used := 0, singletons := 0,
        maximum_length := 0, retrievals := t.retrievals, hits := t.hits, misses := t.misses }
    unfold Tab.getStats
    simp only at e5 ⊢
    rw [Nat.zero_add] at e5
    have hcnt := hs.inv.count
    unfold Tab.all at hcnt
    rw [if_neg (by rw [e5, ← hcnt]; simp)]
    exact ⟨_, rfl⟩
  obtain ⟨s0, g0⟩ := hst t hs.rep
  obtain ⟨s1, g1⟩ := hst t1 r1
  obtain ⟨s2, g2⟩ := hst t2 r2
  obtain ⟨c1, c2⟩ := repeat_of law hk h1 h2 g0 g1 g2
  rw [hfind] at h2
  refine ⟨t1, t2, (Spec.find (eqv ops) m.map k).getD 0, s0, s1, s2, ?_, ?_,
    g0, g1, g2, ?_, c2⟩
  · simp only [hshRetrieve, h1, Res.bind_ok, Res.pure_eq]
    cases Spec.find (eqv ops) m.map k <;> rfl
  · simp only [hshRetrieve, h2, Res.bind_ok, Res.pure_eq]
    cases Spec.find (eqv ops) m.map k <;> rfl
  · intro hro hf
    exact c1 hro (Option.isSome_iff_ne_none.2 hf)

/-- Non-vacuity: with colliding keys the first lookup of the older key counts no hit, the second counts
one; and the table has grown twice. -/
example : ((hshCreate (K := Nat)).bind fun t => (Spec.run (hshStep exOps) t
      [.insert 1 10, .insert 3 30, .insert 5 50, .retrieve 3]).bind fun r => (hshGetStats r.1).bind fun s =>
        (hshRetrieve exOps r.1 3).bind fun q => (hshGetStats q.1).bind fun s' =>
          .ok (s.hits, s'.hits, s'.resizings, s'.size)) = .ok (0, 1, 2, 11) := by rfl

end Hash

namespace Set

variable {K : Type} {env : FnEnv K}

/-- C63, sets: what one call does to the numbers reported by `set_get_stats`. -/
theorem C63_set_counters (s : SetObj K) (h : Reachable env s) (e : K) :
    ∃ s0, setGetStats s = .ok s0 ∧
      (∀ q x, setInsert env s e = .ok (q, x) → ∃ s1, setGetStats q = .ok s1 ∧ InsertCounts s0 s1) ∧
      (∀ q x, setDelete env s e = .ok (q, x) → ∃ s1, setGetStats q = .ok s1 ∧ SameCounts s0 s1) ∧
      (∀ q x, setMember env s e = .ok (q, x) → ∃ s1, setGetStats q = .ok s1 ∧
        LookupCounts (decide (x ≠ 0)) s0 s1) := by
  obtain ⟨a, ha⟩ := h.srep
  obtain ⟨s0, g0, -⟩ := stats_srep ha
  refine ⟨s0, g0, ?_, ?_, ?_⟩
  · intro q x hq
    have hro : a.readonly = 0 := by
      by_contra hc
      have : s.tab.readonly ≠ 0 := by rw [ha.ro]; exact hc
      simp [setInsert, Tab.insert, this, Res.bind] at hq
    obtain ⟨q', h1, h2⟩ := insert_srep ha hro e
    rw [hq] at h1
    simp only [Res.ok.injEq, Prod.mk.injEq] at h1
    obtain ⟨rfl, -⟩ := h1
    obtain ⟨s1, g1, -⟩ := stats_srep h2.1
    refine ⟨s1, g1, ?_⟩
    simp only [setInsert] at hq
    cases hi : Tab.insert (s.ops env) s.tab e () <;> rw [hi] at hq <;> simp [Res.bind] at hq
    rename_i r
    obtain ⟨rfl, -⟩ := hq
    exact insertCounts_of (t' := r.1) (x := r.2) hi g0 g1
  · intro q x hq
    have hro : a.readonly = 0 := by
      by_contra hc
      have : s.tab.readonly ≠ 0 := by rw [ha.ro]; exact hc
      have hp := ha.rep.inv.pos
      simp [setDelete, Tab.delete, this, Res.bind, show s.tab.prime ≠ 0 by omega] at hq
    obtain ⟨q', h1, h2⟩ := delete_srep ha hro e
    rw [hq] at h1
    simp only [Res.ok.injEq, Prod.mk.injEq] at h1
    obtain ⟨rfl, -⟩ := h1
    obtain ⟨s1, g1, -⟩ := stats_srep h2.1
    refine ⟨s1, g1, ?_⟩
    simp only [setDelete] at hq
    cases hi : Tab.delete (s.ops env) s.tab e <;> rw [hi] at hq <;> simp [Res.bind] at hq
    rename_i r
    obtain ⟨rfl, -⟩ := hq
    exact sameCounts_of_delete (t' := r.1) (x := r.2) hi g0 g1
  · intro q x hq
    obtain ⟨q', h1, h2⟩ := member_srep ha e
    rw [hq] at h1
    simp only [Res.ok.injEq, Prod.mk.injEq] at h1
    obtain ⟨rfl, -⟩ := h1
    obtain ⟨s1, g1, -⟩ := stats_srep h2.1
    refine ⟨s1, g1, ?_⟩
    simp only [setMember] at hq
    cases hi : Tab.retrieve (s.ops env) s.tab e <;> rw [hi] at hq <;> simp [Res.bind] at hq
    rename_i r
    obtain ⟨rfl, rfl⟩ := hq
    have := lookupCounts_of ha.law ha.rep (x := r.2) (t' := r.1) hi g0 g1
    cases hr : r.2 <;> rw [hr] at this <;> simpa using this

/-- C63, sets: testing the same element again. -/
theorem C63_set_repeated_lookup (s : SetObj K) (h : Reachable env s) (e : K) :
    ∃ q1 q2 x s0 s1 s2, setMember env s e = .ok (q1, x) ∧ setMember env q1 e = .ok (q2, x) ∧
      setGetStats s = .ok s0 ∧ setGetStats q1 = .ok s1 ∧ setGetStats q2 = .ok s2 ∧
      (s.tab.readonly = 0 → x = 1 → s2.hits = s1.hits + 1) ∧
      (s.tab.readonly ≠ 0 → s2.hits - s1.hits = s1.hits - s0.hits) := by
  obtain ⟨a, ha⟩ := h.srep
  obtain ⟨q1, h1, r1, -⟩ := member_srep ha e
  obtain ⟨q2, h2, r2, -⟩ := member_srep r1 e
  obtain ⟨s0, g0, -⟩ := stats_srep ha
  obtain ⟨s1, g1, -⟩ := stats_srep r1
  obtain ⟨s2, g2, -⟩ := stats_srep r2
  have hops : q1.ops env = s.ops env := by simp [SetObj.ops, r1.hfn, r1.cfn, ha.hfn, ha.cfn]
  rw [hops] at h2
  refine ⟨q1, q2, _, s0, s1, s2, h1, h2, g0, g1, g2, ?_⟩
  simp only [setMember] at h1 h2
  rw [hops] at h2
  cases hi : Tab.retrieve (s.ops env) s.tab e <;> rw [hi] at h1 <;> simp [Res.bind] at h1
  rename_i u
  obtain ⟨rfl, hx⟩ := h1
  simp only at h2
  cases hi2 : Tab.retrieve (s.ops env) u.1 e <;> rw [hi2] at h2 <;> simp [Res.bind] at h2
  rename_i v
  obtain ⟨rfl, -⟩ := h2
  obtain ⟨c1, c2⟩ := repeat_of ha.law (by simp [eqv, ha.law.refl] : eqv (s.ops env) e e = true)
    (t1 := u.1) (x := u.2) hi (t2 := v.1) (y := v.2) hi2 g0 g1 g2
  refine ⟨fun hro hx1 => c1 hro ?_, c2⟩
  rw [hx1] at hx
  cases hu : u.2 <;> rw [hu] at hx <;> simp at hx ⊢

end Set
end Maa
