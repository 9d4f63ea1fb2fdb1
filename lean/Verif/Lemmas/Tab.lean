import Verif.Model.Tab
import Verif.Spec.Map
import Verif.Props.Prime
import Mathlib.Data.List.Perm.Basic
import Mathlib.Data.List.Flatten

namespace Maa.Tab

variable {K D : Type}

/-- Structural invariant of a table. -/
structure Inv (ops : KeyOps K) (t : Tab K D) : Prop where
  pos : 0 < t.prime
  slot : ∀ i, i < t.prime → ∀ e ∈ t.buckets i, e.hash = ops.hash e.key ∧ e.hash % t.prime = i
  distinct : (all t).Pairwise (fun a b => eqv ops a.key b.key = false)
  count : t.entries = (all t).length

/-- The (key, datum) pairs of a table. -/
def pairsOf (t : Tab K D) : List (K × D) := (all t).map fun e => (e.key, e.datum)

/-- Table `t` represents the finite map `m`. -/
structure Rep (ops : KeyOps K) (t : Tab K D) (m : List (K × D)) : Prop where
  inv : Inv ops t
  perm : (pairsOf t).Perm m

section lists

variable {α β : Type}

/-- isolate one index of a range -/
theorem range_split (n h : Nat) (hh : h < n) :
    List.range n = List.range h ++ h :: (List.range (n - h - 1)).map (h + 1 + ·) := by
  have h1 := List.range_add (n := h) (m := n - h)
  rw [show h + (n - h) = n by omega] at h1
  rw [h1]
  congr 1
  rw [show n - h = (n - h - 1) + 1 by omega, List.range_succ_eq_map]
  simp [Function.comp_def]
  intro a _
  omega

/-- the chains other than `h`, before and after -/
theorem flatMap_split (f : Nat → List α) (n h : Nat) (hh : h < n) :
    ∃ pre post : List Nat, h ∉ pre ∧ h ∉ post ∧
      ∀ g : Nat → List α, (∀ i, i ≠ h → g i = f i) →
        (List.range n).flatMap g = pre.flatMap f ++ (g h ++ post.flatMap f) := by
  refine ⟨List.range h, (List.range (n - h - 1)).map (h + 1 + ·), by simp, ?_, ?_⟩
  · simp; omega
  · intro g hg
    rw [range_split n h hh, List.flatMap_append, List.flatMap_cons]
    congr 1
    · apply List.flatMap_congr
      intro i hi
      apply hg
      simp at hi; omega
    · congr 1
      apply List.flatMap_congr
      intro i hi
      apply hg
      simp at hi; omega

end lists

theorem all_split (t : Tab K D) (h : Nat) (hh : h < t.prime) :
    ∃ pre post : List (Entry K D), all t = pre ++ (t.buckets h ++ post) ∧
      ∀ c, all { t with buckets := setBucket t.buckets h c } = pre ++ (c ++ post) := by
  obtain ⟨pre, post, h1, h2, h3⟩ := flatMap_split t.buckets t.prime h hh
  refine ⟨pre.flatMap t.buckets, post.flatMap t.buckets, h3 t.buckets (fun _ _ => rfl), ?_⟩
  intro c
  have := h3 (setBucket t.buckets h c) (fun i hi => by simp [setBucket, hi])
  simpa [all, setBucket] using this

theorem mem_all (t : Tab K D) (e : Entry K D) :
    e ∈ all t ↔ ∃ i, i < t.prime ∧ e ∈ t.buckets i := by
  simp [all]

theorem all_push (t : Tab K D) (e : Entry K D) (hp : 0 < t.prime) :
    (all (push t e)).Perm (e :: all t) := by
  obtain ⟨pre, post, h1, h2⟩ := all_split t (e.hash % t.prime) (Nat.mod_lt _ hp)
  have : all (push t e) = pre ++ ((e :: t.buckets (e.hash % t.prime)) ++ post) := by
    rw [← h2]; rfl
  rw [this, h1]
  simp

theorem push_prime (t : Tab K D) (e : Entry K D) : (push t e).prime = t.prime := rfl

theorem foldl_push_prime (l : List (Entry K D)) (t : Tab K D) :
    (l.foldl push t).prime = t.prime := by
  induction l generalizing t with
  | nil => rfl
  | cons a l ih => simp [ih, push_prime]

theorem foldl_push_all (l : List (Entry K D)) (t : Tab K D) (hp : 0 < t.prime) :
    (all (l.foldl push t)).Perm (l ++ all t) := by
  induction l generalizing t with
  | nil => simp
  | cons a l ih =>
    simp only [List.foldl_cons]
    refine (ih (push t a) hp).trans ?_
    refine (List.Perm.append_left l (all_push t a hp)).trans ?_
    simp

/-- every entry of a chain hashes to that chain -/
def Slotted (ops : KeyOps K) (t : Tab K D) : Prop :=
  ∀ i, i < t.prime → ∀ e ∈ t.buckets i, e.hash = ops.hash e.key ∧ e.hash % t.prime = i

theorem push_slot (ops : KeyOps K) (t : Tab K D) (e : Entry K D) (h : Slotted ops t)
    (he : e.hash = ops.hash e.key) : Slotted ops (push t e) := by
  intro i hi x hx
  simp only [push, setBucket] at hx hi ⊢
  split at hx
  · rename_i hih
    rcases List.mem_cons.1 hx with rfl | hx
    · exact ⟨he, hih.symm⟩
    · rw [← hih] at hx
      exact h i hi x hx
  · exact h i hi x hx

theorem foldl_push_slot (ops : KeyOps K) (l : List (Entry K D)) (t : Tab K D) (h : Slotted ops t)
    (hl : ∀ e ∈ l, e.hash = ops.hash e.key) : Slotted ops (l.foldl push t) := by
  induction l generalizing t with
  | nil => exact h
  | cons a l ih =>
    exact ih _ (push_slot ops t a h (hl a (by simp))) (fun e he => hl e (by simp [he]))

theorem eqv_symm {ops : KeyOps K} (law : ops.Lawful) (a b : K) : eqv ops a b = eqv ops b a := by
  unfold eqv
  rw [Bool.eq_iff_iff]
  simp only [beq_iff_eq]
  exact ⟨law.symm a b, law.symm b a⟩

theorem eqv_trans {ops : KeyOps K} (law : ops.Lawful) {a b c : K} (h1 : eqv ops a b = true)
    (h2 : eqv ops b c = true) : eqv ops a c = true := by
  simp only [eqv, beq_iff_eq] at *
  exact law.trans a b c h1 h2

theorem distinct_perm {ops : KeyOps K} (law : ops.Lawful) {l l' : List (Entry K D)} (h : l.Perm l') :
    l.Pairwise (fun a b => eqv ops a.key b.key = false) ↔
      l'.Pairwise (fun a b => eqv ops a.key b.key = false) :=
  h.pairwise_iff (fun {a b} hab => by rw [eqv_symm law]; exact hab)

/-- creation gives the empty table, of an odd (so non-zero) size -/
theorem create_ok (seed : Nat) : ∃ t : Tab K D, create seed = .ok t ∧ 0 < t.prime ∧
    Prime.prmNextPrime seed = some t.prime ∧ t.entries = 0 ∧ (∀ i, t.buckets i = []) ∧
    t.readonly = 0 ∧ t.retrievals = 0 ∧ t.hits = 0 ∧ t.misses = 0 ∧ t.resizings = 0 := by
  obtain ⟨r, h1, h2, h3, -⟩ := Prime.C02_next_prime_terminates seed
  simp only [create, h1]
  exact ⟨_, rfl, by simp only; omega, rfl, rfl, fun _ => rfl, rfl, rfl, rfl, rfl, rfl⟩

theorem all_empty (t : Tab K D) (h : ∀ i, t.buckets i = []) : all t = [] := by
  simp [all, h]

theorem create_rep (ops : KeyOps K) (t : Tab K D) (hp : 0 < t.prime) (h : ∀ i, t.buckets i = [])
    (he : t.entries = 0) : Rep ops t [] := by
  refine ⟨⟨hp, ?_, ?_, ?_⟩, ?_⟩
  · intro i _ e he; rw [h] at he; simp at he
  · rw [all_empty t h]; exact List.Pairwise.nil
  · rw [all_empty t h]; exact he
  · simp [pairsOf, all_empty t h]

/-- the growth step keeps the contents and everything but `prime`, `buckets`, `resizings` -/
theorem resize_ok (ops : KeyOps K) (law : ops.Lawful) (t : Tab K D) (hi : Inv ops t) :
    ∃ t', resize t = .ok t' ∧ Inv ops t' ∧ (all t').Perm (all t) ∧ t'.entries = t.entries ∧
      t'.readonly = t.readonly ∧ t'.retrievals = t.retrievals ∧ t'.hits = t.hits ∧
      t'.misses = t.misses ∧ t'.resizings = t.resizings + 1 ∧
      Prime.prmNextPrime (t.prime * 3) = some t'.prime := by
  obtain ⟨n, hn, hp, hpr, -, hb, -⟩ := create_ok (K := K) (D := D) (t.prime * 3)
  have hp' : 0 < ((all t).foldl push n).prime := by rw [foldl_push_prime]; exact hp
  have hall : (all ((all t).foldl push n)).Perm (all t) := by
    have := foldl_push_all (all t) n hp
    rwa [all_empty n hb, List.append_nil] at this
  have hslot : Slotted ops ((all t).foldl push n) := by
    apply foldl_push_slot
    · intro i _ e he; rw [hb] at he; simp at he
    · intro e he
      obtain ⟨i, hi1, hi2⟩ := (mem_all t e).1 he
      exact (hi.slot i hi1 e hi2).1
  refine ⟨{ t with prime := ((all t).foldl push n).prime, buckets := ((all t).foldl push n).buckets,
                   resizings := t.resizings + 1 }, ?_, ?_, ?_, rfl, rfl, rfl, rfl, rfl, rfl, ?_⟩
  · simp [resize, hn]
  · refine ⟨hp', hslot, ?_, ?_⟩
    · exact (distinct_perm law hall).2 hi.distinct
    · exact hi.count.trans hall.length_eq.symm
  · exact hall
  · simp only [foldl_push_prime]; exact hpr

/-- an entry equal to `k` can only be in the chain of `k` -/
theorem mem_slot {ops : KeyOps K} (law : ops.Lawful) {t : Tab K D} (hi : Inv ops t) {e : Entry K D}
    {k : K} (he : e ∈ all t) (hk : eqv ops e.key k = true) :
    e ∈ t.buckets (ops.hash k % t.prime) := by
  obtain ⟨i, h1, h2⟩ := (mem_all t e).1 he
  obtain ⟨h3, h4⟩ := hi.slot i h1 e h2
  have : ops.hash e.key = ops.hash k := law.hash _ _ (by simpa [eqv] using hk)
  rw [← this, ← h3, h4]
  exact h2

theorem any_slot {ops : KeyOps K} (law : ops.Lawful) {t : Tab K D} (hi : Inv ops t) (k : K) :
    (t.buckets (ops.hash k % t.prime)).any (fun pt => ops.cmp pt.key k == 0) =
      (all t).any (fun pt => eqv ops pt.key k) := by
  rw [Bool.eq_iff_iff, List.any_eq_true, List.any_eq_true]
  constructor
  · rintro ⟨e, h1, h2⟩
    exact ⟨e, (mem_all t e).2 ⟨_, Nat.mod_lt _ hi.pos, h1⟩, h2⟩
  · rintro ⟨e, h1, h2⟩
    exact ⟨e, mem_slot law hi h1 h2, h2⟩

/-! facts about the specification -/

theorem find_isSome (eq : K → K → Bool) (m : List (K × D)) (k : K) :
    (Spec.find eq m k).isSome = m.any (fun p => eq p.1 k) := by
  induction m with
  | nil => rfl
  | cons p m ih =>
    obtain ⟨a, d⟩ := p
    simp only [Spec.find, List.any_cons]
    split <;> rename_i h
    · simp [h]
    · simp [h, ih]

theorem find_none (eq : K → K → Bool) (m : List (K × D)) (k : K) :
    Spec.find eq m k = none ↔ ∀ p ∈ m, eq p.1 k = false := by
  rw [← Option.not_isSome_iff_eq_none, find_isSome]
  simp

theorem find_some (eq : K → K → Bool) (m : List (K × D)) (k : K) (d : D)
    (h : Spec.find eq m k = some d) : ∃ k', (k', d) ∈ m ∧ eq k' k = true := by
  induction m with
  | nil => simp [Spec.find] at h
  | cons p m ih =>
    obtain ⟨a, x⟩ := p
    simp only [Spec.find] at h
    split at h
    · rename_i hc
      simp at h
      subst h
      exact ⟨a, by simp, hc⟩
    · obtain ⟨k', h1, h2⟩ := ih h
      exact ⟨k', by simp [h1], h2⟩

theorem find_unique {ops : KeyOps K} (law : ops.Lawful) (m : List (K × D))
    (hd : Spec.Distinct (eqv ops) m) (k k' : K) (d : D) (hm : (k', d) ∈ m)
    (he : eqv ops k' k = true) : Spec.find (eqv ops) m k = some d := by
  induction m with
  | nil => simp at hm
  | cons p m ih =>
    obtain ⟨a, x⟩ := p
    rw [Spec.Distinct, List.pairwise_cons] at hd
    simp only [Spec.find]
    rcases List.mem_cons.1 hm with heq | hm
    · cases heq
      simp [he]
    · by_cases hc : eqv ops a k = true
      · have h1 := hd.1 (k', d) hm
        have h2 : eqv ops a k' = true := eqv_trans law hc (by rw [eqv_symm law]; exact he)
        simp [h2] at h1
      · simp only [Bool.not_eq_true] at hc
        simp only [hc, Bool.false_eq_true, if_false]
        exact ih hd.2 hm

theorem spec_distinct_perm {ops : KeyOps K} (law : ops.Lawful) {m m' : List (K × D)}
    (h : m.Perm m') : Spec.Distinct (eqv ops) m ↔ Spec.Distinct (eqv ops) m' :=
  h.pairwise_iff (fun {a b} hab => by rw [eqv_symm law]; exact hab)

theorem Rep.spec_distinct {ops : KeyOps K} (law : ops.Lawful) {t : Tab K D} {m : List (K × D)}
    (h : Rep ops t m) : Spec.Distinct (eqv ops) m := by
  rw [← spec_distinct_perm law h.perm]
  unfold Spec.Distinct pairsOf
  rw [List.pairwise_map]
  exact h.inv.distinct

theorem Rep.any_eq {ops : KeyOps K} {t : Tab K D} {m : List (K × D)} (h : Rep ops t m) (k : K) :
    (all t).any (fun pt => eqv ops pt.key k) = (Spec.find (eqv ops) m k).isSome := by
  rw [find_isSome, ← h.perm.any_eq, pairsOf, List.any_map]
  rfl

/-- lookups: an entry of the table with an equal key gives the specified value -/
theorem Rep.find_eq {ops : KeyOps K} (law : ops.Lawful) {t : Tab K D} {m : List (K × D)}
    (h : Rep ops t m) {e : Entry K D} (he : e ∈ all t) {k : K} (hk : eqv ops e.key k = true) :
    Spec.find (eqv ops) m k = some e.datum := by
  refine find_unique law m (h.spec_distinct law) k e.key e.datum ?_ hk
  rw [← h.perm.mem_iff]
  simp only [pairsOf, List.mem_map]
  exact ⟨e, he, rfl⟩

/-! the three operations -/

/-- `insert` on a writable table. -/
theorem insert_rep {ops : KeyOps K} (law : ops.Lawful) {t : Tab K D} {m : List (K × D)}
    (h : Rep ops t m) (hro : t.readonly = 0) (k : K) (d : D) :
    ∃ t', insert ops t k d = .ok (t', (Spec.insert (eqv ops) m k d).2) ∧
      Rep ops t' (Spec.insert (eqv ops) m k d).1 ∧ t'.readonly = t.readonly ∧
      t'.retrievals = t.retrievals ∧ t'.hits = t.hits ∧ t'.misses = t.misses := by
  -- the table after the growth step
  have hres : ∃ t1, grow t = Res.ok t1 ∧
      Rep ops t1 m ∧ t1.readonly = t.readonly ∧
      t1.retrievals = t.retrievals ∧ t1.hits = t.hits ∧ t1.misses = t.misses := by
    unfold grow
    split
    · obtain ⟨t', h1, h2, h3, -, h4, h5, h6, h7, -⟩ := resize_ok ops law t h.inv
      refine ⟨t', h1, ⟨h2, ?_⟩, h4, h5, h6, h7⟩
      exact (h3.map _).trans h.perm
    · exact ⟨t, rfl, h, rfl, rfl, rfl, rfl⟩
  obtain ⟨t1, e1, r1, a1, a2, a3, a4⟩ := hres
  have hany := any_slot law r1.inv k
  rw [r1.any_eq k] at hany
  unfold insert Spec.insert
  simp only
  rw [if_neg (by simp [hro])]
  simp only [e1, Res.bind]
  rw [if_neg (by have := r1.inv.pos; omega), hany]
  cases hf : Spec.find (eqv ops) m k with
  | some d' => exact ⟨t1, by simp, r1, a1, a2, a3, a4⟩
  | none =>
    simp only [Option.isSome_none, Bool.false_eq_true, if_false]
    refine ⟨_, rfl, ?_, a1, a2, a3, a4⟩
    have hp := all_push t1 ⟨k, ops.hash k, d⟩ r1.inv.pos
    refine ⟨⟨r1.inv.pos, push_slot ops t1 _ r1.inv.slot rfl, ?_, ?_⟩, ?_⟩
    · rw [distinct_perm law hp, List.pairwise_cons]
      refine ⟨?_, r1.inv.distinct⟩
      intro e he
      rw [find_none] at hf
      have := hf (e.key, e.datum) (by
        rw [← r1.perm.mem_iff]; simp only [pairsOf, List.mem_map]; exact ⟨e, he, rfl⟩)
      rw [eqv_symm law]; exact this
    · rw [hp.length_eq]
      simp [push, r1.inv.count]
    · refine (hp.map _).trans ?_
      exact List.Perm.cons _ r1.perm

/-- after `eraseP` of the unique match, exactly the matches are gone -/
theorem eraseP_eq_filter {ops : KeyOps K} (law : ops.Lawful) (c : List (Entry K D)) (k : K)
    (hd : c.Pairwise (fun a b => eqv ops a.key b.key = false)) :
    c.eraseP (fun pt => ops.cmp pt.key k == 0) = c.filter (fun e => !eqv ops e.key k) := by
  induction c with
  | nil => rfl
  | cons a c ih =>
    rw [List.pairwise_cons] at hd
    by_cases h : eqv ops a.key k = true
    · rw [List.eraseP_cons_of_pos (by exact h), List.filter_cons_of_neg (by simp [h])]
      symm
      rw [List.filter_eq_self]
      intro b hb
      by_contra hc
      have hc : eqv ops b.key k = true := by simpa using hc
      have := eqv_trans law h (by rw [eqv_symm law]; exact hc : eqv ops k b.key = true)
      rw [hd.1 b hb] at this
      simp at this
    · rw [List.eraseP_cons_of_neg (by exact h), List.filter_cons_of_pos (by simpa using h)]
      rw [ih hd.2]

/-- no entry outside the chain of `k` equals `k` -/
theorem outside_ne {ops : KeyOps K} (law : ops.Lawful) {t : Tab K D} (hi : Inv ops t) (k : K)
    {pre post : List (Entry K D)}
    (h : all t = pre ++ (t.buckets (ops.hash k % t.prime) ++ post))
    (e : Entry K D) (he : e ∈ pre ∨ e ∈ post) : eqv ops e.key k = false := by
  by_contra hx
  have hx : eqv ops e.key k = true := by simpa using hx
  have hm : e ∈ all t := by rw [h]; simp; tauto
  have hs := mem_slot law hi hm hx
  have hd := hi.distinct
  rw [h, List.pairwise_append, List.pairwise_append] at hd
  have hrefl : eqv ops e.key e.key = true := by simp [eqv, law.refl]
  rcases he with he | he
  · have := hd.2.2 e he e (by simp [hs])
    rw [hrefl] at this; simp at this
  · have := hd.2.1.2.2 e hs e he
    rw [hrefl] at this; simp at this

theorem setBucket_slot {ops : KeyOps K} {t : Tab K D} (hs : Slotted ops t) (h : Nat)
    (c : List (Entry K D)) (hc : ∀ e ∈ c, e ∈ t.buckets h) (hh : h < t.prime) :
    Slotted ops { t with buckets := setBucket t.buckets h c } := by
  intro i hi e he
  simp only [setBucket] at he hi ⊢
  split at he
  · rename_i hih
    subst hih
    exact hs i hi e (hc e he)
  · exact hs i hi e he

/-- `delete` on a writable table. -/
theorem delete_rep {ops : KeyOps K} (law : ops.Lawful) {t : Tab K D} {m : List (K × D)}
    (h : Rep ops t m) (hro : t.readonly = 0) (k : K) :
    ∃ t', delete ops t k = .ok (t', (Spec.delete (eqv ops) m k).2) ∧
      Rep ops t' (Spec.delete (eqv ops) m k).1 ∧ t'.readonly = t.readonly ∧
      t'.retrievals = t.retrievals ∧ t'.hits = t.hits ∧ t'.misses = t.misses ∧
      t'.prime = t.prime ∧ t'.resizings = t.resizings := by
  have hany := any_slot law h.inv k
  rw [h.any_eq k] at hany
  unfold delete Spec.delete
  rw [if_neg (by have := h.inv.pos; omega)]
  simp only [hany]
  rw [if_neg (by simp [hro])]
  cases hf : Spec.find (eqv ops) m k with
  | none => exact ⟨t, by simp, h, rfl, rfl, rfl, rfl, rfl, rfl⟩
  | some d' =>
    simp only [Option.isSome_some, if_true]
    refine ⟨_, rfl, ?_, rfl, rfl, rfl, rfl, rfl, rfl⟩
    have hh : ops.hash k % t.prime < t.prime := Nat.mod_lt _ h.inv.pos
    obtain ⟨pre, post, e1, e2⟩ := all_split t (ops.hash k % t.prime) hh
    have hd := h.inv.distinct
    rw [e1, List.pairwise_append, List.pairwise_append] at hd
    have hfil := eraseP_eq_filter law _ k hd.2.1.1
    have hpre : pre.filter (fun e => !eqv ops e.key k) = pre := by
      rw [List.filter_eq_self]; intro e he
      simp [outside_ne law h.inv k e1 e (Or.inl he)]
    have hpost : post.filter (fun e => !eqv ops e.key k) = post := by
      rw [List.filter_eq_self]; intro e he
      simp [outside_ne law h.inv k e1 e (Or.inr he)]
    have hall : all { t with entries := t.entries - 1
                             buckets := setBucket t.buckets (ops.hash k % t.prime)
                              ((t.buckets (ops.hash k % t.prime)).eraseP
                                (fun pt => ops.cmp pt.key k == 0)) } =
        (all t).filter (fun e => !eqv ops e.key k) := by
      have := e2 ((t.buckets (ops.hash k % t.prime)).eraseP (fun pt => ops.cmp pt.key k == 0))
      rw [e1, List.filter_append, List.filter_append, hpre, hpost, ← hfil, ← this]
      rfl
    refine ⟨⟨h.inv.pos, ?_, ?_, ?_⟩, ?_⟩
    · have := setBucket_slot (t := t) h.inv.slot (ops.hash k % t.prime)
        ((t.buckets (ops.hash k % t.prime)).eraseP (fun pt => ops.cmp pt.key k == 0))
        (fun e he => List.mem_of_mem_eraseP he) hh
      exact this
    · rw [hall]; exact h.inv.distinct.filter _
    · have hl : ((t.buckets (ops.hash k % t.prime)).eraseP
          (fun pt => ops.cmp pt.key k == 0)).length + 1 =
          (t.buckets (ops.hash k % t.prime)).length := by
        rw [hf] at hany
        obtain ⟨a, ha, hpa⟩ := List.any_eq_true.1 hany
        have := List.length_eraseP_of_mem (p := fun pt => ops.cmp pt.key k == 0) ha hpa
        have : 0 < (t.buckets (ops.hash k % t.prime)).length := List.length_pos_of_mem ha
        omega
      have he2 := e2 ((t.buckets (ops.hash k % t.prime)).eraseP (fun pt => ops.cmp pt.key k == 0))
      have hcnt := h.inv.count
      rw [e1] at hcnt
      show t.entries - 1 = (all { t with buckets := _ }).length
      rw [he2, hcnt]
      simp
      omega
    · unfold pairsOf
      rw [hall]
      have := h.perm.filter (fun p => !eqv ops p.1 k)
      refine List.Perm.trans ?_ this
      unfold pairsOf
      rw [List.filter_map]
      rfl

theorem find?_cons_eraseP_perm (p : Entry K D → Bool) (c : List (Entry K D)) (q : Entry K D)
    (h : c.find? p = some q) : (q :: c.eraseP p).Perm c := by
  induction c with
  | nil => simp at h
  | cons a c ih =>
    by_cases hp : p a = true
    · rw [List.find?_cons_of_pos hp] at h
      simp at h; subst h
      rw [List.eraseP_cons_of_pos hp]
    · rw [List.find?_cons_of_neg hp] at h
      rw [List.eraseP_cons_of_neg hp]
      exact (List.Perm.swap _ _ _).trans (List.Perm.cons _ (ih h))

/-- what `retrieve` changes -/
structure RetrieveEffect (t t' : Tab K D) (found : Bool) : Prop where
  retrievals : t'.retrievals = t.retrievals + 1
  misses : t'.misses = if found then t.misses else t.misses + 1
  hits_ge : t.hits ≤ t'.hits
  hits_le : t'.hits ≤ if found then t.hits + 1 else t.hits
  readonly : t'.readonly = t.readonly
  prime : t'.prime = t.prime
  entries : t'.entries = t.entries
  resizings : t'.resizings = t.resizings
  ro_buckets : t.readonly ≠ 0 → t'.buckets = t.buckets

/-- replacing a chain by a permutation of it keeps the representation -/
theorem Rep.setBucket_perm {ops : KeyOps K} (law : ops.Lawful) {t : Tab K D} {m : List (K × D)}
    (h : Rep ops t m) (i : Nat) (hi : i < t.prime) (c : List (Entry K D))
    (hc : c.Perm (t.buckets i)) : Rep ops { t with buckets := setBucket t.buckets i c } m := by
  obtain ⟨pre, post, e1, e2⟩ := all_split t i hi
  have hp : (all { t with buckets := setBucket t.buckets i c }).Perm (all t) := by
    rw [e2, e1]
    exact List.Perm.append_left _ (List.Perm.append_right _ hc)
  refine ⟨⟨h.inv.pos, ?_, ?_, ?_⟩, ?_⟩
  · exact setBucket_slot h.inv.slot i c (fun e he => hc.mem_iff.1 he) hi
  · exact (distinct_perm law hp).2 h.inv.distinct
  · exact h.inv.count.trans hp.length_eq.symm
  · exact (hp.map _).trans h.perm

theorem Rep.congr {ops : KeyOps K} {t t' : Tab K D} {m : List (K × D)} (h : Rep ops t m)
    (hp : t'.prime = t.prime) (he : t'.entries = t.entries) (hb : t'.buckets = t.buckets) :
    Rep ops t' m := by
  have ha : all t' = all t := by simp [all, hp, hb]
  refine ⟨⟨by rw [hp]; exact h.inv.pos, ?_, by rw [ha]; exact h.inv.distinct, ?_⟩, ?_⟩
  · intro i hi e hmem
    rw [hp] at hi ⊢; rw [hb] at hmem
    exact h.inv.slot i hi e hmem
  · rw [he, ha]; exact h.inv.count
  · simpa [pairsOf, ha] using h.perm

/-- `retrieve` on any table. -/
theorem retrieve_rep {ops : KeyOps K} (law : ops.Lawful) {t : Tab K D} {m : List (K × D)}
    (h : Rep ops t m) (k : K) :
    ∃ t', retrieve ops t k = .ok (t', Spec.find (eqv ops) m k) ∧ Rep ops t' m ∧
      RetrieveEffect t t' (Spec.find (eqv ops) m k).isSome := by
  have hh : ops.hash k % t.prime < t.prime := Nat.mod_lt _ h.inv.pos
  have hany := any_slot law h.inv k
  rw [h.any_eq k] at hany
  unfold retrieve
  rw [if_neg (by have := h.inv.pos; omega)]
  simp only
  generalize hb : t.buckets (ops.hash k % t.prime) = b at hany ⊢
  cases b with
  | nil =>
    have hf : Spec.find (eqv ops) m k = none := by
      simp at hany
      exact hany
    rw [hf]
    refine ⟨_, rfl, h.congr rfl rfl rfl, ?_⟩
    exact ⟨rfl, rfl, le_refl _, le_refl _, rfl, rfl, rfl, rfl, fun _ => rfl⟩
  | cons pt rest =>
    have hmem : ∀ e ∈ pt :: rest, e ∈ all t := fun e he =>
      (mem_all t e).2 ⟨_, hh, by rw [hb]; exact he⟩
    by_cases hp : (ops.cmp pt.key k == 0) = true
    · have hf := h.find_eq law (hmem pt (by simp)) (k := k) hp
      rw [hf]
      simp only [hp, if_true]
      refine ⟨_, rfl, h.congr rfl rfl rfl, ?_⟩
      exact ⟨rfl, by simp, by simp, by simp, rfl, rfl, rfl, rfl, fun _ => rfl⟩
    · simp only [hp, if_false, Bool.false_eq_true]
      cases hq : rest.find? (fun pt => ops.cmp pt.key k == 0) with
      | none =>
        have hf : Spec.find (eqv ops) m k = none := by
          rw [List.find?_eq_none] at hq
          rw [← Option.not_isSome_iff_eq_none, ← hany]
          simp only [List.any_cons, hp, Bool.false_or, List.any_eq_true]
          rintro ⟨x, h1, h2⟩
          exact hq x h1 h2
        rw [hf]
        refine ⟨_, rfl, h.congr rfl rfl rfl, ?_⟩
        exact ⟨rfl, rfl, le_refl _, le_refl _, rfl, rfl, rfl, rfl, fun _ => rfl⟩
      | some q =>
        have hf := h.find_eq law (hmem q (by simp [List.mem_of_find?_eq_some hq])) (k := k)
          (by have := List.find?_some hq; exact this)
        rw [hf]
        simp only
        split
        · rename_i hro
          refine ⟨_, rfl, ?_, ?_⟩
          · have hperm : (q :: pt :: rest.eraseP (fun pt => ops.cmp pt.key k == 0)).Perm
                (t.buckets (ops.hash k % t.prime)) := by
              rw [hb]
              exact (List.Perm.swap _ _ _).trans
                (List.Perm.cons _ (find?_cons_eraseP_perm _ _ _ hq))
            exact (h.setBucket_perm law _ hh _ hperm).congr rfl rfl rfl
          · exact ⟨rfl, by simp, by simp, by simp, rfl, rfl, rfl, rfl,
              fun hne => absurd hro hne⟩
        · refine ⟨_, rfl, h.congr rfl rfl rfl, ?_⟩
          exact ⟨rfl, by simp, by simp, by simp, rfl, rfl, rfl, rfl, fun _ => rfl⟩

/-! statistics -/

theorem stats_fold (t : Tab K D) (l : List Nat) (s : Stats) :
    let s' := l.foldl (statsStep t) s
    s'.size = s.size ∧ s'.resizings = s.resizings ∧ s'.retrievals = s.retrievals ∧
    s'.hits = s.hits ∧ s'.misses = s.misses ∧
    s'.entries = s.entries + (l.flatMap t.buckets).length ∧
    s'.buckets_used = s.buckets_used + l.countP (fun i => !(t.buckets i).isEmpty) ∧
    s'.singletons = s.singletons + l.countP (fun i => (t.buckets i).length == 1) ∧
    s'.maximum_length = l.foldl (fun m i => max m (t.buckets i).length) s.maximum_length := by
  induction l generalizing s with
  | nil => simp
  | cons a l ih =>
    simp only [List.foldl_cons]
    obtain ⟨h1, h2, h3, h4, h5, h6, h7, h8, h9⟩ := ih (statsStep t s a)
    simp only [h1, h2, h3, h4, h5, h6, h7, h8, h9, List.flatMap_cons, List.length_append,
      List.countP_cons]
    unfold statsStep
    by_cases hb : (t.buckets a).isEmpty = true
    · have : t.buckets a = [] := by simpa using hb
      simp [this]
    · simp only [hb]
      by_cases h1 : (t.buckets a).length = 1
      · simp [h1]; omega
      · simp [h1]; omega

end Maa.Tab
