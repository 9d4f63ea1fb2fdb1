import Verif.Lemmas.Sl

namespace Maa.Sl

open Spec (SlOp Coll Colls TotalOrder run SlCallback ResRel)

/-- One list and the collection it stands for. -/
def Match (c : Coll) (s : SList) (ns : List Node) : Prop :=
  s.compare = c.cmp ∧ s.key = c.key ∧ TotalOrder c.cmp ∧ c.data.Perm (ns.map Node.datum) ∧
  ns.Pairwise fun a b => s.compare (s.key a.datum) (s.key b.datum) < 0

variable {M : Coll → SList → List Node → Prop}

/-- Everything that is known of the states of a program; `N` gives the nodes of each list, `M` relates a list to its collection. -/
structure InvOf (M : Coll → SList → List Node → Prop) (σ : State) (S : Colls) (N : Nat → List Node) : Prop where
  rep : ∀ l s, σ.lists l = some s → Rep σ.heap s (N l)
  mat : ∀ l s, σ.lists l = some s → ∃ c, S.colls l = some c ∧ M c s (N l)
  none' : ∀ l, σ.lists l = none → S.colls l = none
  disj : ∀ l l' s s', l ≠ l' → σ.lists l = some s → σ.lists l' = some s' → ∀ p, p ∈ ids (hd s :: N l) → p ∉ ids (hd s' :: N l')
  own : ∀ p, σ.heap.mem p ≠ none → ∃ l s, σ.lists l = some s ∧ p ∈ ids (hd s :: N l)
  next : S.next = σ.next
  small : ∀ l s, σ.lists l = some s → 0 < l ∧ l < σ.next
  pos : 0 < σ.next
  ok : σ.heap.Ok

/-- lists whose functions are as required -/
abbrev Inv := InvOf Match

theorem inv_init {place : Policy} (hp : Maa.Heap.Allocator place) : InvOf M (State.init place) Colls.empty fun _ => [] := by
  refine ⟨?_, ?_, ?_, ?_, ?_, ?_, ?_, ?_, hp, ⟨[], ?_, ?_⟩, ?_⟩ <;> simp [State.init, Colls.empty]

/-- A change of one list. -/
theorem InvOf.change {σ : State} {S : Colls} {N : Nat → List Node} (I : InvOf M σ S N) {l : Nat} {s s' : SList} (hl : σ.lists l = some s)
    {h' : Heap} {ns' : List Node} {c' : Coll} (r : Rep h' s' ns') (m : M c' s' ns')
    (hother : ∀ p, σ.heap.mem p ≠ none → p ∉ ids (hd s :: N l) → h'.mem p = σ.heap.mem p)
    (hnew : ∀ p, p ∈ ids (hd s' :: ns') → p ∈ ids (hd s :: N l) ∨ σ.heap.mem p = none)
    (hown : ∀ p, h'.mem p ≠ none → p ∈ ids (hd s' :: ns') ∨ (σ.heap.mem p ≠ none ∧ p ∉ ids (hd s :: N l))) :
    InvOf M (σ.put l h' (some s')) (S.set l (some c')) fun j => if j = l then ns' else N j := by
  constructor
  · intro j t hj
    simp only [State.put] at hj ⊢
    by_cases e : j = l
    · subst e
      simp only [if_true, Option.some.injEq] at hj ⊢
      subst hj; exact r
    · simp only [e, if_false] at hj ⊢
      refine (I.rep j t hj).frame ?_ r.ok
      intro n hn
      have hp : n.id ∈ ids (hd t :: N j) := List.mem_map.2 ⟨n, hn, rfl⟩
      exact hother _ ((I.rep j t hj).ids_live hp) (I.disj j l t s e hj hl _ hp)
  · intro j t hj
    simp only [State.put, Colls.set] at hj ⊢
    by_cases e : j = l
    · subst e
      simp only [if_true, Option.some.injEq] at hj ⊢
      subst hj; exact ⟨c', rfl, m⟩
    · simp only [e, if_false] at hj ⊢
      exact I.mat j t hj
  · intro j hj
    simp only [State.put, Colls.set] at hj ⊢
    by_cases e : j = l
    · simp [e] at hj
    · simp only [e, if_false] at hj ⊢
      exact I.none' j hj
  · intro j k t t' hjk hj hk p hp hp'
    simp only [State.put] at hj hk
    by_cases e : j = l
    · subst e
      have e' : k ≠ j := Ne.symm hjk
      simp only [if_true, Option.some.injEq, e', if_false] at hj hk hp hp'
      subst hj
      rcases hnew p hp with h | h
      · exact I.disj j k s t' hjk hl hk p h hp'
      · exact (I.rep k t' hk).ids_live hp' h
    · by_cases e' : k = l
      · subst e'
        simp only [if_true, Option.some.injEq, e, if_false] at hj hk hp hp'
        subst hk
        rcases hnew p hp' with h | h
        · exact I.disj k j s t (Ne.symm hjk) hl hj p h hp
        · exact (I.rep j t hj).ids_live hp h
      · simp only [e, e', if_false] at hj hk hp hp'
        exact I.disj j k t t' hjk hj hk p hp hp'
  · intro p hp
    simp only [State.put] at hp ⊢
    rcases hown p hp with h | ⟨h, h2⟩
    · exact ⟨l, s', by simp, by simpa using h⟩
    · rw [hother p h h2] at hp
      obtain ⟨j, t, hj, hm⟩ := I.own p hp
      have e : j ≠ l := by
        rintro rfl
        rw [hl, Option.some.injEq] at hj
        subst hj
        exact h2 hm
      exact ⟨j, t, by simp [e, hj], by simpa [e] using hm⟩
  · exact I.next
  · intro j t hj
    simp only [State.put] at hj ⊢
    by_cases e : j = l
    · subst e; exact I.small j s hl
    · simp only [e, if_false] at hj
      exact I.small j t hj
  · exact I.pos
  · exact r.ok

theorem InvOf.check {σ : State} {S : Colls} {N : Nat → List Node} (I : InvOf M σ S N) (l : Nat) :
    (l = 0 ∧ σ.check l = .abort) ∨ (l ≠ 0 ∧ σ.check l = .ub ∧ S.colls l = none) ∨
    ∃ s c, l ≠ 0 ∧ σ.lists l = some s ∧ σ.check l = .ok s ∧ S.colls l = some c ∧ M c s (N l) ∧ Rep σ.heap s (N l) := by
  unfold State.check
  by_cases h0 : l = 0
  · left; exact ⟨h0, by rw [if_pos h0]⟩
  · right
    cases hl : σ.lists l with
    | none => left; exact ⟨h0, by rw [if_neg h0], I.none' l hl⟩
    | some s =>
      right
      obtain ⟨c, hc, m⟩ := I.mat l s hl
      exact ⟨s, c, h0, rfl, by rw [if_neg h0], hc, m, I.rep l s hl⟩

theorem clearLoop_ok {h : Heap} {p : Nat} {e : Entry} (he : h.mem p = some e) (k : Nat) (hk : k ≤ e.forward.length) :
    ∃ h', clearLoop p (List.range k) h = .ok h' ∧ Same h h' fun a j x => if a = p ∧ j < k then some (some 0) else x := by
  have app : ∀ (a b : List Nat) (h : Heap), clearLoop p (a ++ b) h = (clearLoop p a h).bind fun h => clearLoop p b h := by
    intro a
    induction a with
    | nil => intro b h; rfl
    | cons i a ih =>
      intro b h
      simp only [List.cons_append, clearLoop]
      cases h.setFwd p i 0 <;> simp only [Res.bind]
      exact ih b _
  induction k with
  | zero => exact ⟨h, rfl, (Same.refl h).weaken (by intro p i x; simp)⟩
  | succ k ih =>
    obtain ⟨h1, e1, s1⟩ := ih (by omega)
    rw [List.range_succ, app, e1]
    obtain ⟨en1, g1, g2, g3, g4⟩ := s1.2.2 _ _ he
    obtain ⟨h2, e2, s2⟩ := setFwd_ok (q := 0) g1 (i := k) (by omega)
    simp only [Res.bind, clearLoop, e2]
    refine ⟨h2, rfl, (s1.trans s2).weaken ?_⟩
    intro a i x
    by_cases ha : a = p
    · by_cases hi : i = k
      · simp [ha, hi]
      · have : (i < k + 1) = (i < k) := by simp; omega
        simp [hi, this]
    · simp [ha]

theorem create_sim {σ : State} {S : Colls} {N : Nat → List Node} (I : InvOf M σ S N) (cmp : Nat → Nat → Int) (key : Nat → Nat)
    (t : ∀ s : SList, s.compare = cmp → s.key = key → M { cmp := cmp, key := key, data := [] } s []) :
    ∃ σ', create σ (some cmp) (some key) = Res.ok (σ', σ.next) ∧
      InvOf M σ' { colls := fun j => if j = S.next then some { cmp := cmp, key := key, data := [] } else S.colls j, next := S.next + 1 }
        (fun j => if j = σ.next then [] else N j) := by
  let h1 : Heap := { mem := fun a => if a = σ.heap.addr then some { datum := 0, forward := List.replicate (16 + 2) none } else σ.heap.mem a, clock := σ.heap.clock + 1, place := σ.heap.place }
  have hok1 : h1.Ok := I.ok.alloc _
  have hc : createEntry σ.heap maxLevel 0 = .ok (h1, σ.heap.addr) := rfl
  obtain ⟨h2, e2, s2⟩ := clearLoop_ok (h := h1) (p := σ.heap.addr) (e := { datum := 0, forward := List.replicate (16 + 2) none }) (by simp [h1]) 17 (by simp)
  have hcr : create σ (some cmp) (some key) = Res.ok (State.mk h2
      (fun j => if j = σ.next then some { level := 0, count := 0, head := σ.heap.addr, compare := cmp, key := key } else σ.lists j)
      (σ.next + 1), σ.next) := by
    unfold create
    simp only [hc, Res.bind]
    rw [show List.range (maxLevel + 1) = List.range 17 from rfl, e2]
  have hok2 : h2.Ok := hok1.of s2.1.2 (Nat.le_of_eq s2.1.1.symm) s2.2.1
  have hold : ∀ p, p ≠ σ.heap.addr → h2.mem p = σ.heap.mem p := by
    intro p hp
    rw [s2.mem_eq (by intro i x; simp [hp])]
    simp [h1, hp]
  have hlt : ∀ l s p, σ.lists l = some s → p ∈ ids (hd s :: N l) → p ≠ σ.heap.addr := fun l s p hl hp e =>
    (I.rep l s hl).ids_live hp (e ▸ I.ok.addr.1)
  have hne : ∀ l s, σ.lists l = some s → l ≠ σ.next := fun l s hl => Nat.ne_of_lt (I.small l s hl).2
  refine ⟨_, hcr, ?_⟩
  constructor
  · intro l s hl
    simp only at hl ⊢
    by_cases e : l = σ.next
    · simp only [e, if_true, Option.some.injEq] at hl ⊢
      subst hl
      refine ⟨?_, by simp [ids], hok2, by simp, by simp, by simp⟩
      · intro a n b hx
        have : a = [] ∧ n = hd { level := 0, count := 0, head := σ.heap.addr, compare := cmp, key := key } ∧ b = [] := by
          cases a with
          | nil => simp at hx; exact ⟨rfl, hx.1.symm, hx.2⟩
          | cons y a => simp at hx
        obtain ⟨rfl, rfl, rfl⟩ := this
        obtain ⟨e', g1, g2, g3, g4⟩ := s2.2.2 σ.heap.addr { datum := 0, forward := List.replicate (16 + 2) none } (by simp [h1])
        refine ⟨e', g1, g2, by rw [g3]; simp [hd], ?_⟩
        intro i hi
        rw [g4]
        simp only [hd] at hi
        have h17 : i < 17 := by omega
        simp only [true_and, h17, if_true]
        rfl
    · simp only [e, if_false] at hl ⊢
      refine (I.rep l s hl).frame ?_ hok2
      intro n hn
      exact hold _ (hlt l s n.id hl (List.mem_map.2 ⟨n, hn, rfl⟩))
  · intro l s hl
    simp only [I.next] at hl ⊢
    by_cases e : l = σ.next
    · simp only [e, if_true, Option.some.injEq] at hl ⊢
      subst hl
      exact ⟨_, rfl, t _ rfl rfl⟩
    · simp only [e, if_false] at hl ⊢
      exact I.mat l s hl
  · intro l hl
    simp only [I.next] at hl ⊢
    by_cases e : l = σ.next
    · simp [e] at hl
    · simp only [e, if_false] at hl ⊢
      exact I.none' l hl
  · intro l l' s s' hll hl hl' p hp hp'
    simp only at hl hl'
    by_cases e : l = σ.next
    · have e' : l' ≠ σ.next := fun e' => hll (e.trans e'.symm)
      simp only [e, e', if_true, if_false, Option.some.injEq] at hl hl' hp hp'
      subst hl
      have := hlt l' s' p hl' hp'
      simp only [ids, hd, List.map_cons, List.map_nil, List.mem_singleton] at hp
      exact this hp
    · by_cases e' : l' = σ.next
      · simp only [e, e', if_true, if_false, Option.some.injEq] at hl hl' hp hp'
        subst hl'
        have := hlt l s p hl hp
        simp only [ids, hd, List.map_cons, List.map_nil, List.mem_singleton] at hp'
        exact this hp'
      · simp only [e, e', if_false] at hl hl' hp hp'
        exact I.disj l l' s s' hll hl hl' p hp hp'
  · intro p hp
    simp only at hp ⊢
    by_cases e : p = σ.heap.addr
    · exact ⟨σ.next, _, if_pos rfl, by simp [ids, hd, e]⟩
    · rw [hold p e] at hp
      obtain ⟨l, s, hl, hm⟩ := I.own p hp
      exact ⟨l, s, by simp [hne l s hl, hl], by simpa [hne l s hl] using hm⟩
  · simp [I.next]
  · intro l s hl
    simp only at hl ⊢
    by_cases e : l = σ.next
    · have := I.pos; omega
    · simp only [e, if_false] at hl
      have := I.small l s hl
      omega
  · simp
  · exact hok2

theorem destroy_sim {σ : State} {S : Colls} {N : Nat → List Node} (I : InvOf M σ S N) {l : Nat} {s : SList} (hl : σ.lists l = some s) :
    ∃ σ', destroy σ l = .ok σ' ∧ InvOf M σ' (S.set l none) N := by
  have r := I.rep l s hl
  have hch : σ.check l = .ok s := by
    unfold State.check
    rw [if_neg (Nat.ne_of_gt (I.small l s hl).1), hl]
  obtain ⟨h', g1, g2, g3⟩ := freeLoop_ok (hd s :: N l) (σ.heap.clock + 1) σ.heap (by have := r.few; simp; omega) r.linked r.nodup
    (fun n hn => Nat.ne_of_gt (r.pos n hn))
  have e : nxt 0 (hd s :: N l) = s.head := by simp [nxt, hd]
  rw [e] at g1
  have hok' : h'.Ok := I.ok.of g2.2 (Nat.le_of_eq g2.1.symm) fun a ha => by rw [g3, ha]; split <;> rfl
  refine ⟨σ.put l h' none, by unfold destroy; simp only [hch, Res.bind, g1], ?_⟩
  constructor
  · intro j t hj
    simp only [State.put] at hj ⊢
    by_cases e : j = l
    · simp [e] at hj
    · simp only [e, if_false] at hj ⊢
      refine (I.rep j t hj).frame ?_ hok'
      intro n hn
      rw [g3, if_neg (I.disj j l t s e hj hl _ (List.mem_map.2 ⟨n, hn, rfl⟩))]
  · intro j t hj
    simp only [State.put, Colls.set] at hj ⊢
    by_cases e : j = l
    · simp [e] at hj
    · simp only [e, if_false] at hj ⊢
      exact I.mat j t hj
  · intro j hj
    simp only [State.put, Colls.set] at hj ⊢
    by_cases e : j = l
    · simp [e]
    · simp only [e, if_false] at hj ⊢
      exact I.none' j hj
  · intro j k t t' hjk hj hk
    simp only [State.put] at hj hk
    by_cases e : j = l
    · simp [e] at hj
    · by_cases e' : k = l
      · simp [e'] at hk
      · simp only [e, e', if_false] at hj hk
        exact I.disj j k t t' hjk hj hk
  · intro p hp
    simp only [State.put] at hp ⊢
    rw [g3] at hp
    split at hp
    · simp at hp
    · rename_i hp'
      obtain ⟨j, t, hj, hm⟩ := I.own p hp
      have e : j ≠ l := by
        rintro rfl
        rw [hl, Option.some.injEq] at hj
        subst hj
        exact hp' hm
      exact ⟨j, t, by simp [e, hj], hm⟩
  · exact I.next
  · intro j t hj
    simp only [State.put] at hj ⊢
    by_cases e : j = l
    · simp [e] at hj
    · simp only [e, if_false] at hj
      exact I.small j t hj
  · exact I.pos
  · exact hok'

/-- where a key belongs -/
theorem Match.split {c : Coll} {s : SList} {h : Heap} {ns : List Node} (m : Match c s ns) (r : Rep h s ns) (key : Nat) :
    ∃ lt ge u, ns = lt ++ ge ∧ (∀ n ∈ lt, s.compare (s.key n.datum) key < 0) ∧
      locate s h key = .ok (nxt 0 ge, u) ∧ u.length = 17 ∧ (∀ j, j ≤ s.level → u[j]? = some (some (pred j s.head lt))) ∧
      ((∃ g ge', ge = g :: ge' ∧ s.compare (s.key g.datum) key = 0 ∧ c.lookup key = some g.datum) ∨
       (c.lookup key = none ∧ ∀ n ∈ ge, 0 < s.compare (s.key n.datum) key)) := by
  obtain ⟨m1, m2, m3, m4, m5⟩ := m
  have t : TotalOrder s.compare := by rw [m1]; exact m3
  obtain ⟨lt, ge, h1, h2, h3, h4⟩ := split_key (keyf := s.key) t key ns m5
  rw [h1] at r
  obtain ⟨u, g1, g2, g3⟩ := locate_ok r h2 h3
  have := lookup_of m4 h1 (key := key) (by rw [← m1, ← m2]; exact h2) (by rw [← m1, ← m2]; exact h3) (by rw [← m1, ← m2]; exact h4)
  rw [← m1, ← m2] at this
  exact ⟨lt, ge, u, h1, h2, g1, g2, g3, this⟩

theorem nxt_zero_cons (g : Node) (ge : List Node) : nxt 0 (g :: ge) = g.id := by simp [nxt]

theorem okBind {α β : Type} (a : α) (f : α → Res β) : (Res.ok a).bind f = f a := rfl

/-- every call does what is specified and keeps the invariant -/
theorem step_sim {σ : State} {S : Colls} {N : Nat → List Node} (I : Inv σ S N) (o : SlOp) (ho : o.Ok) :
    ResRel (fun c b => c.2 = b.2 ∧ ∃ N', Inv c.1 b.1 N') (step σ o) (S.step o) := by
  cases o with
  | create cmp key =>
    cases cmp with
    | none => simp [step, create, Colls.step, ResRel]
    | some cmp =>
      cases key with
      | none => simp [step, create, Colls.step, ResRel]
      | some key =>
        obtain ⟨σ', e, I'⟩ := create_sim I cmp key fun s h1 h2 => ⟨h1, h2, ho, by simp, by simp⟩
        simp only [step, e, Colls.step, ResRel]
        exact ⟨I.next.symm, _, I'⟩
  | destroy l =>
    simp only [step, Colls.step, Colls.on]
    rcases I.check l with ⟨h0, hc⟩ | ⟨h0, hc, hn⟩ | ⟨s, c, h0, hl, hc, hS, m, r⟩
    · rw [if_pos h0]; unfold destroy; rw [hc]; simp [Res.bind, ResRel]
    · rw [if_neg h0, hn]; unfold destroy; rw [hc]; simp [Res.bind, ResRel]
    · rw [if_neg h0, hS]
      obtain ⟨σ', e, I'⟩ := destroy_sim I hl
      simp only [e, Res.bind, ResRel]
      exact ⟨trivial, _, I'⟩
  | find l k =>
    simp only [step, Colls.step, Colls.on]
    rcases I.check l with ⟨h0, hc⟩ | ⟨h0, hc, hn⟩ | ⟨s, c, h0, hl, hc, hS, m, r⟩
    · rw [if_pos h0]; unfold find; rw [hc]; simp [Res.bind, ResRel]
    · rw [if_neg h0, hn]; unfold find; rw [hc]; simp [Res.bind, ResRel]
    · rw [if_neg h0, hS]
      obtain ⟨lt, ge, u, e1, e2, e3, e4, e5, e6⟩ := m.split r k
      unfold find
      simp only [hc, Res.bind, e3]
      have hpos : ∀ n ∈ ge, n.id ≠ 0 := fun n hn => Nat.ne_of_gt (r.pos n (by rw [e1]; simp [hn]))
      rcases e6 with ⟨g, ge', rfl, g1, g2⟩ | ⟨g1, g2⟩
      · rw [nxt_zero_cons, if_neg (hpos g (by simp)), r.linked.datum (n := g) (by rw [e1]; simp)]
        simp only [g1, if_true, g2, Option.getD_some, ResRel]
        exact ⟨trivial, N, I⟩
      · cases ge with
        | nil =>
          simp only [nxt, if_true, g1, Option.getD_none, ResRel]
          exact ⟨trivial, N, I⟩
        | cons g ge' =>
          rw [nxt_zero_cons, if_neg (hpos g (by simp)), r.linked.datum (n := g) (by rw [e1]; simp)]
          have := g2 g (by simp)
          simp only
          rw [if_neg (by omega)]
          simp only [g1, Option.getD_none, ResRel]
          exact ⟨trivial, N, I⟩
  | insert l d rnd =>
    simp only [step, Colls.step, Colls.on]
    rcases I.check l with ⟨h0, hc⟩ | ⟨h0, hc, hn⟩ | ⟨s, c, h0, hl, hc, hS, m, r⟩
    · rw [if_pos h0]; unfold insert; simp [hc, Res.bind, ResRel]
    · rw [if_neg h0, hn]; unfold insert; simp [hc, Res.bind, ResRel]
    · rw [if_neg h0, hS]
      have m' := m
      obtain ⟨m1, m2, m3, m4, m5⟩ := m'
      obtain ⟨lt, ge, u, e1, e2, e3, e4, e5, e6⟩ := m.split r (s.key d)
      have hpos : ∀ n ∈ ge, n.id ≠ 0 := fun n hn => Nat.ne_of_gt (r.pos n (by rw [e1]; simp [hn]))
      unfold insert
      simp only [hc, okBind, e3]
      rcases e6 with ⟨g, ge', rfl, g1, g2⟩ | ⟨g1, g2⟩
      · rw [nxt_zero_cons, if_neg (hpos g (by simp)), r.linked.datum (n := g) (by rw [e1]; simp)]
        rw [← m2, g2]
        simp only [okBind, g1, if_true]
        simp [Res.bind, ResRel]
      · rw [← m2, g1]
        have hok : (if nxt 0 ge = 0 then Res.ok () else (σ.heap.datum (nxt 0 ge)).bind fun a =>
            if s.compare (s.key a) (s.key d) = 0 then Res.abort else Res.ok ()) = Res.ok () := by
          cases ge with
          | nil => simp [nxt]
          | cons g ge' =>
            rw [nxt_zero_cons, if_neg (hpos g (by simp)), r.linked.datum (n := g) (by rw [e1]; simp)]
            have := g2 g (by simp)
            simp only [okBind]
            rw [if_neg (by omega)]
        rw [hok]
        simp only [okBind]
        have hrl := randomLevel_range rnd
        have htop := r.top
        have hge : ∀ n ∈ ge, s.compare (s.key d) (s.key n.datum) < 0 := by
          intro n hn
          rw [m1]
          exact (m3.antisymm _ _).2 (by rw [← m1]; exact g2 n hn)
        have rr := r
        rw [e1] at rr
        have finish : ∀ (L lv : Nat) (u' : List (Option Nat)), L ≤ 16 → lv ≤ 16 → s.level ≤ lv → L ≤ lv →
            (∀ j, j ≤ L → u'[j]? = some (some (pred j s.head lt))) →
            ResRel (fun (c : State × Nat) (b : Colls × Nat) => c.2 = b.2 ∧ ∃ N', Inv c.1 b.1 N')
              (((createEntry σ.heap L d).bind fun e => (linkLoop u' e.2 (List.range (L + 1)) e.1).bind fun h =>
                Res.ok (σ.put l h (some { s with level := lv, count := s.count + 1 }))).bind fun σ => Res.ok (σ, 0))
              (Res.ok (S.set l (some { cmp := c.cmp, key := s.key, data := d :: c.data }), 0)) := by
          intro L lv u' h1 h2 h3 h4 h5
          obtain ⟨ha, hb, q1, q2, q3, q4, q5⟩ := insert_rep rr h1 h2 h3 h4 h5
          rw [q1]
          simp only [okBind, q2, ResRel, true_and]
          refine ⟨_, I.change hl q3 ?_ ?_ ?_ ?_⟩
          · refine ⟨m1, rfl, m3, ?_, ?_⟩
            · rw [e1] at m4
              simp only [List.map_append, List.map_cons] at m4 ⊢
              exact (m4.cons d).trans List.perm_middle.symm
            · have hso := m5
              rw [e1, List.pairwise_append] at hso
              refine List.pairwise_append.2 ⟨hso.1, List.pairwise_cons.2 ⟨hge, hso.2.1⟩, ?_⟩
              intro x hx y hy
              rcases List.mem_cons.1 hy with rfl | hy
              · exact e2 x hx
              · exact hso.2.2 x hx y hy
          · intro p hp hp'
            rw [e1] at hp'
            exact q5 p (by rintro rfl; exact hp I.ok.addr.1) hp'
          · intro p hp
            rw [e1]
            simp only [ids, List.map_cons, List.map_append, List.mem_cons, List.mem_append, hd] at hp ⊢
            rcases hp with hp | hp | hp | hp
            · left; left; exact hp
            · left; right; left; exact hp
            · right; rw [hp]; exact I.ok.addr.1
            · left; right; right; exact hp
          · intro p hp
            rw [e1]
            by_cases e : p = σ.heap.addr
            · left; simp [ids, e]
            · by_cases hm : p ∈ ids (hd s :: (lt ++ ge))
              · left
                simp only [ids, List.map_cons, List.map_append, List.mem_cons, List.mem_append, hd] at hm ⊢
                tauto
              · right
                rw [q5 p e hm] at hp
                obtain ⟨j, t, hj, hjm⟩ := I.own p hp
                exact ⟨(I.rep j t hj).ids_live hjm, hm⟩
        by_cases hlev : randomLevel rnd > s.level
        · rw [if_pos hlev]
          have hs : setUpdate u (s.level + 1) s.head = .ok (u.set (s.level + 1) (some s.head)) := by
            unfold setUpdate; rw [if_pos (by omega)]
          rw [hs]
          simp only [okBind]
          refine finish (s.level + 1) (s.level + 1) _ (by omega) (by omega) (by omega) (by omega) ?_
          intro j hj
          by_cases e : j = s.level + 1
          · subst e
            rw [List.getElem?_set_self (by omega), pred_none]
            intro n hn
            have := r.levs n (by rw [e1]; simp [hn])
            omega
          · rw [List.getElem?_set_ne (by omega)]
            exact e5 j (by omega)
        · rw [if_neg hlev]
          simp only [okBind]
          exact finish (randomLevel rnd) s.level u (by omega) htop (Nat.le_refl _) (by omega) (fun j hj => e5 j (by omega))
  | delete l d =>
    simp only [step, Colls.step, Colls.on]
    rcases I.check l with ⟨h0, hc⟩ | ⟨h0, hc, hn⟩ | ⟨s, c, h0, hl, hc, hS, m, r⟩
    · rw [if_pos h0]; unfold delete; simp [hc, Res.bind, ResRel]
    · rw [if_neg h0, hn]; unfold delete; simp [hc, Res.bind, ResRel]
    · rw [if_neg h0, hS]
      have m' := m
      obtain ⟨m1, m2, m3, m4, m5⟩ := m'
      obtain ⟨lt, ge, u, e1, e2, e3, e4, e5, e6⟩ := m.split r (s.key d)
      have hpos : ∀ n ∈ ge, n.id ≠ 0 := fun n hn => Nat.ne_of_gt (r.pos n (by rw [e1]; simp [hn]))
      unfold delete
      simp only [hc, okBind, e3]
      rcases e6 with ⟨g, ge', rfl, g1, g2⟩ | ⟨g1, g2⟩
      · rw [nxt_zero_cons, if_neg (hpos g (by simp)), r.linked.datum (n := g) (by rw [e1]; simp)]
        rw [← m2, g2]
        simp only [okBind, g1, ne_eq, not_true_eq_false, if_false]
        have rr := r
        rw [e1] at rr
        obtain ⟨ha, hb, lv, q1, q2, q3, q4, q5, q6, q7⟩ := delete_rep rr e5
        rw [q1]
        simp only [okBind, q2, q3, ResRel, true_and]
        refine ⟨_, I.change hl q4 ?_ ?_ ?_ ?_⟩
        · refine ⟨m1, rfl, m3, ?_, ?_⟩
          swap
          · have hso := m5
            rw [e1] at hso
            exact hso.sublist (List.Sublist.append_left (List.sublist_cons_self _ _) _)
          simp only
          -- no other datum equals the removed one
          have hne : ∀ n ∈ lt ++ ge', n.datum ≠ g.datum := by
            intro n hn e
            have hso := m5
            rw [e1, List.pairwise_append] at hso
            have hirr : s.compare (s.key g.datum) (s.key g.datum) = 0 := by
              have := m3.antisymm (s.key g.datum) (s.key g.datum)
              rw [← m1] at this; omega
            rcases List.mem_append.1 hn with hn | hn
            · have := hso.2.2 n hn g (by simp)
              rw [e] at this; omega
            · have := (List.pairwise_cons.1 hso.2.1).1 n hn
              rw [e] at this; omega
          rw [e1] at m4
          have h5 := m4.filter (fun x => decide (x ≠ g.datum))
          refine h5.trans ?_
          simp only [List.map_append, List.map_cons, List.filter_append, List.filter_cons]
          simp only [ne_eq, not_true_eq_false, decide_false, Bool.false_eq_true, if_false]
          rw [List.filter_eq_self.2, List.filter_eq_self.2]
          · intro x hx
            obtain ⟨n, hn, rfl⟩ := List.mem_map.1 hx
            simpa using hne n (by simp [hn])
          · intro x hx
            obtain ⟨n, hn, rfl⟩ := List.mem_map.1 hx
            simpa using hne n (by simp [hn])
        · intro p hp hp'
          rw [e1] at hp'
          exact q7 p hp'
        · intro p hp
          rw [e1]
          left
          simp only [ids, List.map_cons, List.map_append, List.mem_cons, List.mem_append, hd] at hp ⊢
          tauto
        · intro p hp
          rw [e1]
          by_cases e : p = g.id
          · rw [e, q6] at hp; simp at hp
          · by_cases hm : p ∈ ids (hd s :: (lt ++ g :: ge'))
            · left
              simp only [ids, List.map_cons, List.map_append, List.mem_cons, List.mem_append, hd] at hm ⊢
              tauto
            · right
              rw [q7 p hm] at hp
              obtain ⟨j, t, hj, hjm⟩ := I.own p hp
              exact ⟨(I.rep j t hj).ids_live hjm, hm⟩
      · rw [← m2, g1]
        cases ge with
        | nil => simp [nxt, ResRel, Res.bind]
        | cons g ge' =>
          rw [nxt_zero_cons, if_neg (hpos g (by simp)), r.linked.datum (n := g) (by rw [e1]; simp)]
          have := g2 g (by simp)
          simp only [okBind]
          rw [if_pos (by omega)]
          simp [ResRel, Res.bind]

/-! ## iteration -/

theorem copyLoop_ok {h : Heap} : ∀ (xs : List Node) (fuel : Nat) (copy : List Nat) (count : Int), xs.length < fuel → Linked h xs →
    (∀ n ∈ xs, n.id ≠ 0) → count = copy.length + xs.length → copyLoop h count fuel (nxt 0 xs) copy = .ok (copy ++ xs.map Node.datum) := by
  intro xs
  induction xs with
  | nil =>
    intro fuel copy count hf _ _ _
    cases fuel with
    | zero => simp at hf
    | succ fuel => simp [copyLoop, nxt]
  | cons n xs ih =>
    intro fuel copy count hf hl h0 hc
    cases fuel with
    | zero => simp at hf
    | succ fuel =>
      rw [nxt_zero_cons]
      simp only [copyLoop]
      simp only [List.length_cons] at hc hf
      rw [if_neg (h0 n (by simp)), hl.datum (n := n) (by simp), okBind, if_pos (by omega), (hl [] n xs rfl).fwd (Nat.zero_le _), okBind]
      rw [ih fuel (copy ++ [n.datum]) count (by omega) (Linked.suffix (a := [n]) hl) (fun m hm => h0 m (by simp [hm])) (by simp; omega)]
      simp

theorem callLoop_sim {X : Type} (f : SlCallback X) (hf : ∀ x d, ∀ o ∈ (f x d).1, o.Ok) (copy : List Nat) :
    ∀ (n i : Nat) (σ : State) (S : Colls) (x : X), i + n = copy.length → (∃ N, Inv σ S N) →
    ResRel (fun a b => a.2 = b.2 ∧ ∃ N', Inv a.1 b.1 N') (callLoop f copy n i σ x) (Colls.visit f S x (copy.drop i)) := by
  intro n
  induction n with
  | zero =>
    intro i σ S x hi hI
    rw [List.drop_of_length_le (by omega)]
    exact ⟨rfl, hI⟩
  | succ n ih =>
    intro i σ S x hi hI
    have hd : copy.drop i = copy[i]'(by omega) :: copy.drop (i + 1) := List.drop_eq_getElem_cons (by omega)
    rw [hd]
    simp only [callLoop, Colls.visit]
    rw [List.getElem?_eq_getElem (by omega : i < copy.length)]
    simp only
    refine (Spec.run_sim_of SlOp.Ok (fun σ S => ∃ N, Inv σ S N) step Colls.step
      (fun σ S o ho ⟨N, I⟩ => step_sim I o ho) σ S _ (hf x _) hI).bind ?_
    intro a b ⟨h1, h2⟩
    split
    · exact ⟨rfl, h2⟩
    · refine (ih (i + 1) a.1 b.1 _ (by omega) h2).bind ?_
      rintro q q' ⟨h3, h4⟩
      refine ⟨?_, h4⟩
      simp only
      rw [h3]

theorem iterate_sim {X : Type} {σ : State} {S : Colls} {N : Nat → List Node} (I : Inv σ S N) (f : SlCallback X)
    (hf : ∀ x d, ∀ o ∈ (f x d).1, o.Ok) (x : X) {l : Nat} {s : SList} (hl : σ.lists l = some s) :
    ResRel (fun a b => a.2 = b.2 ∧ ∃ N', Inv a.1 b.1 N') (iterate σ l f x) (Colls.visit f S x ((N l).map Node.datum)) := by
  have r := I.rep l s hl
  have h0 : l ≠ 0 := Nat.ne_of_gt (I.small l s hl).1
  unfold iterate
  rw [if_neg h0]
  have hch : σ.check l = .ok s := by
    unfold State.check
    rw [if_neg h0, hl]
  have hh : σ.heap.fwd s.head 0 = .ok (nxt 0 (N l)) := NodeOk.fwd (n := hd s) (r.linked [] _ _ rfl) (Nat.zero_le _)
  rw [hch, okBind, hh, okBind]
  rw [copyLoop_ok (N l) _ [] _ (by have := r.few; omega) (Linked.suffix (a := [hd s]) r.linked) (fun n hn => Nat.ne_of_gt (r.pos n (by simp [hn])))
    (by simpa using r.size), okBind]
  have := callLoop_sim f hf ((N l).map Node.datum) s.count.toNat 0 σ S x (by rw [r.size]; simp) ⟨N, I⟩
  simpa using this

end Maa.Sl
