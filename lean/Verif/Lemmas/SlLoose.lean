import Verif.Lemmas.SlInv
import Verif.Spec.SlLoose

/-! # Skip lists with any comparison function -/

namespace Maa.Sl

open Spec (SlOp Coll Colls ResRel)

/-- the first node that has level `i` -/
def atLevel (i : Nat) (xs : List Node) : Option Node := xs.find? fun n => decide (i ≤ n.lev)

theorem atLevel_cons_pos {i : Nat} {n : Node} {xs : List Node} (h : i ≤ n.lev) : atLevel i (n :: xs) = some n := by
  simp [atLevel, h]

theorem atLevel_cons_neg {i : Nat} {n : Node} {xs : List Node} (h : ¬ i ≤ n.lev) : atLevel i (n :: xs) = atLevel i xs := by
  simp [atLevel, h]

/-- the nodes end with one of level `i` -/
def Ends (i : Nat) (c : List Node) : Prop := c = [] ∨ ∃ a m, c = a ++ [m] ∧ i ≤ m.lev

theorem Ends.cons {i : Nat} {c : List Node} {m : Node} (e : Ends i c) (h : c ≠ [] ∨ i ≤ m.lev) : Ends i (m :: c) := by
  right
  rcases e with rfl | ⟨a, x, rfl, hx⟩
  · exact ⟨[], m, rfl, h.resolve_left (by simp)⟩
  · exact ⟨m :: a, x, rfl, hx⟩

theorem Ends.append {i j : Nat} {c d : List Node} (h1 : Ends j c) (h : i ≤ j) (h2 : Ends i d) : Ends i (c ++ d) := by
  rcases h2 with rfl | ⟨a, x, rfl, hx⟩
  · rcases h1 with rfl | ⟨a, x, rfl, hx⟩
    · left; rfl
    · right; exact ⟨a, x, by simp, by omega⟩
  · right; exact ⟨c ++ a, x, by simp, hx⟩

theorem Ends.pred {i : Nat} {c : List Node} (e : Ends i c) (p : Nat) : pred i p c = pred 0 p c := by
  rcases e with rfl | ⟨a, x, rfl, hx⟩
  · rfl
  · rw [pred_append, pred_append]; simp [Sl.pred, hx]

theorem advance_any {s : SList} {h : Heap} {key i : Nat} : ∀ (xs : List Node) (fuel p : Nat), xs.length < fuel → Linked h xs →
    (∀ n ∈ xs, n.id ≠ 0) → h.fwd p i = .ok (nxt i xs) →
    ∃ c ge, xs = c ++ ge ∧ advance s h key i fuel p = .ok (pred i p c) ∧ Ends i c ∧
      (∀ n ∈ c, i ≤ n.lev → s.compare (s.key n.datum) key < 0) ∧ ∀ g, atLevel i ge = some g → ¬ s.compare (s.key g.datum) key < 0 := by
  intro xs
  induction xs with
  | nil =>
    intro fuel p hf _ _ hp
    cases fuel with
    | zero => simp at hf
    | succ fuel => exact ⟨[], [], rfl, by simp [advance, hp, Res.bind, nxt, pred], Or.inl rfl, by simp, by simp [atLevel]⟩
  | cons m xs ih =>
    intro fuel p hf hl h0 hp
    have hs : Linked h xs := Linked.suffix (a := [m]) hl
    have h0' : ∀ n ∈ xs, n.id ≠ 0 := fun n hn => h0 n (by simp [hn])
    by_cases hm : i ≤ m.lev
    · cases fuel with
      | zero => simp at hf
      | succ fuel =>
        have e : nxt i (m :: xs) = m.id := by simp [nxt, hm]
        rw [e] at hp
        by_cases hc : s.compare (s.key m.datum) key < 0
        · obtain ⟨c, ge, e1, e2, e3, e4, e5⟩ := ih fuel m.id (by simpa using hf) hs h0' (NodeOk.fwd (Linked.node (a := []) hl) hm)
          refine ⟨m :: c, ge, by rw [e1]; rfl, ?_, e3.cons (Or.inr hm), ?_, e5⟩
          · simp only [advance, hp, Res.bind, Sl.pred, hm, if_true]
            rw [if_neg (h0 m (by simp)), hl.datum (by simp)]
            simp only
            rw [if_pos hc, e2]
          · intro n hn hi
            rcases List.mem_cons.1 hn with rfl | hn
            · exact hc
            · exact e4 n hn hi
        · refine ⟨[], m :: xs, rfl, ?_, Or.inl rfl, by simp, ?_⟩
          · simp only [advance, hp, Res.bind, Sl.pred]
            rw [if_neg (h0 m (by simp)), hl.datum (by simp)]
            simp only
            rw [if_neg hc]
          · intro g hg
            rw [atLevel_cons_pos hm, Option.some.injEq] at hg
            rw [← hg]; exact hc
    · have e : nxt i (m :: xs) = nxt i xs := by simp [nxt, hm]
      rw [e] at hp
      obtain ⟨c, ge, e1, e2, e3, e4, e5⟩ := ih fuel p (by simp at hf; omega) hs h0' hp
      by_cases hc : c = []
      · subst hc
        refine ⟨[], m :: xs, rfl, e2, Or.inl rfl, by simp, ?_⟩
        intro g hg
        rw [atLevel_cons_neg hm, show xs = ge from e1] at hg
        exact e5 g hg
      · refine ⟨m :: c, ge, by rw [e1]; rfl, by simp only [Sl.pred, hm, if_false]; exact e2, e3.cons (Or.inl hc), ?_, e5⟩
        intro n hn hi
        rcases List.mem_cons.1 hn with rfl | hn
        · exact absurd hi hm
        · exact e4 n hn hi

/-- the last node -/
theorem last_node {n0 : Node} {lt : List Node} : ∃ a n, n0 :: lt = a ++ [n] ∧ pred 0 n0.id lt = n.id := by
  obtain ⟨a, n, c, h1, h2, h3, h4⟩ := pred_split 0 n0 lt
  cases c with
  | nil => exact ⟨a, n, h1, h2⟩
  | cons m c => exact absurd (Nat.zero_le _) (h4 m (by simp))

theorem locateLoop_any {h : Heap} {s : SList} {key : Nat} {ns : List Node} (r : Rep h s ns) :
    ∀ (k : Nat) (lt ge : List Node) (u : List (Option Nat)), k ≤ s.level + 1 → ns = lt ++ ge → Ends k lt → u.length = 17 →
    (∀ j, k ≤ j → ∀ g, atLevel j ge = some g → ¬ s.compare (s.key g.datum) key < 0) →
    (∀ j, k ≤ j → j ≤ s.level → u[j]? = some (some (pred j s.head lt))) →
    ∃ lt' ge' u', locateLoop s h key k (pred 0 s.head lt) u = .ok (pred 0 s.head lt', u') ∧ ns = lt' ++ ge' ∧ u'.length = 17 ∧
      (∀ j, j ≤ s.level → u'[j]? = some (some (pred j s.head lt'))) ∧
      ∀ g, atLevel 0 ge' = some g → ¬ s.compare (s.key g.datum) key < 0 := by
  intro k
  induction k with
  | zero =>
    intro lt ge u _ e _ hu hb hup
    exact ⟨lt, ge, u, rfl, e, hu, fun j hj => hup j (Nat.zero_le _) hj, hb 0 (Nat.le_refl _)⟩
  | succ i ih =>
    intro lt ge u hk e he hu hb hup
    have htop := r.top
    obtain ⟨a, n, h1, h2⟩ := last_node (n0 := hd s) (lt := lt)
    have h5 : hd s :: ns = a ++ n :: ge := by rw [e, ← List.cons_append, h1]; simp
    have hni : i ≤ n.lev := by
      rcases he with rfl | ⟨b, m, rfl, hm⟩
      · cases a with
        | nil => simp at h1; rw [← h1]; simp [hd]; omega
        | cons y a => simp at h1
      · rw [← List.cons_append] at h1
        have := (List.append_inj_right' h1 rfl)
        simp only [List.cons.injEq, and_true] at this
        rw [← this]; omega
    have hfw : h.fwd (pred 0 s.head lt) i = .ok (nxt i ge) := by
      have : pred 0 s.head lt = n.id := h2
      rw [this]
      exact NodeOk.fwd (r.linked _ _ _ h5) hni
    have hlk : Linked h ge := by
      have := r.linked
      rw [h5] at this
      exact Linked.suffix (a := a ++ [n]) (by simpa using this)
    have hpos : ∀ x ∈ ge, x.id ≠ 0 := fun x hx => Nat.ne_of_gt (r.pos x (by rw [h5]; simp [hx]))
    have hlen : ge.length < h.clock := by
      have := r.few
      rw [e] at this
      simp at this; omega
    obtain ⟨c, ge', e1, e2, e3, e4, e5⟩ := advance_any (s := s) (key := key) ge h.clock _ hlen hlk hpos hfw
    have hnone : ∀ j, i + 1 ≤ j → ∀ m ∈ c, ¬ j ≤ m.lev := by
      intro j hj m hm hml
      cases hfd : atLevel j c with
      | none =>
        unfold atLevel at hfd
        rw [List.find?_eq_none] at hfd
        have := hfd m hm
        simp [hml] at this
      | some g =>
        have hg : atLevel j ge = some g := by
          unfold atLevel at hfd ⊢
          rw [e1, List.find?_append, hfd]; rfl
        have hgl : j ≤ g.lev := by
          unfold atLevel at hfd
          simpa using List.find?_some hfd
        have hgm : g ∈ c := List.mem_of_find?_eq_some hfd
        exact hb j hj g hg (e4 g hgm (by omega))
    have hlt : Ends i (lt ++ c) := he.append (by omega) e3
    have hadv : advance s h key i h.clock (pred 0 s.head lt) = .ok (pred 0 s.head (lt ++ c)) := by
      rw [e2, e3.pred, pred_append]
    simp only [locateLoop, hadv, Res.bind, setUpdate]
    rw [if_pos (by omega)]
    simp only
    refine ih (lt ++ c) ge' _ (by omega) (by rw [e, e1]; simp) hlt (by simpa using hu) ?_ ?_
    · intro j hj g hg
      rcases Nat.eq_or_lt_of_le hj with rfl | hj
      · exact e5 g hg
      · refine hb j hj g ?_
        have : atLevel j c = none := by
          unfold atLevel
          rw [List.find?_eq_none]
          intro m hm
          simpa using hnone j hj m hm
        unfold atLevel at this hg ⊢
        rw [e1, List.find?_append, this]; exact hg
    · intro j hj hjl
      rcases Nat.eq_or_lt_of_le hj with rfl | hj
      · rw [List.getElem?_set_self (by omega), hlt.pred]
      · rw [List.getElem?_set_ne (by omega), hup j hj hjl, pred_append, pred_none (c := c) _ _ (hnone j hj)]

/-- `_sl_locate` with any comparison function -/
theorem locate_any {h : Heap} {s : SList} {key : Nat} {ns : List Node} (r : Rep h s ns) :
    ∃ lt ge u, ns = lt ++ ge ∧ locate s h key = .ok (nxt 0 ge, u) ∧ u.length = 17 ∧
      (∀ j, j ≤ s.level → u[j]? = some (some (pred j s.head lt))) ∧
      ∀ g ge', ge = g :: ge' → ¬ s.compare (s.key g.datum) key < 0 := by
  obtain ⟨lt, ge, u, g1, g2, g3, g4, g5⟩ := locateLoop_any (key := key) r (s.level + 1) [] ns noUpdate (Nat.le_refl _) rfl (Or.inl rfl) rfl
    (by
      intro j hj g hg
      unfold atLevel at hg
      have h1 := List.mem_of_find?_eq_some hg
      have h2 := List.find?_some hg
      have := r.levs g h1
      simp at h2; omega)
    (by intro j h1 h2; omega)
  refine ⟨lt, ge, u, g2, ?_, g3, g4, ?_⟩
  · unfold locate
    have : pred 0 s.head [] = s.head := rfl
    rw [this] at g1
    rw [g1]
    simp only [Res.bind]
    rw [g2] at r
    rw [r.fwd_pred (by decide)]
  · rintro g ge' rfl
    exact g5 g (atLevel_cons_pos (Nat.zero_le _))

/-- list and collection when nothing is known of the functions -/
def Loose (c : Coll) (s : SList) (ns : List Node) : Prop := s.compare = c.cmp ∧ s.key = c.key ∧ c.data.Perm (ns.map Node.datum)

/-- putting a new entry in its place keeps the rest of the invariant -/
theorem insert_inv {M : Coll → SList → List Node → Prop} {σ : State} {S : Colls} {N : Nat → List Node} (I : InvOf M σ S N) {l d : Nat} {s : SList} (hl : σ.lists l = some s)
    {lt ge : List Node} (e1 : N l = lt ++ ge) {u : List (Option Nat)} (hu : u.length = 17)
    (e5 : ∀ j, j ≤ s.level → u[j]? = some (some (pred j s.head lt))) {c' : Coll} (rnd : Nat → Nat)
    (m : ∀ lv n, n.datum = d → M c' { s with level := lv, count := s.count + 1 } (lt ++ n :: ge)) :
    ∃ σ' N', ((if randomLevel rnd > s.level then (setUpdate u (s.level + 1) s.head).bind fun u => Res.ok (s.level + 1, s.level + 1, u)
         else Res.ok (randomLevel rnd, s.level, u)).bind fun x =>
          (createEntry σ.heap x.1 d).bind fun e =>
            (linkLoop x.2.2 e.2 (List.range (x.1 + 1)) e.1).bind fun h =>
              Res.ok (σ.put l h (some { s with level := x.2.1, count := s.count + 1 }))) = Res.ok σ' ∧ InvOf M σ' (S.set l (some c')) N' := by
  have r := I.rep l s hl
  have hrl := randomLevel_range rnd
  have htop := r.top
  have rr := r
  rw [e1] at rr
  have finish : ∀ (L lv : Nat) (u' : List (Option Nat)), L ≤ 16 → lv ≤ 16 → s.level ≤ lv → L ≤ lv →
      (∀ j, j ≤ L → u'[j]? = some (some (pred j s.head lt))) →
      ∃ σ' N', ((createEntry σ.heap L d).bind fun e => (linkLoop u' e.2 (List.range (L + 1)) e.1).bind fun h =>
          Res.ok (σ.put l h (some { s with level := lv, count := s.count + 1 }))) = Res.ok σ' ∧ InvOf M σ' (S.set l (some c')) N' := by
    intro L lv u' h1 h2 h3 h4 h5
    obtain ⟨ha, hb, q1, q2, q3, q4, q5⟩ := insert_rep (d := d) rr h1 h2 h3 h4 h5
    rw [q1]
    simp only [okBind, q2]
    refine ⟨_, _, rfl, I.change hl q3 (m lv _ rfl) ?_ ?_ ?_⟩
    · intro p hp hp'
      rw [e1] at hp'
      exact q5 p (by rintro rfl; exact hp I.ok.addr.1) hp'
    · intro p hp
      rw [e1]
      simp only [ids, List.map_cons, List.map_append, List.mem_cons, List.mem_append, hd] at hp ⊢
      rcases hp with hp | hp | hp | hp
      · left; left; exact hp
      · left; right; left; exact hp
      · right; rw [hp]; exact I.ok.addr.1
      · left; right; right; exact hp
    · intro p hp
      rw [e1]
      by_cases e : p = σ.heap.addr
      · left; simp [ids, e]
      · by_cases hm : p ∈ ids (hd s :: (lt ++ ge))
        · left
          simp only [ids, List.map_cons, List.map_append, List.mem_cons, List.mem_append, hd] at hm ⊢
          tauto
        · right
          rw [q5 p e hm] at hp
          obtain ⟨j, t, hj, hjm⟩ := I.own p hp
          exact ⟨(I.rep j t hj).ids_live hjm, hm⟩
  by_cases hlev : randomLevel rnd > s.level
  · rw [if_pos hlev]
    have hs : setUpdate u (s.level + 1) s.head = .ok (u.set (s.level + 1) (some s.head)) := by
      unfold setUpdate; rw [if_pos (by omega)]
    rw [hs]
    simp only [okBind]
    refine finish (s.level + 1) (s.level + 1) _ (by omega) (by omega) (by omega) (by omega) ?_
    intro j hj
    by_cases e : j = s.level + 1
    · subst e
      rw [List.getElem?_set_self (by omega), pred_none]
      intro n hn
      have := r.levs n (by rw [e1]; simp [hn])
      omega
    · rw [List.getElem?_set_ne (by omega)]
      exact e5 j (by omega)
  · rw [if_neg hlev]
    simp only [okBind]
    exact finish (randomLevel rnd) s.level u (by omega) htop (Nat.le_refl _) (by omega) (fun j hj => e5 j (by omega))

/-- taking an entry out keeps the rest of the invariant -/
theorem delete_inv {M : Coll → SList → List Node → Prop} {σ : State} {S : Colls} {N : Nat → List Node} (I : InvOf M σ S N) {l : Nat} {s : SList} (hl : σ.lists l = some s)
    {lt ge : List Node} {g : Node} (e1 : N l = lt ++ g :: ge) {u : List (Option Nat)}
    (e5 : ∀ j, j ≤ s.level → u[j]? = some (some (pred j s.head lt))) {c' : Coll}
    (m : ∀ lv, M c' { s with level := lv, count := s.count - 1 } (lt ++ ge)) :
    ∃ σ' N', ((unlinkLoop u g.id (List.range (s.level + 1)) σ.heap).bind fun h => (h.free g.id).bind fun h =>
          (lowerLevel h s.head s.level).bind fun level => Res.ok (σ.put l h (some { s with level := level, count := s.count - 1 }))) = Res.ok σ' ∧
      InvOf M σ' (S.set l (some c')) N' := by
  have rr := I.rep l s hl
  rw [e1] at rr
  obtain ⟨ha, hb, lv, q1, q2, q3, q4, q5, q6, q7⟩ := delete_rep rr e5
  rw [q1]
  simp only [okBind, q2, q3]
  refine ⟨_, _, rfl, I.change hl q4 (m lv) ?_ ?_ ?_⟩
  · intro p hp hp'
    rw [e1] at hp'
    exact q7 p hp'
  · intro p hp
    rw [e1]
    left
    simp only [ids, List.map_cons, List.map_append, List.mem_cons, List.mem_append, hd] at hp ⊢
    tauto
  · intro p hp
    rw [e1]
    by_cases e : p = g.id
    · rw [e, q6] at hp; simp at hp
    · by_cases hm : p ∈ ids (hd s :: (lt ++ g :: ge))
      · left
        simp only [ids, List.map_cons, List.map_append, List.mem_cons, List.mem_append, hd] at hm ⊢
        tauto
      · right
        rw [q7 p hm] at hp
        obtain ⟨j, t, hj, hjm⟩ := I.own p hp
        exact ⟨(I.rep j t hj).ids_live hjm, hm⟩

/-- every call has one of the outcomes it may have -/
theorem step_loose {σ : State} {S : Colls} {N : Nat → List Node} (I : InvOf Loose σ S N) (o : SlOp) :
    ∃ b, S.may o b ∧ ResRel (fun c b => c.2 = b.2 ∧ ∃ N', InvOf Loose c.1 b.1 N') (step σ o) b := by
  cases o with
  | create cmp key =>
    cases cmp with
    | none => exact ⟨_, rfl, by simp [step, create, Colls.step, ResRel]⟩
    | some cmp =>
      cases key with
      | none => exact ⟨_, rfl, by simp [step, create, Colls.step, ResRel]⟩
      | some key =>
        obtain ⟨σ', e, I'⟩ := create_sim I cmp key fun s h1 h2 => ⟨h1, h2, by simp⟩
        refine ⟨_, rfl, ?_⟩
        simp only [step, e, Colls.step, ResRel]
        exact ⟨I.next.symm, _, I'⟩
  | destroy l =>
    refine ⟨_, rfl, ?_⟩
    simp only [step, Colls.step, Colls.on]
    rcases I.check l with ⟨h0, hc⟩ | ⟨h0, hc, hn⟩ | ⟨s, c, h0, hl, hc, hS, m, r⟩
    · rw [if_pos h0]; unfold destroy; rw [hc]; simp [Res.bind, ResRel]
    · rw [if_neg h0, hn]; unfold destroy; rw [hc]; simp [Res.bind, ResRel]
    · rw [if_neg h0, hS]
      obtain ⟨σ', e, I'⟩ := destroy_sim I hl
      simp only [e, Res.bind, ResRel]
      exact ⟨trivial, _, I'⟩
  | find l k =>
    simp only [step, Colls.may, Colls.mayOn]
    rcases I.check l with ⟨h0, hc⟩ | ⟨h0, hc, hn⟩ | ⟨s, c, h0, hl, hc, hS, ⟨m1, m2, m4⟩, r⟩
    · refine ⟨.abort, by rw [if_pos h0], ?_⟩; unfold find; rw [hc]; simp [Res.bind, ResRel]
    · refine ⟨.ub, by rw [if_neg h0, hn], ?_⟩; unfold find; rw [hc]; simp [Res.bind, ResRel]
    · simp only [if_neg h0, hS]
      obtain ⟨lt, ge, u, e1, e3, e4, e5, e6⟩ := locate_any (key := k) r
      unfold find
      simp only [hc, Res.bind, e3]
      have hpos : ∀ n ∈ ge, n.id ≠ 0 := fun n hn => Nat.ne_of_gt (r.pos n (by rw [e1]; simp [hn]))
      cases ge with
      | nil => exact ⟨_, Or.inr rfl, by simp only [nxt, if_true, ResRel]; exact ⟨trivial, N, I⟩⟩
      | cons g ge' =>
        rw [nxt_zero_cons, if_neg (hpos g (by simp)), r.linked.datum (n := g) (by rw [e1]; simp)]
        simp only
        by_cases hg : s.compare (s.key g.datum) k = 0
        · refine ⟨_, Or.inl ⟨g.datum, m4.mem_iff.2 (by rw [e1]; simp), by rw [← m1, ← m2]; exact hg, rfl⟩, ?_⟩
          rw [if_pos hg]
          exact ⟨rfl, N, I⟩
        · refine ⟨_, Or.inr rfl, ?_⟩
          rw [if_neg hg]
          exact ⟨rfl, N, I⟩
  | insert l d rnd =>
    simp only [step, Colls.may, Colls.mayOn]
    rcases I.check l with ⟨h0, hc⟩ | ⟨h0, hc, hn⟩ | ⟨s, c, h0, hl, hc, hS, ⟨m1, m2, m4⟩, r⟩
    · refine ⟨.abort, by rw [if_pos h0], ?_⟩; unfold insert; simp [hc, Res.bind, ResRel]
    · refine ⟨.ub, by rw [if_neg h0, hn], ?_⟩; unfold insert; simp [hc, Res.bind, ResRel]
    · simp only [if_neg h0, hS]
      obtain ⟨lt, ge, u, e1, e3, e4, e5, e6⟩ := locate_any (key := s.key d) r
      have hpos : ∀ n ∈ ge, n.id ≠ 0 := fun n hn => Nat.ne_of_gt (r.pos n (by rw [e1]; simp [hn]))
      unfold insert
      simp only [hc, okBind, e3]
      obtain ⟨σ', N', q1, q2⟩ := insert_inv I hl e1 e4 e5 (c' := { c with data := d :: c.data }) (d := d) rnd (by
        rintro lv n rfl
        refine ⟨m1, m2, ?_⟩
        rw [e1] at m4
        simp only [List.map_append, List.map_cons] at m4 ⊢
        exact (m4.cons _).trans List.perm_middle.symm)
      have ok : ResRel (fun c b => c.2 = b.2 ∧ ∃ N', InvOf Loose c.1 b.1 N')
          ((Res.ok ()).bind fun _ => (((if randomLevel rnd > s.level then (setUpdate u (s.level + 1) s.head).bind fun u => Res.ok (s.level + 1, s.level + 1, u)
         else Res.ok (randomLevel rnd, s.level, u)).bind fun x =>
          (createEntry σ.heap x.1 d).bind fun e =>
            (linkLoop x.2.2 e.2 (List.range (x.1 + 1)) e.1).bind fun h =>
              Res.ok (σ.put l h (some { s with level := x.2.1, count := s.count + 1 }))).bind fun σ => Res.ok (σ, 0)))
          (Res.ok (S.set l (some { c with data := d :: c.data }), 0)) := by
        rw [okBind, q1]
        exact ⟨rfl, N', q2⟩
      cases ge with
      | nil => exact ⟨_, Or.inl rfl, by simpa [nxt, okBind] using ok⟩
      | cons g ge' =>
        rw [nxt_zero_cons, if_neg (hpos g (by simp)), r.linked.datum (n := g) (by rw [e1]; simp)]
        simp only [okBind]
        by_cases hg : s.compare (s.key g.datum) (s.key d) = 0
        · refine ⟨.abort, Or.inr ⟨rfl, g.datum, m4.mem_iff.2 (by rw [e1]; simp), by rw [← m1, ← m2]; exact hg⟩, ?_⟩
          rw [if_pos hg]
          simp [Res.bind, ResRel]
        · refine ⟨_, Or.inl rfl, ?_⟩
          rw [if_neg hg]
          exact ok
  | delete l d =>
    simp only [step, Colls.may, Colls.mayOn]
    rcases I.check l with ⟨h0, hc⟩ | ⟨h0, hc, hn⟩ | ⟨s, c, h0, hl, hc, hS, ⟨m1, m2, m4⟩, r⟩
    · refine ⟨.abort, by rw [if_pos h0], ?_⟩; unfold delete; simp [hc, Res.bind, ResRel]
    · refine ⟨.ub, by rw [if_neg h0, hn], ?_⟩; unfold delete; simp [hc, Res.bind, ResRel]
    · simp only [if_neg h0, hS]
      obtain ⟨lt, ge, u, e1, e3, e4, e5, e6⟩ := locate_any (key := s.key d) r
      have hpos : ∀ n ∈ ge, n.id ≠ 0 := fun n hn => Nat.ne_of_gt (r.pos n (by rw [e1]; simp [hn]))
      unfold delete
      simp only [hc, okBind, e3]
      cases ge with
      | nil => exact ⟨.abort, Or.inr rfl, by simp [nxt, ResRel, Res.bind]⟩
      | cons g ge' =>
        rw [nxt_zero_cons, if_neg (hpos g (by simp)), r.linked.datum (n := g) (by rw [e1]; simp)]
        simp only [okBind]
        by_cases hg : s.compare (s.key g.datum) (s.key d) = 0
        · have hm : g.datum ∈ c.data := m4.mem_iff.2 (by rw [e1]; simp)
          obtain ⟨σ', N', q1, q2⟩ := delete_inv I hl e1 e5 (c' := { c with data := c.data.erase g.datum }) (by
            intro lv
            refine ⟨m1, m2, ?_⟩
            rw [e1] at m4
            have h5 := m4.erase g.datum
            refine h5.trans ?_
            simp only [List.map_append, List.map_cons]
            refine (List.Perm.erase _ List.perm_middle).trans ?_
            simp)
          refine ⟨_, Or.inl ⟨g.datum, hm, by rw [← m1, ← m2]; exact hg, rfl⟩, ?_⟩
          rw [if_neg (by simp [hg]), okBind, q1]
          exact ⟨rfl, N', q2⟩
        · refine ⟨.abort, Or.inr rfl, ?_⟩
          rw [if_pos hg]
          simp [Res.bind, ResRel]

end Maa.Sl
