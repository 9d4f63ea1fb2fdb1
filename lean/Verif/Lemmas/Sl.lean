import Verif.Model.Sl
import Verif.Lemmas.Heap
import Mathlib.Data.List.Perm.Basic
import Mathlib.Data.List.Nodup
import Mathlib.Data.List.Perm.Subperm

namespace Maa.Sl

open Spec (SlOp Coll Colls TotalOrder)

/-- Ghost description of an entry: its address, datum and number of levels minus one. -/
structure Node where
  id : Nat
  datum : Nat
  lev : Nat

/-- first node from here on that has level `i` -/
def nxt (i : Nat) : List Node → Nat
  | [] => 0
  | n :: ns => if i ≤ n.lev then n.id else nxt i ns

/-- last node that has level `i`, or `p` -/
def pred (i : Nat) (p : Nat) : List Node → Nat
  | [] => p
  | n :: ns => pred i (if i ≤ n.lev then n.id else p) ns

def NodeOk (h : Heap) (n : Node) (rest : List Node) : Prop :=
  ∃ e, h.mem n.id = some e ∧ e.datum = n.datum ∧ e.forward.length = n.lev + 2 ∧
    ∀ i, i ≤ n.lev → e.forward[i]? = some (some (nxt i rest))

def Linked (h : Heap) (xs : List Node) : Prop := ∀ a n b, xs = a ++ n :: b → NodeOk h n b

def ids (xs : List Node) : List Nat := xs.map Node.id

/-! ## lists -/

theorem nxt_append (i : Nat) (c d : List Node) : (∃ m ∈ c, i ≤ m.lev) ∧ nxt i (c ++ d) = nxt i c ∧ nxt i c ∈ ids c ∨
    (∀ m ∈ c, ¬ i ≤ m.lev) ∧ nxt i (c ++ d) = nxt i d := by
  induction c with
  | nil => right; simp
  | cons n c ih =>
    by_cases h : i ≤ n.lev
    · left
      exact ⟨⟨n, by simp, h⟩, by simp [nxt, h], by simp [nxt, h, ids]⟩
    · rcases ih with ⟨⟨m, hm, h1⟩, h2, h3⟩ | ⟨h1, h2⟩
      · left
        refine ⟨⟨m, by simp [hm], h1⟩, by simp [nxt, h, h2], ?_⟩
        simp only [nxt, h, if_false]
        unfold ids at h3 ⊢
        rw [List.map_cons]
        exact List.mem_cons_of_mem _ h3
      · right
        refine ⟨?_, by simp [nxt, h, h2]⟩
        intro m hm
        rcases List.mem_cons.1 hm with rfl | hm
        · exact h
        · exact h1 m hm

theorem nxt_mem (i : Nat) (xs : List Node) : nxt i xs = 0 ∧ (∀ m ∈ xs, ¬ i ≤ m.lev) ∨ ∃ m ∈ xs, i ≤ m.lev ∧ nxt i xs = m.id := by
  induction xs with
  | nil => left; simp [nxt]
  | cons n c ih =>
    by_cases h : i ≤ n.lev
    · right; exact ⟨n, by simp, h, by simp [nxt, h]⟩
    · rcases ih with ⟨h1, h2⟩ | ⟨m, hm, h1, h2⟩
      · left
        refine ⟨by simp [nxt, h, h1], ?_⟩
        intro m hm
        rcases List.mem_cons.1 hm with rfl | hm
        · exact h
        · exact h2 m hm
      · right; exact ⟨m, by simp [hm], h1, by simp [nxt, h, h2]⟩

theorem pred_append (i p : Nat) (a b : List Node) : pred i p (a ++ b) = pred i (pred i p a) b := by
  induction a generalizing p with
  | nil => rfl
  | cons n a ih => simp only [List.cons_append, pred]; exact ih _

theorem pred_none (i p : Nat) (c : List Node) (h : ∀ m ∈ c, ¬ i ≤ m.lev) : pred i p c = p := by
  induction c generalizing p with
  | nil => rfl
  | cons n c ih =>
    simp only [pred]
    rw [if_neg (h n (by simp))]
    exact ih p fun m hm => h m (by simp [hm])

theorem pred_mem (i p : Nat) (c : List Node) (h : ∃ m ∈ c, i ≤ m.lev) : pred i p c ∈ ids c := by
  induction c generalizing p with
  | nil => simp at h
  | cons n c ih =>
    simp only [pred]
    by_cases hc : ∃ m ∈ c, i ≤ m.lev
    · have := ih (if i ≤ n.lev then n.id else p) hc
      unfold ids at this ⊢
      rw [List.map_cons]
      exact List.mem_cons_of_mem _ this
    · push Not at hc
      obtain ⟨m, hm, h⟩ := h
      have : m = n := by
        rcases List.mem_cons.1 hm with rfl | hm
        · rfl
        · have := hc m hm; omega
      subst this
      rw [if_pos h, pred_none _ _ _ (fun m hm => by have := hc m hm; omega)]
      simp [ids]

theorem pred_split (i : Nat) (n0 : Node) (lt : List Node) : ∃ a n c, n0 :: lt = a ++ n :: c ∧ pred i n0.id lt = n.id ∧
    (a = [] ∨ i ≤ n.lev) ∧ ∀ m ∈ c, ¬ i ≤ m.lev := by
  induction lt generalizing n0 with
  | nil => exact ⟨[], n0, [], rfl, rfl, Or.inl rfl, by simp⟩
  | cons m lt ih =>
    by_cases h : i ≤ m.lev
    · obtain ⟨a, n, c, h1, h2, h3, h4⟩ := ih m
      refine ⟨n0 :: a, n, c, by rw [h1]; rfl, by simp only [pred, h, if_true]; exact h2, Or.inr ?_, h4⟩
      rcases h3 with rfl | h3
      · simp only [List.nil_append, List.cons.injEq] at h1
        rw [← h1.1]; exact h
      · exact h3
    · obtain ⟨a, n, c, h1, h2, h3, h4⟩ := ih n0
      cases a with
      | nil =>
        simp only [List.nil_append, List.cons.injEq] at h1
        refine ⟨[], n, m :: c, by rw [h1.1, h1.2]; rfl, by simp only [pred, h, if_false]; exact h2, Or.inl rfl, ?_⟩
        intro x hx
        rcases List.mem_cons.1 hx with rfl | hx
        · exact h
        · exact h4 x hx
      | cons x a =>
        simp only [List.cons_append, List.cons.injEq] at h1
        refine ⟨n0 :: m :: a, n, c, by rw [h1.2]; rfl, by simp only [pred, h, if_false]; exact h2, Or.inr ?_, h4⟩
        rcases h3 with h3 | h3
        · simp at h3
        · exact h3

/-- `pred` seen from any node of the list -/
theorem pred_from {i : Nat} {n0 n : Node} {lt a c : List Node} (h : n0 :: lt = a ++ n :: c) (hi : a = [] ∨ i ≤ n.lev) :
    pred i n0.id lt = pred i n.id c := by
  cases a with
  | nil => simp only [List.nil_append, List.cons.injEq] at h; rw [h.1, h.2]
  | cons x a =>
    simp only [List.cons_append, List.cons.injEq] at h
    rw [h.2, pred_append, pred]
    rcases hi with hi | hi
    · simp at hi
    · rw [if_pos hi]

theorem split_append {α : Type} {a b x y : List α} {n : α} (h : x ++ y = a ++ n :: b) :
    (∃ c, x = a ++ n :: c ∧ b = c ++ y) ∨ ∃ a', a = x ++ a' ∧ y = a' ++ n :: b := by
  rcases List.append_eq_append_iff.1 h with ⟨a', h1, h2⟩ | ⟨c', h1, h2⟩
  · exact Or.inr ⟨a', h1, h2⟩
  · cases c' with
    | nil => right; exact ⟨[], by simpa using h1.symm, by simpa using h2.symm⟩
    | cons z c' =>
      simp only [List.cons_append, List.cons.injEq] at h2
      left
      exact ⟨c', by rw [h1, h2.1], h2.2⟩

/-! ## memory -/

theorem Linked.suffix {h : Heap} {a b : List Node} (l : Linked h (a ++ b)) : Linked h b := by
  intro x n y e
  exact l (a ++ x) n y (by rw [e, List.append_assoc])

theorem Linked.node {h : Heap} {a b : List Node} {n : Node} (l : Linked h (a ++ n :: b)) : NodeOk h n b := l a n b rfl

theorem NodeOk.fwd {h : Heap} {n : Node} {b : List Node} (k : NodeOk h n b) {i : Nat} (hi : i ≤ n.lev) : h.fwd n.id i = .ok (nxt i b) := by
  obtain ⟨e, h1, h2, h3, h4⟩ := k
  unfold Heap.fwd
  rw [h1]
  simp only
  rw [h4 i hi]

theorem NodeOk.datum {h : Heap} {n : Node} {b : List Node} (k : NodeOk h n b) : h.datum n.id = .ok n.datum := by
  obtain ⟨e, h1, h2, h3, h4⟩ := k
  unfold Heap.datum
  rw [h1]
  simp [h2]

theorem Linked.datum {h : Heap} {xs : List Node} (l : Linked h xs) {n : Node} (hn : n ∈ xs) : h.datum n.id = .ok n.datum := by
  obtain ⟨a, b, rfl⟩ := List.append_of_mem hn
  exact l.node.datum

theorem Linked.live {h : Heap} {xs : List Node} (l : Linked h xs) {n : Node} (hn : n ∈ xs) : ∃ e, h.mem n.id = some e := by
  obtain ⟨a, b, rfl⟩ := List.append_of_mem hn
  obtain ⟨e, he, _⟩ := l.node
  exact ⟨e, he⟩

theorem NodeOk.congr {h h' : Heap} {n : Node} {b : List Node} (k : NodeOk h n b) (e : h'.mem n.id = h.mem n.id) : NodeOk h' n b := by
  unfold NodeOk at *
  rw [e]; exact k

theorem Linked.congr {h h' : Heap} {xs : List Node} (l : Linked h xs) (e : ∀ n ∈ xs, h'.mem n.id = h.mem n.id) : Linked h' xs := by
  intro a n b hx
  exact (l a n b hx).congr (e n (by rw [hx]; simp))

/-! ## memory -/

theorem Heap.Ok.addr {h : Heap} (ok : h.Ok) : h.mem h.addr = none ∧ h.addr ≠ 0 := by
  obtain ⟨l, h1, h2⟩ := ok.fin
  obtain ⟨h3, h4⟩ := ok.policy h.clock (fun a => (h.mem a).isSome) l h1 h2
  exact ⟨by simpa [Heap.addr] using h3, h4⟩

theorem Heap.Ok.of {h h' : Heap} (ok : h.Ok) (hp : h'.place = h.place) (hc : h.clock ≤ h'.clock)
    (hm : ∀ a, h.mem a = none → h'.mem a = none) : h'.Ok := by
  obtain ⟨l, h1, h2⟩ := ok.fin
  refine ⟨hp ▸ ok.policy, ⟨l, fun a ha => h1 a ?_, by omega⟩, hm 0 ok.null⟩
  rw [Option.isSome_iff_ne_none] at ha ⊢
  exact fun hn => ha (hm a hn)

theorem Heap.Ok.alloc {h : Heap} (ok : h.Ok) (e : Entry) :
    Heap.Ok { mem := fun a => if a = h.addr then some e else h.mem a, clock := h.clock + 1, place := h.place } := by
  obtain ⟨l, h1, h2⟩ := ok.fin
  refine ⟨ok.policy, ⟨h.addr :: l, fun a ha => ?_, by simp; omega⟩, ?_⟩
  · simp only at ha
    by_cases hc : a = h.addr
    · simp [hc]
    · rw [if_neg hc] at ha
      exact List.mem_cons_of_mem _ (h1 a ha)
  · simp only
    rw [if_neg (Ne.symm ok.addr.2)]
    exact ok.null

theorem Heap.Ok.length_lt {h : Heap} (ok : h.Ok) {l : List Nat} (hn : l.Nodup) (hl : ∀ a ∈ l, h.mem a ≠ none) : l.length < h.clock := by
  obtain ⟨m, h1, h2⟩ := ok.fin
  have := (List.subperm_of_subset hn (fun a ha => h1 a (Option.isSome_iff_ne_none.2 (hl a ha)))).length_le
  omega

/-- The head of a list as a node. -/
def hd (s : SList) : Node := { id := s.head, datum := 0, lev := 16 }

/-- The list structure `s` and memory represent these nodes. -/
structure Rep (h : Heap) (s : SList) (ns : List Node) : Prop where
  linked : Linked h (hd s :: ns)
  nodup : (ids (hd s :: ns)).Nodup
  ok : h.Ok
  levs : ∀ n ∈ ns, n.lev ≤ s.level
  top : s.level ≤ 16
  size : s.count = ns.length

theorem Rep.frame {h h' : Heap} {s : SList} {ns : List Node} (r : Rep h s ns) (e : ∀ n ∈ hd s :: ns, h'.mem n.id = h.mem n.id)
    (hok : h'.Ok) : Rep h' s ns :=
  ⟨r.linked.congr e, r.nodup, hok, r.levs, r.top, r.size⟩

theorem Rep.live {h : Heap} {s : SList} {ns : List Node} (r : Rep h s ns) {n : Node} (hn : n ∈ hd s :: ns) : h.mem n.id ≠ none := by
  obtain ⟨e, he⟩ := r.linked.live hn
  rw [he]; simp

theorem Rep.pos {h : Heap} {s : SList} {ns : List Node} (r : Rep h s ns) : ∀ n ∈ hd s :: ns, 0 < n.id := by
  intro n hn
  rcases Nat.eq_zero_or_pos n.id with h0 | h0
  · exact absurd r.ok.null (h0 ▸ r.live hn)
  · exact h0

theorem Rep.ids_live {h : Heap} {s : SList} {ns : List Node} (r : Rep h s ns) {p : Nat} (hp : p ∈ ids (hd s :: ns)) : h.mem p ≠ none := by
  unfold ids at hp
  rw [List.mem_map] at hp
  obtain ⟨n, hn, rfl⟩ := hp
  exact r.live hn

/-- fewer nodes than addresses -/
theorem Rep.few {h : Heap} {s : SList} {ns : List Node} (r : Rep h s ns) : ns.length + 1 < h.clock := by
  have := r.ok.length_lt r.nodup fun a ha => r.ids_live ha
  simpa [ids] using this

theorem Rep.fwd_pred {h : Heap} {s : SList} {lt ge : List Node} (r : Rep h s (lt ++ ge)) {i : Nat} (hi : i ≤ 16) :
    h.fwd (pred i s.head lt) i = .ok (nxt i ge) := by
  obtain ⟨a, n, c, h1, h2, h3, h4⟩ := pred_split i (hd s) lt
  have h5 : hd s :: (lt ++ ge) = a ++ n :: (c ++ ge) := by
    rw [← List.cons_append, h1]; simp
  have h6 : h.fwd n.id i = .ok (nxt i (c ++ ge)) := by
    refine NodeOk.fwd (r.linked _ _ _ h5) ?_
    rcases h3 with rfl | h3
    · simp only [List.nil_append, List.cons.injEq] at h1
      rw [← h1.1]; exact hi
    · exact h3
  have e : s.head = (hd s).id := rfl
  rw [e, h2, h6]
  rcases nxt_append i c ge with ⟨⟨m, hm, h7⟩, _⟩ | ⟨_, h7⟩
  · exact absurd h7 (h4 m hm)
  · rw [h7]

/-! ## `_sl_locate` -/

theorem advance_ok {s : SList} {h : Heap} {key i : Nat} (ge : List Node) (hge : ∀ n ∈ ge, ¬ s.compare (s.key n.datum) key < 0) :
    ∀ (c : List Node) (fuel p : Nat), c.length < fuel → Linked h (c ++ ge) → (∀ n ∈ c ++ ge, n.id ≠ 0) →
    (∀ n ∈ c, s.compare (s.key n.datum) key < 0) → h.fwd p i = .ok (nxt i (c ++ ge)) →
    advance s h key i fuel p = .ok (pred i p c) := by
  intro c
  induction c with
  | nil =>
    intro fuel p hf hl h0 hc hp
    cases fuel with
    | zero => simp at hf
    | succ fuel =>
      simp only [advance, hp, Res.bind, List.nil_append, pred]
      rcases nxt_mem i ge with ⟨e, _⟩ | ⟨m, hm, h1, h2⟩
      · rw [if_pos e]
      · rw [h2, if_neg (h0 m (by simpa using hm)), hl.datum (by simpa using hm)]
        simp only
        rw [if_neg (hge m hm)]
  | cons m c ih =>
    intro fuel p hf hl h0 hc hp
    by_cases hm : i ≤ m.lev
    · cases fuel with
      | zero => simp at hf
      | succ fuel =>
        have e : nxt i (m :: c ++ ge) = m.id := by simp [nxt, hm]
        simp only [advance, hp, Res.bind, e, pred, hm, if_true]
        rw [if_neg (h0 m (by simp)), hl.datum (by simp)]
        simp only
        rw [if_pos (hc m (by simp))]
        refine ih fuel m.id (by simpa using hf) ?_ (fun n hn => h0 n (by simp at hn ⊢; tauto)) (fun n hn => hc n (by simp [hn])) ?_
        · exact Linked.suffix (a := [m]) hl
        · exact NodeOk.fwd (Linked.node (a := []) hl) hm
    · have e : nxt i (m :: c ++ ge) = nxt i (c ++ ge) := by simp [nxt, hm]
      rw [e] at hp
      simp only [pred, hm, if_false]
      exact ih fuel p (by simp at hf; omega) (Linked.suffix (a := [m]) hl) (fun n hn => h0 n (by simp at hn ⊢; tauto))
        (fun n hn => hc n (by simp [hn])) hp

theorem locateLoop_ok {h : Heap} {s : SList} {key : Nat} {lt ge : List Node} (r : Rep h s (lt ++ ge))
    (hlt : ∀ n ∈ lt, s.compare (s.key n.datum) key < 0) (hge : ∀ n ∈ ge, ¬ s.compare (s.key n.datum) key < 0) :
    ∀ (k p : Nat) (u : List (Option Nat)), k ≤ 17 → p = pred k s.head lt → u.length = 17 →
    ∃ u', locateLoop s h key k p u = .ok (pred 0 s.head lt, u') ∧ u'.length = 17 ∧
      (∀ j, j < k → u'[j]? = some (some (pred j s.head lt))) ∧ ∀ j, k ≤ j → u'[j]? = u[j]? := by
  intro k
  induction k with
  | zero => intro p u _ hp hu; exact ⟨u, by rw [hp]; rfl, hu, by simp, fun _ _ => rfl⟩
  | succ i ih =>
    intro p u hk hp hu
    obtain ⟨a, n, c, h1, h2, h3, h4⟩ := pred_split (i + 1) (hd s) lt
    have e : s.head = (hd s).id := rfl
    have h5 : hd s :: (lt ++ ge) = a ++ n :: (c ++ ge) := by
      rw [← List.cons_append, h1]; simp
    have hi : i ≤ n.lev := by
      rcases h3 with rfl | h3
      · simp only [List.nil_append, List.cons.injEq] at h1
        rw [← h1.1]; simp [hd]; omega
      · omega
    have hadv : advance s h key i h.clock p = .ok (pred i s.head lt) := by
      rw [hp, e, h2, pred_from (i := i) h1 (Or.inr hi)]
      have hl : lt.length < h.clock := by have := r.few; simp at this; omega
      have hcl : c.length ≤ lt.length := by
        have := congrArg List.length h1
        simp at this; omega
      have hsub : ∀ x ∈ c ++ ge, x ∈ hd s :: (lt ++ ge) := by
        intro x hx; rw [h5]; simp at hx ⊢; tauto
      refine advance_ok ge hge c _ _ (by omega) ?_ (fun x hx => Nat.ne_of_gt (r.pos x (hsub x hx))) ?_ ?_
      · have := r.linked
        rw [h5] at this
        exact Linked.suffix (a := a ++ [n]) (by simpa using this)
      · intro x hx
        have hx' : x ∈ hd s :: lt := by rw [h1]; simp [hx]
        rcases List.mem_cons.1 hx' with hx'' | hx''
        · exfalso
          have hnd := r.nodup
          rw [h5] at hnd
          cases a with
          | nil =>
            simp only [List.nil_append, List.cons.injEq] at h1
            rw [← h1.1] at hnd
            simp only [ids, List.nil_append, List.map_cons, List.nodup_cons] at hnd
            exact hnd.1 (List.mem_map.2 ⟨x, by simp [hx], by rw [hx'']⟩)
          | cons y a =>
            simp only [List.cons_append, List.cons.injEq] at h1
            rw [← h1.1] at hnd
            simp only [ids, List.cons_append, List.map_cons, List.nodup_cons] at hnd
            exact hnd.1 (List.mem_map.2 ⟨x, by simp [hx], by rw [hx'']⟩)
        · exact hlt x hx''
      · exact NodeOk.fwd (r.linked _ _ _ h5) hi
    simp only [locateLoop, hadv, Res.bind, setUpdate]
    rw [if_pos (by omega)]
    simp only
    obtain ⟨u', g1, g2, g3, g4⟩ := ih (pred i s.head lt) (u.set i (some (pred i s.head lt))) (by omega) rfl (by simpa using hu)
    refine ⟨u', g1, g2, ?_, ?_⟩
    · intro j hj
      rcases Nat.lt_or_ge j i with h | h
      · exact g3 j h
      · have : j = i := by omega
        subst this
        rw [g4 j (Nat.le_refl _)]
        rw [List.getElem?_set_self (by omega)]
    · intro j hj
      rw [g4 j (by omega), List.getElem?_set_ne (by omega)]

theorem locate_ok {h : Heap} {s : SList} {key : Nat} {lt ge : List Node} (r : Rep h s (lt ++ ge))
    (hlt : ∀ n ∈ lt, s.compare (s.key n.datum) key < 0) (hge : ∀ n ∈ ge, ¬ s.compare (s.key n.datum) key < 0) :
    ∃ u, locate s h key = .ok (nxt 0 ge, u) ∧ u.length = 17 ∧ ∀ j, j ≤ s.level → u[j]? = some (some (pred j s.head lt)) := by
  have hp : s.head = pred (s.level + 1) s.head lt := by
    rw [pred_none]
    intro m hm
    have := r.levs m (by simp [hm])
    omega
  obtain ⟨u, g1, g2, g3, _⟩ := locateLoop_ok r hlt hge (s.level + 1) s.head noUpdate (by have := r.top; omega) hp rfl
  refine ⟨u, ?_, g2, fun j hj => g3 j (by omega)⟩
  unfold locate
  rw [g1]
  simp only [Res.bind]
  rw [r.fwd_pred (by decide)]

/-! ## order -/

theorem split_key {cmp : Nat → Nat → Int} {keyf : Nat → Nat} (t : TotalOrder cmp) (key : Nat) (ns : List Node)
    (h : ns.Pairwise fun a b => cmp (keyf a.datum) (keyf b.datum) < 0) :
    ∃ lt ge, ns = lt ++ ge ∧ (∀ n ∈ lt, cmp (keyf n.datum) key < 0) ∧ (∀ n ∈ ge, ¬ cmp (keyf n.datum) key < 0) ∧
      ∀ n ∈ ge.tail, 0 < cmp (keyf n.datum) key := by
  induction ns with
  | nil => exact ⟨[], [], rfl, by simp, by simp, by simp⟩
  | cons n ns ih =>
    rw [List.pairwise_cons] at h
    by_cases hn : cmp (keyf n.datum) key < 0
    · obtain ⟨lt, ge, h1, h2, h3, h4⟩ := ih h.2
      refine ⟨n :: lt, ge, by rw [h1]; rfl, ?_, h3, h4⟩
      intro m hm
      rcases List.mem_cons.1 hm with rfl | hm
      · exact hn
      · exact h2 m hm
    · have key' : ∀ m ∈ ns, 0 < cmp (keyf m.datum) key := by
        intro m hm
        by_contra hc
        have h1 := h.1 m hm
        have h2 : cmp key (keyf n.datum) ≤ 0 := by
          by_contra hk
          exact hn ((t.antisymm _ _).2 (by omega))
        have h3 := t.trans _ _ _ (by omega : cmp (keyf m.datum) key ≤ 0) h2
        have h4 := (t.antisymm _ _).1 h1
        omega
      refine ⟨[], n :: ns, rfl, by simp, ?_, by simpa using key'⟩
      intro m hm
      rcases List.mem_cons.1 hm with rfl | hm
      · exact hn
      · have := key' m hm; omega

/-- lookup in any arrangement of the data -/
theorem lookup_of {c : Coll} {ns : List Node} {key : Nat} (hp : c.data.Perm (ns.map Node.datum)) {lt ge : List Node} (hs : ns = lt ++ ge)
    (hlt : ∀ n ∈ lt, c.cmp (c.key n.datum) key < 0) (hge : ∀ n ∈ ge, ¬ c.cmp (c.key n.datum) key < 0)
    (htl : ∀ n ∈ ge.tail, 0 < c.cmp (c.key n.datum) key) :
    (∃ g ge', ge = g :: ge' ∧ c.cmp (c.key g.datum) key = 0 ∧ c.lookup key = some g.datum) ∨
    (c.lookup key = none ∧ ∀ n ∈ ge, 0 < c.cmp (c.key n.datum) key) := by
  have hmem : ∀ d, d ∈ c.data ↔ ∃ n ∈ ns, n.datum = d := by
    intro d; rw [hp.mem_iff, List.mem_map]
  by_cases hg : ∃ g ge', ge = g :: ge' ∧ c.cmp (c.key g.datum) key = 0
  · obtain ⟨g, ge', rfl, h0⟩ := hg
    left
    refine ⟨g, ge', rfl, h0, ?_⟩
    unfold Coll.lookup
    cases hf : c.data.find? (fun d => decide (c.cmp (c.key d) key = 0)) with
    | none =>
      rw [List.find?_eq_none] at hf
      have := hf g.datum ((hmem _).2 ⟨g, by simp [hs], rfl⟩)
      simp [h0] at this
    | some d =>
      have h1 := List.find?_some hf
      have h2 := List.mem_of_find?_eq_some hf
      simp only [decide_eq_true_eq] at h1
      obtain ⟨n, hn, rfl⟩ := (hmem d).1 h2
      rw [hs] at hn
      rcases List.mem_append.1 hn with hn | hn
      · have := hlt n hn; omega
      · rcases List.mem_cons.1 hn with rfl | hn
        · rfl
        · have := htl n (by simpa using hn); omega
  · right
    have hpos : ∀ n ∈ ge, 0 < c.cmp (c.key n.datum) key := by
      intro n hn
      cases ge with
      | nil => simp at hn
      | cons g ge' =>
        rcases List.mem_cons.1 hn with rfl | hn
        · have h1 := hge n (by simp)
          have h2 : c.cmp (c.key n.datum) key ≠ 0 := fun e => hg ⟨n, ge', rfl, e⟩
          omega
        · exact htl n (by simpa using hn)
    refine ⟨?_, hpos⟩
    unfold Coll.lookup
    rw [List.find?_eq_none]
    intro d hd
    simp only [decide_eq_true_eq]
    obtain ⟨n, hn, rfl⟩ := (hmem d).1 hd
    rw [hs] at hn
    rcases List.mem_append.1 hn with hn | hn
    · have := hlt n hn; omega
    · have := hpos n hn; omega

/-! ## changes of forward pointers -/

/-- `h'` is `h` with forward pointers changed according to `G`. -/
def Same (h h' : Heap) (G : Nat → Nat → Option (Option Nat) → Option (Option Nat)) : Prop :=
  (h'.clock = h.clock ∧ h'.place = h.place) ∧ (∀ p, h.mem p = none → h'.mem p = none) ∧
  ∀ p e, h.mem p = some e → ∃ e', h'.mem p = some e' ∧ e'.datum = e.datum ∧ e'.forward.length = e.forward.length ∧
    ∀ i, e'.forward[i]? = G p i (e.forward[i]?)

theorem Same.refl (h : Heap) : Same h h fun _ _ x => x := ⟨⟨rfl, rfl⟩, fun _ h => h, fun _ e he => ⟨e, he, rfl, rfl, fun _ => rfl⟩⟩

theorem Same.trans {h h' h'' : Heap} {G G' : Nat → Nat → Option (Option Nat) → Option (Option Nat)} (a : Same h h' G) (b : Same h' h'' G') :
    Same h h'' fun p i x => G' p i (G p i x) := by
  refine ⟨⟨b.1.1.trans a.1.1, b.1.2.trans a.1.2⟩, fun p hp => b.2.1 p (a.2.1 p hp), ?_⟩
  intro p e he
  obtain ⟨e1, h1, h2, h3, h4⟩ := a.2.2 p e he
  obtain ⟨e2, g1, g2, g3, g4⟩ := b.2.2 p e1 h1
  exact ⟨e2, g1, g2.trans h2, g3.trans h3, fun i => by rw [g4, h4]⟩

theorem Same.weaken {h h' : Heap} {G G' : Nat → Nat → Option (Option Nat) → Option (Option Nat)} (a : Same h h' G)
    (e : ∀ p i x, G p i x = G' p i x) : Same h h' G' :=
  ⟨a.1, a.2.1, fun p x hx => by
    obtain ⟨e1, h1, h2, h3, h4⟩ := a.2.2 p x hx
    exact ⟨e1, h1, h2, h3, fun i => by rw [h4, e]⟩⟩

theorem Same.mem_eq {h h' : Heap} {G : Nat → Nat → Option (Option Nat) → Option (Option Nat)} (a : Same h h' G) {p : Nat}
    (e : ∀ i x, G p i x = x) : h'.mem p = h.mem p := by
  cases hp : h.mem p with
  | none => exact a.2.1 p hp
  | some x =>
    obtain ⟨e1, h1, h2, h3, h4⟩ := a.2.2 p x hp
    rw [h1]
    congr 1
    have : e1.forward = x.forward := List.ext_getElem? fun i => by rw [h4, e]
    cases e1; cases x
    simp_all

theorem setFwd_ok {h : Heap} {p i q : Nat} {e : Entry} (he : h.mem p = some e) (hi : i < e.forward.length) :
    ∃ h', h.setFwd p i q = .ok h' ∧ Same h h' fun a j x => if a = p ∧ j = i then some (some q) else x := by
  unfold Heap.setFwd
  rw [he]
  simp only
  rw [if_pos hi]
  refine ⟨_, rfl, ⟨rfl, rfl⟩, ?_, ?_⟩
  · intro a ha
    simp only
    rw [if_neg]
    · exact ha
    · rintro rfl; rw [he] at ha; simp at ha
  · intro a x hx
    by_cases h1 : a = p
    · subst h1
      rw [he, Option.some.injEq] at hx
      subst hx
      refine ⟨{ e with forward := e.forward.set i (some q) }, by simp, rfl, by simp, ?_⟩
      intro j
      by_cases hj : j = i
      · subst hj
        simp only [and_self, if_true]
        rw [List.getElem?_set_self hi]
      · simp only [hj, and_false, if_false]
        rw [List.getElem?_set_ne (by omega)]
    · refine ⟨x, by simp [h1, hx], rfl, rfl, ?_⟩
      intro j
      simp [h1]

theorem Same.node {h h' : Heap} {G : Nat → Nat → Option (Option Nat) → Option (Option Nat)} (s : Same h h' G) {n : Node} {b b' : List Node}
    (k : NodeOk h n b) (e : ∀ i, i ≤ n.lev → G n.id i (some (some (nxt i b))) = some (some (nxt i b'))) : NodeOk h' n b' := by
  obtain ⟨x, h1, h2, h3, h4⟩ := k
  obtain ⟨e1, g1, g2, g3, g4⟩ := s.2.2 _ _ h1
  exact ⟨e1, g1, g2.trans h2, g3.trans h3, fun i hi => by rw [g4, h4 i hi, e i hi]⟩

theorem Same.fwd {h h' : Heap} {G : Nat → Nat → Option (Option Nat) → Option (Option Nat)} (s : Same h h' G) {p i q : Nat}
    (k : h.fwd p i = .ok q) (e : ∀ x, G p i x = x) : h'.fwd p i = .ok q := by
  unfold Heap.fwd at k ⊢
  cases hp : h.mem p with
  | none => rw [hp] at k; simp at k
  | some x =>
    rw [hp] at k
    obtain ⟨e1, g1, g2, g3, g4⟩ := s.2.2 _ _ hp
    rw [g1]
    simp only at k ⊢
    rw [g4, e]
    exact k

theorem fwd_live {h : Heap} {p i q : Nat} (k : h.fwd p i = .ok q) : ∃ e, h.mem p = some e ∧ i < e.forward.length := by
  unfold Heap.fwd at k
  cases hp : h.mem p with
  | none => rw [hp] at k; simp at k
  | some x =>
    rw [hp] at k
    simp only at k
    refine ⟨x, rfl, ?_⟩
    by_contra hc
    rw [List.getElem?_eq_none (by omega)] at k
    simp at k

theorem linkLoop_append (u : List (Option Nat)) (e : Nat) (a b : List Nat) (h : Heap) :
    linkLoop u e (a ++ b) h = (linkLoop u e a h).bind fun h => linkLoop u e b h := by
  induction a generalizing h with
  | nil => rfl
  | cons i a ih =>
    simp only [List.cons_append, linkLoop]
    cases getUpdate u i <;> simp only [Res.bind]
    rename_i p
    cases h.fwd p i <;> simp only
    rename_i q
    cases h.setFwd e i q <;> simp only
    rename_i h1
    cases h1.setFwd p i e <;> simp only
    rename_i h2
    exact ih h2

theorem linkLoop_ok {h : Heap} {u : List (Option Nat)} {entry : Nat} {U q : Nat → Nat} {en : Entry} (hen : h.mem entry = some en) (k : Nat)
    (hlen : k ≤ en.forward.length) (hu : ∀ i, i < k → u[i]? = some (some (U i))) (hne : ∀ i, i < k → U i ≠ entry)
    (hq : ∀ i, i < k → h.fwd (U i) i = .ok (q i)) :
    ∃ h', linkLoop u entry (List.range k) h = .ok h' ∧ Same h h' fun p i x =>
      if p = entry then if i < k then some (some (q i)) else x
      else if i < k ∧ U i = p then some (some entry) else x := by
  induction k with
  | zero => exact ⟨h, rfl, (Same.refl h).weaken (by intro p i x; simp)⟩
  | succ k ih =>
    obtain ⟨h1, e1, s1⟩ := ih (by omega) (fun i hi => hu i (by omega)) (fun i hi => hne i (by omega)) (fun i hi => hq i (by omega))
    rw [List.range_succ, linkLoop_append, e1]
    simp only [Res.bind, linkLoop]
    have hg : getUpdate u k = .ok (U k) := by unfold getUpdate; rw [hu k (by omega)]
    rw [hg]
    simp only
    have hf : h1.fwd (U k) k = .ok (q k) := s1.fwd (hq k (by omega)) (by intro x; simp [hne k (by omega)])
    rw [hf]
    simp only
    obtain ⟨en1, g1, g2, g3, g4⟩ := s1.2.2 _ _ hen
    obtain ⟨h2, e2, s2⟩ := setFwd_ok (q := q k) g1 (i := k) (by omega)
    rw [e2]
    simp only
    obtain ⟨eu, gu, gl⟩ := fwd_live hf
    obtain ⟨eu2, gu1, gu2, gu3, _⟩ := s2.2.2 _ _ gu
    obtain ⟨h3, e3, s3⟩ := setFwd_ok (q := entry) gu1 (i := k) (by omega)
    rw [e3]
    refine ⟨h3, rfl, ((s1.trans s2).trans s3).weaken ?_⟩
    intro p i x
    have hne' := hne k (by omega)
    by_cases hp : p = entry
    · subst hp
      by_cases hi : i = k
      · subst hi; simp [Ne.symm hne']
      · have : (i < k + 1) = (i < k) := by simp; omega
        simp [hi, this]
    · by_cases hi : i = k
      · subst hi
        by_cases hpk : p = U i
        · subst hpk; simp [hp]
        · simp [hp, hpk, Ne.symm hpk]
      · have : (i < k + 1) = (i < k) := by simp; omega
        simp [hp, hi, this]

theorem unlinkLoop_append (u : List (Option Nat)) (e : Nat) (a b : List Nat) (h : Heap) :
    unlinkLoop u e (a ++ b) h = (unlinkLoop u e a h).bind fun h => unlinkLoop u e b h := by
  induction a generalizing h with
  | nil => rfl
  | cons i a ih =>
    simp only [List.cons_append, unlinkLoop]
    cases getUpdate u i <;> simp only [Res.bind]
    rename_i p
    cases h.fwd p i <;> simp only
    rename_i q
    split
    · cases h.fwd e i <;> simp only
      rename_i q'
      cases h.setFwd p i q' <;> simp only
      rename_i h1
      exact ih h1
    · exact ih h

/-- `C i`: the entry to be removed has level `i` -/
theorem unlinkLoop_ok {h : Heap} {u : List (Option Nat)} {pt : Nat} {U q q' : Nat → Nat} (k : Nat)
    (hu : ∀ i, i < k → u[i]? = some (some (U i))) (hne : ∀ i, i < k → U i ≠ pt)
    (hq : ∀ i, i < k → h.fwd (U i) i = .ok (q i)) (hq' : ∀ i, i < k → q i = pt → h.fwd pt i = .ok (q' i)) :
    ∃ h', unlinkLoop u pt (List.range k) h = .ok h' ∧ Same h h' fun p i x =>
      if i < k ∧ U i = p ∧ q i = pt then some (some (q' i)) else x := by
  induction k with
  | zero => exact ⟨h, rfl, (Same.refl h).weaken (by intro p i x; simp)⟩
  | succ k ih =>
    obtain ⟨h1, e1, s1⟩ := ih (fun i hi => hu i (by omega)) (fun i hi => hne i (by omega)) (fun i hi => hq i (by omega))
      (fun i hi => hq' i (by omega))
    rw [List.range_succ, unlinkLoop_append, e1]
    simp only [Res.bind, unlinkLoop]
    have hg : getUpdate u k = .ok (U k) := by unfold getUpdate; rw [hu k (by omega)]
    rw [hg]
    simp only
    have hf : h1.fwd (U k) k = .ok (q k) := s1.fwd (hq k (by omega)) (by intro x; simp)
    rw [hf]
    simp only
    by_cases hqk : q k = pt
    · rw [if_pos hqk]
      have hf' : h1.fwd pt k = .ok (q' k) := s1.fwd (hq' k (by omega) hqk) (by intro x; simp)
      rw [hf']
      simp only
      obtain ⟨eu, gu, gl⟩ := fwd_live hf
      obtain ⟨h3, e3, s3⟩ := setFwd_ok (q := q' k) gu gl
      rw [e3]
      refine ⟨h3, rfl, (s1.trans s3).weaken ?_⟩
      intro p i x
      by_cases hi : i = k
      · subst hi
        by_cases hpk : p = U i
        · subst hpk; simp [hqk]
        · simp [hpk, Ne.symm hpk]
      · have : (i < k + 1) = (i < k) := by simp; omega
        simp [hi, this]
    · rw [if_neg hqk]
      refine ⟨h1, rfl, s1.weaken ?_⟩
      intro p i x
      by_cases hi : i = k
      · subst hi; simp [hqk]
      · have : (i < k + 1) = (i < k) := by simp; omega
        simp [this]

/-! ## insertion, deletion, destruction in one list -/

theorem randomLoop_range (rnd : Nat → Nat) (n k level : Nat) (h1 : 1 ≤ level) (h2 : level ≤ 16) :
    1 ≤ randomLoop rnd n k level ∧ randomLoop rnd n k level ≤ 16 := by
  induction n generalizing k level with
  | zero => exact ⟨h1, h2⟩
  | succ n ih =>
    simp only [randomLoop]
    split
    · rename_i h
      exact ih _ _ (by omega) (by have := h.2; unfold maxLevel at this; omega)
    · exact ⟨h1, h2⟩

theorem randomLevel_range (rnd : Nat → Nat) : 1 ≤ randomLevel rnd ∧ randomLevel rnd ≤ 16 :=
  randomLoop_range rnd 17 0 1 (by decide) (by decide)

/-- who points to a node's level `i` -/
theorem pred_iff {i : Nat} {n0 n : Node} {lt a c : List Node} (h : n0 :: lt = a ++ n :: c) (hnd : (ids (n0 :: lt)).Nodup) (hi : i ≤ n.lev) :
    (pred i n0.id lt = n.id ∧ ∀ m ∈ c, ¬ i ≤ m.lev) ∨ (pred i n0.id lt ≠ n.id ∧ ∃ m ∈ c, i ≤ m.lev) := by
  rw [pred_from h (Or.inr hi)]
  by_cases hc : ∃ m ∈ c, i ≤ m.lev
  · right
    refine ⟨?_, hc⟩
    intro e
    have h1 := pred_mem i n.id c hc
    rw [e] at h1
    rw [h] at hnd
    unfold ids at hnd h1
    rw [List.map_append, List.map_cons] at hnd
    have := (List.nodup_append.1 hnd).2.1
    rw [List.nodup_cons] at this
    exact this.1 h1
  · left
    push Not at hc
    exact ⟨pred_none _ _ _ fun m hm => by have := hc m hm; omega, fun m hm => by have := hc m hm; omega⟩

theorem pred_id {i : Nat} {n0 : Node} {lt : List Node} : pred i n0.id lt ∈ ids (n0 :: lt) := by
  obtain ⟨a, n, c, h1, h2, _, _⟩ := pred_split i n0 lt
  rw [h2, h1]
  simp [ids]

theorem insert_rep {h : Heap} {s : SList} {lt ge : List Node} (r : Rep h s (lt ++ ge)) {u : List (Option Nat)} {L d lv : Nat} (hL : L ≤ 16)
    (hlv : lv ≤ 16) (hsl : s.level ≤ lv) (hLl : L ≤ lv) (hu : ∀ j, j ≤ L → u[j]? = some (some (pred j s.head lt))) :
    ∃ h1 h2, createEntry h L d = .ok (h1, h.addr) ∧ linkLoop u h.addr (List.range (L + 1)) h1 = .ok h2 ∧
      Rep h2 { s with level := lv, count := s.count + 1 } (lt ++ { id := h.addr, datum := d, lev := L } :: ge) ∧
      h2.Ok ∧ (∀ p, p ≠ h.addr → p ∉ ids (hd s :: (lt ++ ge)) → h2.mem p = h.mem p) := by
  have hfr : ∀ n ∈ hd s :: (lt ++ ge), n.id ≠ h.addr := fun n hn e => r.live hn (e ▸ r.ok.addr.1)
  let h1 : Heap := { mem := fun a => if a = h.addr then some { datum := d, forward := List.replicate (L + 2) none } else h.mem a, clock := h.clock + 1, place := h.place }
  have hok1 : h1.Ok := r.ok.alloc _
  have hc : createEntry h L d = .ok (h1, h.addr) := by
    unfold createEntry
    rw [if_neg (by unfold maxLevel; omega)]
  have r1 : Rep h1 s (lt ++ ge) := r.frame (fun n hn => by simp [h1, hfr n hn]) hok1
  have hUne : ∀ i, pred i s.head lt ≠ h.addr := by
    intro i e
    have hm : pred i s.head lt ∈ ids (hd s :: lt) := pred_id (n0 := hd s)
    rw [e] at hm
    unfold ids at hm
    rw [List.mem_map] at hm
    obtain ⟨n, hn, he⟩ := hm
    exact hfr n (by simp at hn ⊢; tauto) he
  obtain ⟨h2, hl, hs⟩ := linkLoop_ok (h := h1) (u := u) (entry := h.addr) (U := fun i => pred i s.head lt) (q := fun i => nxt i ge)
    (en := { datum := d, forward := List.replicate (L + 2) none }) (by simp [h1]) (L + 1) (by simp) (fun i hi => hu i (by omega))
    (fun i _ => hUne i) (fun i hi => r1.fwd_pred (by omega))
  have hok2 : h2.Ok := hok1.of hs.1.2 (Nat.le_of_eq hs.1.1.symm) hs.2.1
  refine ⟨h1, h2, hc, hl, ?_, hok2, ?_⟩
  · have hnd : (ids (hd s :: lt)).Nodup := by
      have := r.nodup
      rw [← List.cons_append] at this
      unfold ids at this ⊢
      rw [List.map_append] at this
      exact (List.nodup_append.1 this).1
    have hhead : hd { s with level := lv, count := s.count + 1 } = hd s := rfl
    refine ⟨?_, ?_, hok2, ?_, hlv, ?_⟩
    · rw [hhead, ← List.cons_append]
      intro a n b hx
      rcases split_append hx with ⟨c, e1, e2⟩ | ⟨a', e1, e2⟩
      · subst e2
        have hn : n ∈ hd s :: (lt ++ ge) := by rw [← List.cons_append, e1]; simp
        have hk : NodeOk h1 n (c ++ ge) := r1.linked a n (c ++ ge) (by rw [← List.cons_append, e1]; simp)
        refine hs.node hk ?_
        intro i hi
        simp only [hfr n hn, if_false]
        rcases pred_iff e1 hnd hi with ⟨p1, p2⟩ | ⟨p1, p2⟩
        · rcases nxt_append i c ge with ⟨⟨m, hm, hm'⟩, _⟩ | ⟨_, g1⟩
          · exact absurd hm' (p2 m hm)
          rcases nxt_append i c ({ id := h.addr, datum := d, lev := L } :: ge) with ⟨⟨m, hm, hm'⟩, _⟩ | ⟨_, g2⟩
          · exact absurd hm' (p2 m hm)
          rw [g1, g2]
          have : pred i s.head lt = n.id := p1
          simp only [this, and_true, nxt]
          by_cases hiL : i ≤ L
          · rw [if_pos (by omega), if_pos hiL]
          · rw [if_neg (by omega), if_neg hiL]
        · obtain ⟨m, hm, hm'⟩ := p2
          rcases nxt_append i c ge with ⟨_, g1, _⟩ | ⟨g0, _⟩
          swap
          · exact absurd hm' (g0 m hm)
          rcases nxt_append i c ({ id := h.addr, datum := d, lev := L } :: ge) with ⟨_, g2, _⟩ | ⟨g0, _⟩
          swap
          · exact absurd hm' (g0 m hm)
          have : pred i s.head lt ≠ n.id := p1
          rw [g1, g2]
          simp [this]
      · cases a' with
        | nil =>
          simp only [List.nil_append, List.cons.injEq] at e2
          obtain ⟨e3, e4⟩ := e2
          subst e3 e4
          obtain ⟨e', g1, g2, g3, g4⟩ := hs.2.2 h.addr { datum := d, forward := List.replicate (L + 2) none } (by simp [h1])
          refine ⟨e', g1, g2, by rw [g3]; simp, ?_⟩
          intro i hi
          rw [g4]
          simp only [if_true]
          rw [if_pos (by simp at hi; omega)]
        | cons x a' =>
          simp only [List.cons_append, List.cons.injEq] at e2
          have hn : n ∈ ge := by rw [e2.2]; simp
          have hk : NodeOk h1 n b := r1.linked (hd s :: lt ++ a') n b (by rw [e2.2]; simp)
          refine hs.node hk ?_
          intro i hi
          simp only [hfr n (by simp [hn]), if_false]
          have : pred i s.head lt ≠ n.id := by
            intro e
            have hm : pred i s.head lt ∈ ids (hd s :: lt) := pred_id (n0 := hd s)
            rw [e] at hm
            have hnd' := r.nodup
            rw [← List.cons_append] at hnd'
            unfold ids at hnd' hm
            rw [List.map_append] at hnd'
            exact (List.nodup_append.1 hnd').2.2 _ hm _ (List.mem_map.2 ⟨n, hn, rfl⟩) rfl
          simp [this]
    · rw [hhead]
      have hperm : (ids (hd s :: (lt ++ { id := h.addr, datum := d, lev := L } :: ge))).Perm (h.addr :: ids (hd s :: (lt ++ ge))) := by
        unfold ids
        simp only [List.map_cons, List.map_append]
        exact ((List.perm_middle).cons _).trans (List.Perm.swap _ _ _)
      rw [hperm.nodup_iff, List.nodup_cons]
      refine ⟨?_, r.nodup⟩
      intro hm
      unfold ids at hm
      rw [List.mem_map] at hm
      obtain ⟨n, hn, he⟩ := hm
      exact hfr n hn he
    · intro n hn
      simp only [List.mem_cons, List.mem_append] at hn
      have hp := r.levs
      rcases hn with hn | rfl | hn
      · have := hp n (by simp [hn]); simp only; omega
      · exact hLl
      · have := hp n (by simp [hn]); simp only; omega
    · have := r.size
      simp only [List.length_append, List.length_cons] at this ⊢
      omega
  · intro p hp hp'
    have hne : ∀ i, pred i s.head lt ≠ p := by
      intro i e
      have hm : pred i s.head lt ∈ ids (hd s :: lt) := pred_id (n0 := hd s)
      rw [e] at hm
      apply hp'
      unfold ids at hm ⊢
      rw [← List.cons_append, List.map_append]
      exact List.mem_append_left _ hm
    rw [hs.mem_eq (p := p) (by intro i x; simp [hp, hne i])]
    simp [h1, hp]

theorem lowerLevel_ok {h : Heap} {head : Nat} {ns : List Node} (hf : ∀ i, i ≤ 16 → h.fwd head i = .ok (nxt i ns)) (hpos : ∀ n ∈ ns, n.id ≠ 0) :
    ∀ lv, lv ≤ 16 → (∀ n ∈ ns, n.lev ≤ lv) → ∃ lv', lowerLevel h head lv = .ok lv' ∧ lv' ≤ lv ∧ ∀ n ∈ ns, n.lev ≤ lv' := by
  intro lv
  induction lv with
  | zero => intro _ h; exact ⟨0, rfl, Nat.le_refl _, h⟩
  | succ n ih =>
    intro h16 hl
    simp only [lowerLevel]
    rw [hf (n + 1) h16]
    simp only [Res.bind]
    split
    · rename_i h0
      rcases nxt_mem (n + 1) ns with ⟨_, h1⟩ | ⟨m, hm, _, h2⟩
      · obtain ⟨lv', g1, g2, g3⟩ := ih (by omega) (fun m hm => by have := h1 m hm; omega)
        exact ⟨lv', g1, by omega, g3⟩
      · rw [h0] at h2
        exact absurd h2.symm (hpos m hm)
    · exact ⟨n + 1, rfl, Nat.le_refl _, hl⟩

theorem delete_rep {h : Heap} {s : SList} {lt ge : List Node} {g : Node} (r : Rep h s (lt ++ g :: ge)) {u : List (Option Nat)}
    (hu : ∀ j, j ≤ s.level → u[j]? = some (some (pred j s.head lt))) :
    ∃ h1 h2 lv, unlinkLoop u g.id (List.range (s.level + 1)) h = .ok h1 ∧ h1.free g.id = .ok h2 ∧ lowerLevel h2 s.head s.level = .ok lv ∧
      Rep h2 { s with level := lv, count := s.count - 1 } (lt ++ ge) ∧ h2.Ok ∧ h2.mem g.id = none ∧
      (∀ p, p ∉ ids (hd s :: (lt ++ g :: ge)) → h2.mem p = h.mem p) := by
  have hnd := r.nodup
  have hperm : (ids (hd s :: (lt ++ g :: ge))).Perm (g.id :: ids (hd s :: (lt ++ ge))) := by
    unfold ids
    simp only [List.map_cons, List.map_append]
    exact ((List.perm_middle).cons _).trans (List.Perm.swap _ _ _)
  have hnd2 := hnd
  rw [hperm.nodup_iff, List.nodup_cons] at hnd2
  have hg : ∀ n ∈ hd s :: (lt ++ ge), n.id ≠ g.id := fun n hn e => hnd2.1 (List.mem_map.2 ⟨n, hn, e⟩)
  have hndl : (ids (hd s :: lt)).Nodup := by
    rw [← List.cons_append] at hnd
    unfold ids at hnd ⊢
    rw [List.map_append] at hnd
    exact (List.nodup_append.1 hnd).1
  have hUin : ∀ i, pred i s.head lt ∈ ids (hd s :: lt) := fun i => pred_id (n0 := hd s)
  have hUne : ∀ i, pred i s.head lt ≠ g.id := by
    intro i e
    have hm := hUin i
    rw [e] at hm
    unfold ids at hm
    rw [List.mem_map] at hm
    obtain ⟨n, hn, he⟩ := hm
    exact hg n (by simp at hn ⊢; tauto) he
  have hgok : NodeOk h g ge := r.linked (hd s :: lt) g ge rfl
  have htop := r.top
  have hglev := r.levs g (by simp)
  have hq : ∀ i, nxt i (g :: ge) = g.id ↔ i ≤ g.lev := by
    intro i
    constructor
    · intro e
      by_contra hc
      simp only [nxt, hc, if_false] at e
      rcases nxt_mem i ge with ⟨e', _⟩ | ⟨m, hm, _, e'⟩
      · have := r.pos g (by simp); omega
      · exact hg m (by simp [hm]) (e'.symm.trans e)
    · intro hi; simp [nxt, hi]
  obtain ⟨h1, hl, hs⟩ := unlinkLoop_ok (h := h) (u := u) (pt := g.id) (U := fun i => pred i s.head lt) (q := fun i => nxt i (g :: ge))
    (q' := fun i => nxt i ge) (s.level + 1) (fun i hi => hu i (by omega)) (fun i _ => hUne i) (fun i hi => r.fwd_pred (by omega))
    (fun i hi he => hgok.fwd ((hq i).1 he))
  obtain ⟨eg, hegm⟩ := r.linked.live (n := g) (by simp)
  obtain ⟨eg', heg', _⟩ := hs.2.2 _ _ hegm
  let h2 : Heap := { h1 with mem := fun a => if a = g.id then none else h1.mem a }
  have hfree : h1.free g.id = .ok h2 := by unfold Heap.free; rw [heg']
  have hlink : Linked h2 (hd s :: (lt ++ ge)) := by
    refine Linked.congr (h := h1) ?_ (fun n hn => by simp [h2, hg n hn])
    rw [← List.cons_append]
    intro a n b hx
    rcases split_append hx with ⟨c, e1, e2⟩ | ⟨a', e1, e2⟩
    · subst e2
      have hn : n ∈ hd s :: (lt ++ ge) := by rw [← List.cons_append, e1]; simp
      have hk : NodeOk h n (c ++ g :: ge) := r.linked a n (c ++ g :: ge) (by rw [← List.cons_append, e1]; simp)
      refine hs.node hk ?_
      intro i hi
      rcases pred_iff e1 hndl hi with ⟨p1, p2⟩ | ⟨p1, p2⟩
      · rcases nxt_append i c (g :: ge) with ⟨⟨m, hm, hm'⟩, _⟩ | ⟨_, g1⟩
        · exact absurd hm' (p2 m hm)
        rcases nxt_append i c ge with ⟨⟨m, hm, hm'⟩, _⟩ | ⟨_, g2⟩
        · exact absurd hm' (p2 m hm)
        rw [g1, g2]
        have : pred i s.head lt = n.id := p1
        by_cases hiL : i ≤ g.lev
        · rw [if_pos ⟨by omega, this, (hq i).2 hiL⟩]
        · rw [if_neg (fun hh => hiL ((hq i).1 hh.2.2))]
          simp [nxt, hiL]
      · obtain ⟨m, hm, hm'⟩ := p2
        rcases nxt_append i c (g :: ge) with ⟨_, g1, _⟩ | ⟨g0, _⟩
        swap
        · exact absurd hm' (g0 m hm)
        rcases nxt_append i c ge with ⟨_, g2, _⟩ | ⟨g0, _⟩
        swap
        · exact absurd hm' (g0 m hm)
        have : pred i s.head lt ≠ n.id := p1
        rw [g1, g2]
        simp [this]
    · have hn : n ∈ ge := by rw [e2]; simp
      have hk : NodeOk h n b := r.linked (hd s :: lt ++ g :: a') n b (by rw [e2]; simp)
      refine hs.node hk ?_
      intro i hi
      have : pred i s.head lt ≠ n.id := by
        intro e
        have hm := hUin i
        rw [e] at hm
        have hnd' := hnd2.2
        rw [← List.cons_append] at hnd'
        unfold ids at hnd' hm
        rw [List.map_append] at hnd'
        exact (List.nodup_append.1 hnd').2.2 _ hm _ (List.mem_map.2 ⟨n, hn, rfl⟩) rfl
      simp [this]
  have hok2 : h2.Ok := r.ok.of hs.1.2 (Nat.le_of_eq hs.1.1.symm) fun a ha => by
    simp only [h2]
    split
    · rfl
    · exact hs.2.1 a ha
  have hpos : ∀ n ∈ hd s :: (lt ++ ge), 0 < n.id := fun n hn => r.pos n (by simp at hn ⊢; tauto)
  obtain ⟨lv, hlv, hlv1, hlv2⟩ := lowerLevel_ok (h := h2) (head := s.head) (ns := lt ++ ge)
    (fun i hi => NodeOk.fwd (n := hd s) (hlink [] _ _ rfl) hi) (fun n hn => Nat.ne_of_gt (hpos n (by simp at hn ⊢; tauto))) s.level htop
    (fun n hn => r.levs n (by simp at hn ⊢; tauto))
  refine ⟨h1, h2, lv, hl, hfree, hlv, ?_, hok2, by simp [h2], ?_⟩
  · refine ⟨hlink, hnd2.2, hok2, hlv2, by simp only; omega, ?_⟩
    · have := r.size
      simp only [List.length_append, List.length_cons] at this ⊢
      omega
  · intro p hp
    have hpg : p ≠ g.id := by
      rintro rfl
      exact hp (by simp [ids])
    have hne : ∀ i, pred i s.head lt ≠ p := by
      intro i e
      have hm := hUin i
      rw [e] at hm
      apply hp
      unfold ids at hm ⊢
      rw [← List.cons_append, List.map_append]
      exact List.mem_append_left _ hm
    have : h2.mem p = h1.mem p := by simp [h2, hpg]
    rw [this, hs.mem_eq (p := p) (by intro i x; simp [hne i])]

theorem freeLoop_ok : ∀ (xs : List Node) (fuel : Nat) (h : Heap), xs.length < fuel → Linked h xs → (ids xs).Nodup → (∀ n ∈ xs, n.id ≠ 0) →
    ∃ h', freeLoop fuel (nxt 0 xs) h = .ok h' ∧ (h'.clock = h.clock ∧ h'.place = h.place) ∧ ∀ p, h'.mem p = if p ∈ ids xs then none else h.mem p := by
  intro xs
  induction xs with
  | nil =>
    intro fuel h hf _ _ _
    cases fuel with
    | zero => simp at hf
    | succ fuel => exact ⟨h, by simp [freeLoop, nxt], ⟨rfl, rfl⟩, by simp [ids]⟩
  | cons n xs ih =>
    intro fuel h hf hl hnd h0
    cases fuel with
    | zero => simp at hf
    | succ fuel =>
      have hk : NodeOk h n xs := hl [] n xs rfl
      obtain ⟨e, he⟩ := hl.live (n := n) (by simp)
      have e1 : nxt 0 (n :: xs) = n.id := by simp [nxt]
      rw [e1]
      simp only [freeLoop]
      rw [if_neg (h0 n (by simp)), hk.fwd (Nat.zero_le _)]
      simp only [Res.bind, Heap.free]
      rw [he]
      simp only
      simp only [ids, List.map_cons, List.nodup_cons] at hnd
      have hne : ∀ m ∈ xs, m.id ≠ n.id := fun m hm e => hnd.1 (List.mem_map.2 ⟨m, hm, e⟩)
      obtain ⟨h', g1, g2, g3⟩ := ih fuel { h with mem := fun a => if a = n.id then none else h.mem a } (by simpa using hf)
        (Linked.congr (Linked.suffix (a := [n]) hl) (fun m hm => by simp [hne m hm])) hnd.2 (fun m hm => h0 m (by simp [hm]))
      refine ⟨h', g1, g2, ?_⟩
      intro p
      rw [g3]
      by_cases hp : p = n.id
      · subst hp; simp [ids]
      · simp [ids, hp]

end Maa.Sl
