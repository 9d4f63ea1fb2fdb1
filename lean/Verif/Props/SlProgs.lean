import Verif.Model.SlProgs
import Verif.Lemmas.SlInv
import Verif.Props.Sl

/-! # Property C77: programs that walk over skip lists while working on them -/

namespace Maa.Sl

open Spec (SlOp SlProg Coll Colls ResRel)

variable {σ : Type}

/-- how a part of a program ends, pointer level against specification -/
def Post (a : State × σ × Int) (b : Colls × σ × Int) : Prop := a.2 = b.2 ∧ ∃ N, Inv a.1 b.1 N

theorem arrange_perm (c : Coll) (d : Nat) (l : List Nat) : (c.arrange d l).Perm (d :: l) := by
  induction l with
  | nil => exact List.Perm.refl _
  | cons e l ih =>
    simp only [Coll.arrange]
    split
    · exact List.Perm.refl _
    · exact (ih.cons e).trans (List.Perm.swap d e l)

/-- the specification's order of the data: nothing is lost or doubled -/
theorem ordered_perm (c : Coll) : c.ordered.Perm c.data := by
  unfold Coll.ordered
  induction c.data with
  | nil => exact List.Perm.refl _
  | cons d l ih => exact (arrange_perm c d _).trans (ih.cons d)

/-- the specification's order of the data: by keys -/
theorem ordered_sorted (c : Coll) (t : Spec.TotalOrder c.cmp) : c.ordered.Pairwise fun a b => c.cmp (c.key a) (c.key b) ≤ 0 := by
  unfold Coll.ordered
  induction c.data with
  | nil => exact List.Pairwise.nil
  | cons d l ih =>
    simp only [List.foldr_cons]
    generalize l.foldr c.arrange [] = m at ih
    induction m with
    | nil => simp [Coll.arrange]
    | cons e m ihm =>
      obtain ⟨h1, h2⟩ := List.pairwise_cons.1 ih
      simp only [Coll.arrange]
      split
      · rename_i hde
        refine List.pairwise_cons.2 ⟨fun x hx => ?_, ih⟩
        rcases List.mem_cons.1 hx with rfl | hx
        · exact hde
        · exact t.trans _ _ _ hde (h1 x hx)
      · rename_i hde
        refine List.pairwise_cons.2 ⟨fun x hx => ?_, ihm h2⟩
        rcases List.mem_cons.1 ((arrange_perm c d m).subset hx) with rfl | hx
        · have := t.antisymm (c.key e) (c.key x)
          omega
        · exact h1 x hx

theorem ordered_eq {h : Heap} {c : Coll} {s : SList} {ns : List Node} (m : Match c s ns) (r : Rep h s ns) : c.ordered = ns.map Node.datum := by
  obtain ⟨m1, m2, m3, m4, m5⟩ := m
  have hs : (ns.map Node.datum).Pairwise fun a b => c.cmp (c.key a) (c.key b) < 0 := by
    rw [List.pairwise_map, ← m1, ← m2]; exact m5
  have hperm : c.ordered.Perm (ns.map Node.datum) := (ordered_perm c).trans m4
  refine List.Perm.eq_of_pairwise (le := fun a b => c.cmp (c.key a) (c.key b) ≤ 0) ?_ (ordered_sorted c m3) (hs.imp fun h => by omega) hperm
  intro a b ha hb h1 h2
  obtain ⟨x, y, e⟩ := List.append_of_mem (hperm.subset ha)
  rw [e] at hs hb
  obtain ⟨-, h3, h4⟩ := List.pairwise_append.1 hs
  rcases List.mem_append.1 hb with hb | hb
  · have := h4 b hb a (by simp)
    have := m3.antisymm (c.key b) (c.key a)
    omega
  · rcases List.mem_cons.1 hb with hb | hb
    · exact hb.symm
    · have := (List.pairwise_cons.1 h3).1 b hb
      have := m3.antisymm (c.key a) (c.key b)
      omega

theorem callBody_sim {body : State → σ → Nat → Res (State × σ × Int)} {spec : Colls → σ → Nat → Res (Colls × σ × Int)}
    (hb : ∀ st d s S N, Inv s S N → ResRel Post (body s st d) (spec S st d)) (copy : List Nat) :
    ∀ (n i : Nat) (s : State) (S : Colls) (st : σ) N, i + n = copy.length → Inv s S N →
    ResRel Post (callBody body copy n i s st) (Spec.visitData spec (copy.drop i) S st) := by
  intro n
  induction n with
  | zero =>
    intro i s S st N hi I
    rw [List.drop_of_length_le (by omega)]
    exact ⟨rfl, N, I⟩
  | succ n ih =>
    intro i s S st N hi I
    have hd : copy.drop i = copy[i]'(by omega) :: copy.drop (i + 1) := List.drop_eq_getElem_cons (by omega)
    rw [hd]
    simp only [callBody, Spec.visitData]
    rw [List.getElem?_eq_getElem (by omega : i < copy.length)]
    simp only
    refine (hb st _ s S N I).bind ?_
    rintro a b ⟨h1, N', I'⟩
    rw [h1]
    by_cases hz : b.2.2 ≠ 0
    · rw [if_pos hz, if_pos hz]; exact ⟨h1, N', I'⟩
    · rw [if_neg hz, if_neg hz]
      exact ih (i + 1) a.1 b.1 b.2.1 N' (by omega) I'

theorem exec_sim (p : SlProg σ) : p.All SlOp.Ok → ∀ s S N, Inv s S N → ResRel Post (exec p s) (S.exec p) := by
  induction p with
  | ret st r => intro _ s S N I; exact ⟨rfl, N, I⟩
  | call o k ih =>
    rintro ⟨ho, hk⟩ s S N I
    simp only [exec, Colls.exec]
    refine (step_sim I o ho).bind ?_
    rintro a b ⟨h1, N', I'⟩
    rw [h1]
    exact ih _ (hk _) _ _ N' I'
  | walk l st f k ihf ihk =>
    rintro ⟨hf, hk⟩ s S N I
    simp only [exec, Colls.exec, walkCalls]
    by_cases h0 : l = 0
    · simp only [if_pos h0, Res.bind]
      exact ihk _ _ (hk _ _) _ _ N I
    · simp only [if_neg h0]
      cases hl : s.lists l with
      | none => simp only [I.none' l hl, State.check, if_neg h0, hl, Res.bind, ResRel]
      | some o =>
        obtain ⟨c, hc, m⟩ := I.mat l o hl
        have r := I.rep l o hl
        have hh : s.heap.fwd o.head 0 = .ok (nxt 0 (N l)) := NodeOk.fwd (n := hd o) (r.linked [] _ _ rfl) (Nat.zero_le _)
        have hch : s.check l = .ok o := by unfold State.check; rw [if_neg h0, hl]
        rw [hch, okBind, hh, okBind]
        rw [copyLoop_ok (N l) _ [] _ (by have := r.few; omega) (Linked.suffix (a := [hd o]) r.linked) (fun n hn => Nat.ne_of_gt (r.pos n (by simp [hn])))
          (by simpa using r.size), okBind, hc]
        simp only
        rw [ordered_eq m r]
        have := callBody_sim (fun st d s S N I => ihf st d (hf st d) s S N I) ([] ++ (N l).map Node.datum) o.count.toNat 0 s S st N
          (by rw [r.size]; simp) I
        refine ResRel.bind this ?_
        rintro a b ⟨h1, N', I'⟩
        rw [h1]
        exact ihk _ _ (hk _ _) _ _ N' I'

/-- C77: every program that uses any number of skip lists, makes any calls, and walks over lists with `sl_iterate` inside the bodies of other
walks, deciding by what it has seen, does exactly what it does on ordered collections whose walks visit the data the collection has at the
start of the walk, in the order of their keys (Spec/SlProgs.lean): the same variables and result or the same way of not returning,
whatever addresses the allocator chooses.  There is no rule for the bodies: they may insert into, delete from and destroy the lists being
walked over. -/
theorem C77_programs (place : Policy) (hp : Maa.Heap.Allocator place) (p : SlProg σ) (h : p.All SlOp.Ok) :
    ((exec p (State.init place)).bind fun r => Res.ok r.2) = (Colls.exec p Colls.empty).bind fun r => Res.ok r.2 := by
  have := exec_sim p h _ _ _ (inv_init hp)
  cases ha : exec p (State.init place) <;> cases hb : Colls.exec p Colls.empty <;> rw [ha, hb] at this <;> simp only [ResRel] at this
  · simp only [Res.bind, this.1]
  all_goals rfl

/-- C77, memory: when the program has returned, every live entry belongs to a list that still exists; a list that ought to exist does, and its
count is the number of its data. -/
theorem C77_memory (place : Policy) (hp : Maa.Heap.Allocator place) (p : SlProg σ) (h : p.All SlOp.Ok) (s : State) (S : Colls) (x y : σ × Int)
    (h1 : exec p (State.init place) = .ok (s, x)) (h2 : Colls.exec p Colls.empty = .ok (S, y)) :
    (∀ l, (s.lists l).isSome = (S.colls l).isSome) ∧ (∀ l c, S.colls l = some c → ∃ o, s.lists l = some o ∧ o.count = c.data.length) ∧
    ((∀ l, S.colls l = none) → ∀ a, s.heap.mem a = none) := by
  have := exec_sim p h _ _ _ (inv_init hp)
  rw [h1, h2] at this
  obtain ⟨-, N, I⟩ := this
  have e : ∀ l, (s.lists l).isSome = (S.colls l).isSome := by
    intro l
    cases hl : s.lists l with
    | none => simp [show S.colls l = none from I.none' l hl]
    | some o => obtain ⟨c, hc, -⟩ := I.mat l o hl; simp [show S.colls l = some c from hc]
  refine ⟨e, ?_, ?_⟩
  · intro l c hc
    have := e l
    rw [hc] at this
    obtain ⟨o, ho⟩ := Option.isSome_iff_exists.1 this
    obtain ⟨c', hc', -, -, -, m4, -⟩ := I.mat l o ho
    have hc'' : S.colls l = some c' := hc'
    rw [hc, Option.some.injEq] at hc''
    subst hc''
    refine ⟨o, ho, ?_⟩
    rw [(I.rep l o ho).size, m4.length_eq]; simp
  · intro hn a
    by_contra ha
    obtain ⟨l, o, hl, -⟩ := I.own a ha
    have := e l
    rw [show s.lists l = some o from hl, hn l] at this
    simp at this

/-- The body of the outer walk destroys the list it walks over when it sees 10, and walks over a second list, into which it inserts what it has
seen, while walking over it. -/
def nested : SlProg (List Nat) :=
  .call byNumber fun l => .call byNumber fun m => .call (.insert l 30 fun _ => 0) fun _ => .call (.insert l 10 fun _ => 0x80) fun _ =>
  .call (.insert l 20 fun _ => 0) fun _ => .call (.insert m 7 fun _ => 0) fun _ =>
  .walk l [] (fun st d => if d = 10 then .call (.destroy l) fun _ => .ret (st ++ [d]) 0
    else .walk m (st ++ [d]) (fun st e => .call (.insert m (d + e) fun _ => 0x80) fun _ => .ret (st ++ [e]) 0) fun st r => .ret st r) fun st r => .ret st r

/-- the hypotheses are met, and the conclusion says something -/
example (place : Policy) (hp : Maa.Heap.Allocator place) :
    ((exec nested (State.init place)).bind fun r => Res.ok r.2) = .ok ([10, 20, 7, 30, 7, 27], 0) := by
  rw [C77_programs place hp nested]
  · decide +kernel
  · refine ⟨byNumber_ok, fun _ => ⟨byNumber_ok, fun _ => ⟨trivial, fun _ => ⟨trivial, fun _ => ⟨trivial, fun _ => ⟨trivial, fun _ => ⟨?_, fun _ _ => trivial⟩⟩⟩⟩⟩⟩⟩
    intro st d
    by_cases hd : d = 10
    · simp only [hd, if_true]; exact ⟨trivial, fun _ => trivial⟩
    · simp only [hd, if_false]; exact ⟨fun _ _ => ⟨trivial, fun _ => trivial⟩, fun _ _ => trivial⟩

/-- C38/C77, the comment before `sl_create` is not true: "If |key| is not provided, then |datum| will be used as the key".  Without a key
function the program ends. -/
theorem C77_no_key_refuted (cmp : Nat → Nat → Int) (s : State) : step s (.create (some cmp) none) = .abort := rfl

end Maa.Sl
