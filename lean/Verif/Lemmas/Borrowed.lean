import Verif.Model.Borrowed
import Verif.Lemmas.Flags

namespace Maa.Borrowed

open HashHeap (HState HTab hpush hgrow setSlot copyChain copyAll freeChain freeAll)
open Tab (Entry)
open Spec (ResRel)

/-- the same entry with the characters of the key -/
def entry (g : Ptr → List Byte) (e : Entry Ptr Ptr) : Entry (List Byte) Ptr := { key := g e.key, hash := e.hash, datum := e.datum }

/-- The memory of a table keyed by characters, and that of the same table keyed by pointers to them. -/
structure Shadow (P : Ptr → Prop) (g : Ptr → List Byte) (h : Heap (Entry Ptr Ptr)) (h' : Heap (Entry (List Byte) Ptr)) : Prop where
  mem : ∀ a, h'.mem a = (h.mem a).map fun c => (entry g c.1, c.2)
  clock : h'.clock = h.clock
  place : h'.place = h.place
  keys : ∀ a c, h.mem a = some c → P c.1.key

variable {P : Ptr → Prop} {g : Ptr → List Byte} {h : Heap (Entry Ptr Ptr)} {h' : Heap (Entry (List Byte) Ptr)}

theorem Shadow.mono (s : Shadow P g h h') {Q : Ptr → Prop} (hq : ∀ p, P p → Q p) : Shadow Q g h h' :=
  ⟨s.mem, s.clock, s.place, fun a c hc => hq _ (s.keys a c hc)⟩

theorem Shadow.congr (s : Shadow P g h h') {g' : Ptr → List Byte} (hg : ∀ p, P p → g' p = g p) : Shadow P g' h h' :=
  ⟨fun a => by
    rw [s.mem a]
    cases hc : h.mem a with
    | none => rfl
    | some c => simp only [Option.map_some, entry]; rw [hg _ (s.keys a c hc)], s.clock, s.place, s.keys⟩

theorem Shadow.init : Shadow P g Heap.init Heap.init :=
  ⟨fun _ => rfl, rfl, rfl, fun _ _ h => by cases h⟩

theorem Shadow.addr (s : Shadow P g h h') : h'.addr = h.addr := by
  unfold Heap.addr
  rw [s.clock, s.place]
  congr 1
  funext a
  rw [s.mem a]
  cases h.mem a <;> rfl

theorem Shadow.read (s : Shadow P g h h') (p : Nat) :
    ResRel (fun c c' => c' = (entry g c.1, c.2) ∧ P c.1.key) (h.read p) (h'.read p) := by
  unfold Heap.read
  rw [s.mem p]
  cases hc : h.mem p with
  | none => trivial
  | some c => exact ⟨rfl, s.keys p c hc⟩

theorem Shadow.write (s : Shadow P g h h') (p : Nat) {c : Entry Ptr Ptr × Nat} (hc : P c.1.key) :
    ResRel (Shadow P g) (h.write p c) (h'.write p (entry g c.1, c.2)) := by
  unfold Heap.write
  rw [s.mem p]
  cases hm : h.mem p with
  | none => trivial
  | some x =>
    refine ⟨fun a => ?_, s.clock, s.place, fun a d hd => ?_⟩
    · by_cases e : a = p
      · simp [e]
      · simp only [if_neg e]; exact s.mem a
    · by_cases e : a = p
      · simp only [if_pos e, Option.some.injEq] at hd; rw [← hd]; exact hc
      · simp only [if_neg e] at hd; exact s.keys a d hd

theorem Shadow.free (s : Shadow P g h h') (p : Nat) : ResRel (Shadow P g) (h.free p) (h'.free p) := by
  unfold Heap.free
  rw [s.mem p]
  cases hm : h.mem p with
  | none => trivial
  | some x =>
    refine ⟨fun a => ?_, s.clock, s.place, fun a d hd => ?_⟩
    · by_cases e : a = p
      · simp [e]
      · simp only [if_neg e]; exact s.mem a
    · by_cases e : a = p
      · simp only [if_pos e] at hd; cases hd
      · simp only [if_neg e] at hd; exact s.keys a d hd

theorem Shadow.alloc (s : Shadow P g h h') {c : Entry Ptr Ptr × Nat} (hc : P c.1.key) :
    Shadow P g (h.alloc c).1 (h'.alloc (entry g c.1, c.2)).1 ∧ (h'.alloc (entry g c.1, c.2)).2 = (h.alloc c).2 := by
  refine ⟨⟨fun a => ?_, ?_, s.place, fun a d hd => ?_⟩, s.addr⟩
  · simp only [Heap.alloc]
    rw [s.addr]
    by_cases e : a = h.addr
    · simp [e]
    · simp only [if_neg e]; exact s.mem a
  · simp only [Heap.alloc, s.clock]
  · simp only [Heap.alloc] at hd
    by_cases e : a = h.addr
    · simp only [if_pos e, Option.some.injEq] at hd; rw [← hd]; exact hc
    · simp only [if_neg e] at hd; exact s.keys a d hd

/-- both tables -/
def Both (P : Ptr → Prop) (g : Ptr → List Byte) (t : Table) (t' : NameTab.Table) : Prop := Shadow P g t.1 t'.1 ∧ t'.2 = t.2

theorem hpush_both (s : Shadow P g h h') (t : HTab) {e : Entry Ptr Ptr} (he : P e.key) :
    Both P g (hpush h t e) (hpush h' t (entry g e)) := by
  have h1 := s.alloc (c := (e, if t.buckets (e.hash % t.prime) ≠ 0 then t.buckets (e.hash % t.prime) else 0)) he
  refine ⟨h1.1, ?_⟩
  exact congrArg (fun x => ({ t with buckets := setSlot t.buckets (e.hash % t.prime) x, entries := t.entries + 1 } : HTab)) h1.2

theorem copyChain_both (n : Nat) : ∀ {h h'}, Shadow P g h h' → ∀ (t : HTab) (pt : Nat),
    ResRel (Both P g) (copyChain n h t pt) (copyChain n h' t pt) := by
  induction n with
  | zero => intro h h' _ t pt; trivial
  | succ n ih =>
    intro h h' s t pt
    simp only [copyChain]
    by_cases e : pt = 0
    · rw [if_pos e, if_pos e]; exact ⟨s, rfl⟩
    rw [if_neg e, if_neg e]
    refine ResRel.bind (s.read pt) ?_
    rintro c c' ⟨rfl, hc⟩
    have b := hpush_both s t hc
    refine ResRel.bind (b.1.read pt) ?_
    rintro d d' ⟨rfl, hd⟩
    simp only
    rw [b.2]
    exact ih b.1 _ _

theorem copyAll_both (n : Nat) (b : Nat → Nat) (l : List Nat) : ∀ {h h'}, Shadow P g h h' → ∀ (t : HTab),
    ResRel (Both P g) (copyAll n b l h t) (copyAll n b l h' t) := by
  induction l with
  | nil => intro h h' s t; exact ⟨s, rfl⟩
  | cons i is ih =>
    intro h h' s t
    simp only [copyAll]
    refine ResRel.bind (copyChain_both n s t (b i)) ?_
    rintro c c' ⟨h1, h2⟩
    rw [h2]
    exact ih h1 _

theorem freeChain_both (n : Nat) : ∀ {h h'}, Shadow P g h h' → ∀ pt, ResRel (Shadow P g) (freeChain n h pt) (freeChain n h' pt) := by
  induction n with
  | zero => intro h h' _ pt; trivial
  | succ n ih =>
    intro h h' s pt
    simp only [freeChain]
    by_cases e : pt = 0
    · rw [if_pos e, if_pos e]; exact s
    rw [if_neg e, if_neg e]
    refine ResRel.bind (s.read pt) ?_
    rintro c c' ⟨rfl, hc⟩
    exact ResRel.bind (s.free pt) fun a b hab => ih hab _

theorem freeAll_both (n : Nat) (b : Nat → Nat) (l : List Nat) : ∀ {h h'}, Shadow P g h h' →
    ResRel (Shadow P g) (freeAll n b l h) (freeAll n b l h') := by
  induction l with
  | nil => intro h h' s; exact s
  | cons i is ih =>
    intro h h' s
    simp only [freeAll]
    exact ResRel.bind (freeChain_both n s (b i)) fun a b hab => ih hab

theorem hgrow_both (s : Shadow P g h h') (t : HTab) : ResRel (Both P g) (hgrow h t) (hgrow h' t) := by
  unfold hgrow
  by_cases e : t.entries * 2 > t.prime
  · rw [if_pos e, if_pos e]
    cases HashHeap.hcreate (t.prime * 3) with
    | ok new =>
      simp only [Res.bind]
      rw [s.clock]
      refine ResRel.bind (copyAll_both h.clock t.buckets (List.range t.prime) s new) ?_
      rintro a b ⟨h1, h2⟩
      refine ResRel.bind (freeAll_both h.clock t.buckets (List.range t.prime) h1) ?_
      intro x y hxy
      exact ⟨hxy, by rw [h2]⟩
    | _ => trivial
  · rw [if_neg e, if_neg e]; exact ⟨s, rfl⟩

/-- what the callbacks find at the keys of the table -/
def Reads (m : Mem) (P : Ptr → Prop) (g : Ptr → List Byte) : Prop := ∀ p, P p → text m p = .ok (g p)

theorem text_nul {m : Mem} {p : Ptr} {s : List Byte} (h : text m p = .ok s) : (0 : Byte) ∉ s := by
  unfold text at h
  by_cases e : p = 0
  · rw [if_pos e] at h; cases h
  rw [if_neg e] at h
  cases hm : m p with
  | none => rw [hm] at h; cases h
  | some b => rw [hm] at h; exact (CStr.cstr_ok h).1

/-- the found cell seen from the other table -/
def found (g : Ptr → List Byte) (x : Nat × Nat × Entry Ptr Ptr × Nat) : Nat × Nat × Entry (List Byte) Ptr × Nat :=
  (x.1, x.2.1, entry g x.2.2.1, x.2.2.2)

theorem findLoop_both {m : Mem} (hr : Reads m P g) {k : List Byte} (hk : (0 : Byte) ∉ k) (s : Shadow P g h h') (n : Nat) : ∀ prev pt,
    ResRel (fun c c' => c' = c.map (found g) ∧ ∀ x, c = some x → P x.2.2.1.key)
      (findLoop m k n h prev pt) (HashHeap.findLoop NameTab.strOps k n h' prev pt) := by
  induction n with
  | zero => intro prev pt; trivial
  | succ n ih =>
    intro prev pt
    simp only [findLoop, HashHeap.findLoop]
    by_cases e : pt = 0
    · rw [if_pos e, if_pos e]
      exact ⟨rfl, fun x hx => by cases hx⟩
    rw [if_neg e, if_neg e]
    refine ResRel.bind (s.read pt) ?_
    rintro c c' ⟨rfl, hc⟩
    rw [hr _ hc]
    simp only [Res.bind]
    have e2 : NameTab.strOps.cmp (entry g c.1).key k = CStr.strcmp (g c.1.key) k := by
      simp only [NameTab.strOps, entry]
      rw [NameTab.takeWhile_self (text_nul (hr _ hc)), NameTab.takeWhile_self hk]
    rw [e2]
    by_cases e3 : (CStr.strcmp (g c.1.key) k == 0) = true
    · rw [if_pos e3, if_pos e3]
      exact ⟨rfl, fun x hx => by cases hx; exact hc⟩
    · rw [if_neg e3, if_neg e3]
      exact ih _ _

theorem hash_eq {k : List Byte} (hk : (0 : Byte) ∉ k) : NameTab.strOps.hash k = CStr.strHashLoop 0 k := by
  simp only [NameTab.strOps]
  rw [NameTab.takeWhile_self hk]

/-- `hsh_insert` in both: a key that is not inserted is not kept -/
theorem insert_both {m : Mem} (hr : Reads m P g) {p : Ptr} {k : List Byte} (hp : text m p = .ok k) (hgp : g p = k) {t : Table} {t' : NameTab.Table}
    (b : Both P g t t') (d : Ptr) :
    ResRel (fun c c' => c'.2 = c.2 ∧ Both (fun q => P q ∨ (c.2 = 0 ∧ q = p)) g c.1 c'.1) (insert m t p d) (NameTab.insertKey t' k d) := by
  have hk := text_nul hp
  obtain ⟨s, e⟩ := b
  unfold insert NameTab.insertKey HashHeap.hinsert
  rw [hp, hash_eq hk, e]
  simp only [Res.bind]
  by_cases ro : t.2.readonly ≠ 0
  · rw [if_pos ro, if_pos ro]; trivial
  rw [if_neg ro, if_neg ro]
  refine ResRel.bind (hgrow_both s t.2) ?_
  rintro a b ⟨s1, e1⟩
  rw [e1]
  by_cases e2 : a.2.prime = 0
  · rw [if_pos e2, if_pos e2]; trivial
  rw [if_neg e2, if_neg e2, s1.clock]
  refine ResRel.bind (findLoop_both hr hk s1 _ _ _) ?_
  rintro f f' ⟨rfl, hf⟩
  cases f with
  | some x => exact ⟨rfl, s1.mono (fun q hq => Or.inl hq), e1⟩
  | none =>
    have := hpush_both (s1.mono (Q := fun q => P q ∨ ((0 : Int) = 0 ∧ q = p)) fun q hq => Or.inl hq) a.2
      (e := { key := p, hash := CStr.strHashLoop 0 k, datum := d }) (Or.inr ⟨rfl, rfl⟩)
    have e3 : entry g { key := p, hash := CStr.strHashLoop 0 k, datum := d } = { key := k, hash := CStr.strHashLoop 0 k, datum := d } := by
      simp only [entry, hgp]
    rw [e3] at this
    exact ⟨rfl, this⟩

theorem retrieve_both {m : Mem} (hr : Reads m P g) {k : List Byte} (hk : (0 : Byte) ∉ k) {t : Table} {t' : NameTab.Table} (b : Both P g t t') :
    ResRel (fun c c' => c'.2 = c.2 ∧ Both P g c.1 c'.1) (retrieveKey m t k) (NameTab.retrieveKey t' k) := by
  obtain ⟨s, e⟩ := b
  unfold retrieveKey NameTab.retrieveKey HashHeap.hretrieve
  rw [hash_eq hk, e]
  by_cases e2 : t.2.prime = 0
  · rw [if_pos e2, if_pos e2]; trivial
  rw [if_neg e2, if_neg e2, s.clock]
  simp only
  have h1 := findLoop_both hr hk s t.1.clock 0 (t.2.buckets (CStr.strHashLoop 0 k % t.2.prime))
  cases hx : findLoop m k t.1.clock t.1 0 (t.2.buckets (CStr.strHashLoop 0 k % t.2.prime)) <;>
    cases hy : HashHeap.findLoop NameTab.strOps k t.1.clock t'.1 0 (t.2.buckets (CStr.strHashLoop 0 k % t.2.prime)) <;>
    rw [hx, hy] at h1 <;> simp only [ResRel] at h1 <;> try trivial
  rename_i f f'
  obtain ⟨rfl, hf⟩ := h1
  cases f with
  | none => exact ⟨rfl, s, rfl⟩
  | some x =>
    obtain ⟨prev, pt, c⟩ := x
    have hc := hf _ rfl
    simp only [Res.bind, Option.map_some, found]
    by_cases e3 : prev = 0
    · rw [if_pos e3, if_pos e3]
      exact ⟨rfl, s, rfl⟩
    rw [if_neg e3, if_neg e3]
    by_cases e4 : t.2.readonly = 0
    · rw [if_pos e4, if_pos e4]
      have r1 := s.read prev
      cases ha : t.1.read prev <;> cases hb : t'.1.read prev <;> rw [ha, hb] at r1 <;> simp only [ResRel] at r1 <;> try trivial
      rename_i a b
      obtain ⟨rfl, hpa⟩ := r1
      simp only
      have r2 := s.write prev (c := (a.1, c.2)) hpa
      simp only at r2
      cases ha2 : t.1.write prev (a.1, c.2) <;> cases hb2 : t'.1.write prev (entry g a.1, c.2) <;> rw [ha2, hb2] at r2 <;>
        simp only [ResRel] at r2 <;> try trivial
      rename_i h1 h1'
      simp only
      have r3 := r2.write pt (c := (c.1, t.2.buckets (CStr.strHashLoop 0 k % t.2.prime))) hc
      simp only at r3
      cases ha3 : h1.write pt (c.1, t.2.buckets (CStr.strHashLoop 0 k % t.2.prime)) <;>
        cases hb3 : h1'.write pt (entry g c.1, t.2.buckets (CStr.strHashLoop 0 k % t.2.prime)) <;> rw [ha3, hb3] at r3 <;>
        simp only [ResRel] at r3 <;> first | exact ⟨rfl, r3, rfl⟩ | trivial
    · rw [if_neg e4, if_neg e4]
      exact ⟨rfl, s, rfl⟩

theorem delete_both {m : Mem} (hr : Reads m P g) {p : Ptr} {k : List Byte} (hp : text m p = .ok k) {t : Table} {t' : NameTab.Table} (b : Both P g t t') :
    ResRel (fun c c' => c'.2 = c.2 ∧ Both P g c.1 c'.1) (delete m t p) (HashHeap.hdelete NameTab.strOps t'.1 t'.2 k) := by
  have hk := text_nul hp
  obtain ⟨s, e⟩ := b
  unfold delete HashHeap.hdelete
  rw [hash_eq hk, e, hp]
  simp only [Res.bind]
  by_cases e2 : t.2.prime = 0
  · rw [if_pos e2, if_pos e2]; trivial
  rw [if_neg e2, if_neg e2, s.clock]
  by_cases ro : t.2.readonly ≠ 0
  · rw [if_pos ro, if_pos ro]; trivial
  rw [if_neg ro, if_neg ro]
  refine ResRel.bind (findLoop_both hr hk s _ _ _) ?_
  rintro f f' ⟨rfl, hf⟩
  cases f with
  | none => exact ⟨rfl, s, rfl⟩
  | some x =>
    obtain ⟨prev, pt, c⟩ := x
    simp only [Option.map_some, found]
    by_cases e3 : prev = 0
    · rw [if_pos e3, if_pos e3]
      exact ResRel.bind (s.free pt) fun a b hab => ⟨rfl, hab, rfl⟩
    rw [if_neg e3, if_neg e3]
    refine ResRel.bind (s.read prev) ?_
    rintro a a' ⟨rfl, ha⟩
    refine ResRel.bind (s.write prev (c := (a.1, c.2)) ha) ?_
    intro x y hxy
    exact ResRel.bind (hxy.free pt) fun u v huv => ⟨rfl, huv, rfl⟩

theorem destroy_both {t : Table} {t' : NameTab.Table} (b : Both P g t t') : ResRel (fun _ _ => True) (destroy t) (NameTab.destroy t') := by
  obtain ⟨s, e⟩ := b
  unfold destroy NameTab.destroy HashHeap.hdestroy
  rw [e, s.clock]
  by_cases ro : t.2.readonly ≠ 0
  · rw [if_pos ro, if_pos ro]; trivial
  rw [if_neg ro, if_neg ro]
  exact ResRel.bind (freeAll_both _ _ _ s) fun _ _ _ => trivial

theorem create_both : ResRel (Both P g) create NameTab.create := by
  unfold create NameTab.create
  cases HashHeap.hcreate 0 with
  | ok t => exact ⟨Shadow.init, rfl⟩
  | _ => trivial

end Maa.Borrowed
