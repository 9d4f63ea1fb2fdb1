import Verif.Model.Arg
import Verif.Lemmas.StrMem

namespace Maa.Arg

open StrMem (Mem SInfo)
open Spec (StrView StrOp Style Part isBlank isQuote srcs vals Splits)

/-- Everything known about an argument list: its items are the strings handed out by its string memory. -/
structure AInv (h0 : Mem) (s : Mem × ArgList) (v : StrView) : Prop where
  str : StrMem.Inv h0 (s.1, s.2.str) v
  argc : s.2.argc = v.strings.length
  argm : s.2.argv.length = s.2.argm
  room : 2 ≤ s.2.argm ∧ s.2.argc + 1 ≤ s.2.argm
  vec : ∃ junk, s.2.argv = v.strings.reverse.map (fun x => some x.1) ++ some 0 :: junk

theorem create_inv (h0 : Mem) (ok : h0.Ok) : AInv h0 (h0, create) {} :=
  ⟨StrMem.create_inv h0 ok, rfl, rfl, by simp [create], [none], rfl⟩

theorem append_ok {a : ArgList} {ptrs : List Nat} {junk : List (Option Nat)} (hc : a.argc = ptrs.length)
    (hm : a.argv.length = a.argm) (hr : 2 ≤ a.argm ∧ a.argc + 1 ≤ a.argm)
    (hv : a.argv = ptrs.map some ++ some 0 :: junk) (new : Nat) :
    ∃ a' junk', append a new = .ok a' ∧ a'.argc = ptrs.length + 1 ∧ a'.argv.length = a'.argm ∧
      (2 ≤ a'.argm ∧ a'.argc + 1 ≤ a'.argm) ∧ a'.argv = (ptrs ++ [new]).map some ++ some 0 :: junk' ∧ a'.str = a.str := by
  have key : ∀ (b : ArgList), b.argc = ptrs.length → b.argv.length = b.argm → (∃ j x, b.argv = ptrs.map some ++ some 0 :: x :: j) →
      ∃ b' junk', ((store b.argv b.argc new).bind fun v => (store v (b.argc + 1) 0).bind fun v =>
        Res.ok { b with argc := b.argc + 1, argv := v }) = .ok b' ∧ b'.argc = ptrs.length + 1 ∧
        b'.argv.length = b'.argm ∧ b'.argm = b.argm ∧ b'.argv = (ptrs ++ [new]).map some ++ some 0 :: junk' ∧ b'.str = b.str := by
    rintro b h1 h2 ⟨j, x, h3⟩
    have hlen : ptrs.length + 2 ≤ b.argv.length := by rw [h3]; simp
    refine ⟨ArgList.mk (b.argc + 1) b.argm ((b.argv.set b.argc (some new)).set (b.argc + 1) (some 0)) b.str, j, ?_, ?_, ?_, ?_, ?_, ?_⟩
    · simp only [store]
      rw [if_pos (by omega)]
      simp only [Res.bind]
      rw [if_pos (by simp; omega)]
    · simp [h1]
    · simpa using h2
    · rfl
    · simp only [h3, h1]
      rw [List.set_append_right _ _ (by simp), List.set_append_right _ _ (by simp)]
      simp
    · rfl
  unfold append
  by_cases hg : a.argm ≤ a.argc + 2
  · simp only [if_pos hg]
    have h1 : a.argv.take (a.argm * 2) = a.argv := List.take_of_length_le (by omega)
    obtain ⟨b', j, e1, e2, e3, e4, e5, e6⟩ := key
      (ArgList.mk a.argc (a.argm * 2) (a.argv.take (a.argm * 2) ++ List.replicate (a.argm * 2 - a.argv.length) none) a.str) hc
      (by simp only [h1, List.length_append, List.length_replicate]; omega)
      (by
        simp only [h1]
        rw [hv]
        have : ∃ x j', junk ++ List.replicate (a.argm * 2 - a.argv.length) none = x :: j' := by
          cases junk with
          | cons x j => exact ⟨x, _, rfl⟩
          | nil =>
            obtain ⟨n, hn⟩ : ∃ n, a.argm * 2 - a.argv.length = n + 1 := ⟨a.argm * 2 - a.argv.length - 1, by omega⟩
            rw [hn, List.replicate_succ]
            exact ⟨none, _, rfl⟩
        obtain ⟨x, j', hx⟩ := this
        refine ⟨j', x, ?_⟩
        rw [List.append_assoc, List.cons_append, ← hv, hx])
    refine ⟨b', j, e1, e2, e3, ⟨by rw [e4]; simp only; omega, by rw [e4, e2]; simp only; omega⟩, e5, e6⟩
  · simp only [if_neg hg]
    obtain ⟨b', j, e1, e2, e3, e4, e5, e6⟩ := key a hc hm (by
      cases junk with
      | nil =>
        have := congrArg List.length hv
        simp at this; omega
      | cons x j => exact ⟨j, x, hv⟩)
    exact ⟨b', j, e1, e2, e3, ⟨by omega, by omega⟩, e5, e6⟩

/-- adding a string just copied -/
theorem AInv.append {h0 h h' : Mem} {a : ArgList} {str : SInfo} {v v' : StrView} (i : AInv h0 (h, a) v)
    {new : Nat} {b : List Byte} (i' : StrMem.Inv h0 (h', str) v') (hv : v'.strings = (new, b) :: v.strings) :
    ∃ a', Arg.append { a with str := str } new = .ok a' ∧ AInv h0 (h', a') v' := by
  obtain ⟨junk, hj⟩ := i.vec
  obtain ⟨a', j', e1, e2, e3, e4, e5, e6⟩ := append_ok (a := { a with str := str }) (ptrs := v.strings.reverse.map Prod.fst)
    (junk := junk) (by simpa using i.argc) i.argm i.room (by rw [List.map_map]; exact hj) new
  refine ⟨a', e1, ⟨?_, ?_, e3, e4, j', ?_⟩⟩
  · simp only [e6]; exact i'
  · simp only [e2, hv]; simp
  · simp only [e5, hv]
    simp [Function.comp_def]

theorem step_inv {h0 : Mem} {s : Mem × ArgList} {v : StrView} (i : AInv h0 s v) (o : StrOp) (ho : v.see o 0 ≠ none) :
    ∃ s' r v', step s o = .ok (s', ()) ∧ v.see o r = some v' ∧ AInv h0 s' v' := by
  obtain ⟨s1, r, v', h1, h2, h3, -⟩ := StrMem.step_inv i.str o (StrMem.see_all ho)
  obtain ⟨h, a⟩ := s
  obtain ⟨m1, i1⟩ := s1
  cases o with
  | strcpy b =>
    simp only [StrMem.step] at h1
    have hv : ∃ t, v'.strings = (r, t) :: v.strings := by
      simp only [StrView.see] at h2
      cases hu : Spec.upToNul b with
      | none => rw [hu] at h2; simp at h2
      | some t =>
        rw [hu] at h2
        simp only [Option.map_some, Option.some.injEq] at h2
        exact ⟨_, by rw [← h2]⟩
    obtain ⟨t, ht⟩ := hv
    obtain ⟨a', e1, e2⟩ := i.append h3 ht
    exact ⟨(m1, a'), r, v', by simp only [step, add, h1, Res.bind, e1], h2, e2⟩
  | strncpy b n =>
    simp only [StrMem.step] at h1
    have hv : ∃ t, v'.strings = (r, t) :: v.strings := by
      simp only [StrView.see] at h2
      split at h2
      · simp only [Option.some.injEq] at h2
        exact ⟨_, by rw [← h2]⟩
      · simp at h2
    obtain ⟨t, ht⟩ := hv
    obtain ⟨a', e1, e2⟩ := i.append h3 ht
    exact ⟨(m1, a'), r, v', by simp only [step, addn, h1, Res.bind, e1], h2, e2⟩
  | grow b n =>
    have hl : n ≤ b.length := by
      by_contra hc
      simp only [StrView.see] at ho
      rw [if_neg hc] at ho
      simp at ho
    obtain ⟨s2, top, rest, g1, g2, -⟩ := i.str.grown b n hl
    simp only at g1
    refine ⟨(s2.1, { a with str := s2.2 }), 0, { v with pending := v.pending ++ b.take n }, ?_, ?_, ?_⟩
    · simp only [step, grow, g1, Res.bind]
    · simp only [StrView.see]; rw [if_pos hl]
    · exact ⟨g2, i.argc, i.argm, i.room, i.vec⟩
  | finish =>
    simp only [StrMem.step] at h1
    simp only [StrView.see, Option.some.injEq] at h2
    obtain ⟨a', e1, e2⟩ := i.append (b := v.pending ++ [0]) (new := r) h3 (by rw [← h2])
    exact ⟨(m1, a'), r, v', by simp only [step, finish, h1, Res.bind, e1], by simp only [StrView.see, h2], e2⟩

theorem grow_ok {h0 : Mem} {s : Mem × ArgList} {v : StrView} (i : AInv h0 s v) (b : List Byte) (n : Nat) (hl : n ≤ b.length) :
    ∃ s', grow s.1 s.2 b n = .ok s' ∧ AInv h0 s' { v with pending := v.pending ++ b.take n } := by
  obtain ⟨s2, top, rest, g1, g2, -⟩ := i.str.grown b n hl
  simp only at g1
  exact ⟨(s2.1, { s.2 with str := s2.2 }), by simp only [grow, g1, Res.bind], ⟨g2, i.argc, i.argm, i.room, i.vec⟩⟩

theorem finish_ok {h0 : Mem} {s : Mem × ArgList} {v : StrView} (i : AInv h0 s v) :
    ∃ s' r, finish s.1 s.2 = .ok s' ∧ AInv h0 s' { v with strings := (r, v.pending ++ [0]) :: v.strings, pending := [] } := by
  obtain ⟨s', r, v', h1, h2, h3⟩ := step_inv i .finish (by simp [StrView.see])
  simp only [StrView.see, Option.some.injEq] at h2
  rw [← h2] at h3
  simp only [step] at h1
  cases hf : finish s.1 s.2 <;> rw [hf] at h1 <;> simp [Res.bind] at h1
  subst h1
  exact ⟨_, r, rfl, h3⟩

/-- `arg_get` of every item, and of no item -/
theorem AInv.get {h0 : Mem} {s : Mem × ArgList} {v : StrView} (i : AInv h0 s v) (k : Nat) (x : Nat × List Byte)
    (hk : v.strings.reverse[k]? = some x) : Arg.get s.2 k = .ok x.1 ∧ s.1.mem x.1 = some (x.2, 0) := by
  have hlt : k < v.strings.length := by
    by_contra hc
    rw [List.getElem?_eq_none (by simp; omega)] at hk; simp at hk
  constructor
  · obtain ⟨junk, hj⟩ := i.vec
    unfold Arg.get
    rw [if_neg (by rw [i.argc]; omega)]
    unfold load
    rw [hj]
    have : (List.map (fun x => some x.1) v.strings.reverse ++ some 0 :: junk)[(k : Int).toNat]? = some (some x.1) := by
      rw [List.getElem?_append_left (by simp; omega), List.getElem?_map]
      simp only [Int.toNat_natCast, hk, Option.map_some]
    rw [this]
  · have := (i.str.strs x (List.mem_reverse.1 (List.mem_of_getElem? hk))).1
    exact this

/-! ## the automaton -/

/-- the automaton on strings: `cur` is the argument being read -/
def scan (q : Nat) : St → Option (List Byte) → List Byte → List (List Byte)
  | _, cur, [] => cur.toList
  | s, cur, c :: t =>
    let x := table s (charType q c)
    let next := match x.2 with | .st s' => s' | _ => s
    match x.1 with
    | .incl => scan q next (some (cur.getD [] ++ [c])) t
    | .skip => scan q next (some (cur.getD [])) t
    | .finish => cur.toList ++ scan q next none t

theorem charType_null (q : Nat) (c : Byte) : charType q c = .null ↔ c = 0 := by
  unfold charType
  constructor
  · intro h
    repeat' split at h
    all_goals first | assumption | simp at h
  · rintro rfl
    simp

/-- the automaton goes on exactly when the character is not NUL -/
theorem table_next (s : St) (ct : CT) : (∃ s', (table s ct).2 = .st s') ↔ ct ≠ .null := by
  cases s <;> cases ct <;> simp [table]

theorem table_null (s : St) : (table s .null).1 = .finish := by cases s <;> rfl

/-- what `last` and the pieces grown so far stand for -/
def Cur (string : List Byte) (pt : Nat) (last : Option Nat) (pending : List Byte) (cur : Option (List Byte)) : Prop :=
  (last = none → pending = [] ∧ cur = none) ∧
  (∀ l, last = some l → l ≤ pt ∧ cur = some (pending ++ (string.drop l).take (pt - l)))

theorem act_ok {h0 : Mem} {σ : Mem × ArgList} {v : StrView} (i : AInv h0 σ v) {string : List Byte} {pt : Nat}
    {last : Option Nat} {cur : Option (List Byte)} (hc : Cur string pt last v.pending cur) {c : Byte}
    (hp : string[pt]? = some c) (a : Act) :
    ∃ last' σ' v', act string pt last σ a = .ok (last', σ') ∧ AInv h0 σ' v' ∧
      v'.strings.map Prod.snd = (match a with | .finish => (cur.toList.map (· ++ [0])) | _ => []) ++ v.strings.map Prod.snd ∧
      Cur string (pt + 1) last' v'.pending
        (match a with | .incl => some (cur.getD [] ++ [c]) | .skip => some (cur.getD []) | .finish => none) := by
  have hlt : pt < string.length := by
    by_contra h
    rw [List.getElem?_eq_none (by omega)] at hp; simp at hp
  cases a with
  | incl =>
    refine ⟨some (last.getD pt), σ, v, rfl, i, by simp, by simp, ?_⟩
    intro l hl
    simp only [Option.some.injEq] at hl
    cases last with
    | none =>
      obtain ⟨h1, h2⟩ := hc.1 rfl
      simp only [Option.getD_none] at hl
      subst hl
      refine ⟨by omega, ?_⟩
      rw [h1, h2]
      have : (string.drop pt).take (pt + 1 - pt) = [c] := by
        rw [Nat.add_sub_cancel_left, List.take_one, List.head?_drop, hp]; rfl
      rw [this]; simp
    | some l' =>
      obtain ⟨h1, h2⟩ := hc.2 l' rfl
      simp only [Option.getD_some] at hl
      subst hl
      refine ⟨by omega, ?_⟩
      rw [h2]
      have : (string.drop l').take (pt + 1 - l') = (string.drop l').take (pt - l') ++ [c] := by
        have : pt + 1 - l' = (pt - l') + 1 := by omega
        rw [this, List.take_add_one, List.getElem?_drop]
        have : l' + (pt - l') = pt := by omega
        rw [this, hp]; rfl
      rw [this]; simp
  | skip =>
    cases last with
    | none =>
      obtain ⟨h1, h2⟩ := hc.1 rfl
      refine ⟨some (pt + 1), σ, v, rfl, i, by simp, by simp, ?_⟩
      intro l hl
      simp only [Option.some.injEq] at hl
      subst hl
      simp [h1, h2]
    | some l =>
      obtain ⟨h1, h2⟩ := hc.2 l rfl
      obtain ⟨σ', e1, e2⟩ := grow_ok i (string.drop l) (pt - l) (by simp; omega)
      refine ⟨some (pt + 1), σ', _, by simp only [act, e1, Res.bind], e2, by simp, by simp, ?_⟩
      intro l' hl
      simp only [Option.some.injEq] at hl
      subst hl
      simp [h2]
  | finish =>
    cases last with
    | none =>
      obtain ⟨h1, h2⟩ := hc.1 rfl
      exact ⟨none, σ, v, rfl, i, by simp [h2], by simp [h1], by simp⟩
    | some l =>
      obtain ⟨h1, h2⟩ := hc.2 l rfl
      obtain ⟨σ', e1, e2⟩ := grow_ok i (string.drop l) (pt - l) (by simp; omega)
      obtain ⟨σ'', r, f1, f2⟩ := finish_ok e2
      exact ⟨none, σ'', _, by simp only [act, e1, f1, Res.bind], f2, by simp [h2], by simp, by simp⟩

theorem loop_ok {h0 : Mem} (q : Nat) {string junk : List Byte} (t : List Byte) :
    ∀ {σ : Mem × ArgList} {v : StrView} {pt : Nat} {s : St} {last : Option Nat} {cur : Option (List Byte)},
    AInv h0 σ v → (0 : Byte) ∉ t → Cur string pt last v.pending cur → string.drop pt = t ++ 0 :: junk →
    ∃ σ' v', loop q string (t ++ 0 :: junk) pt s last σ = .ok σ' ∧ AInv h0 σ' v' ∧
      v'.strings.map Prod.snd = ((scan q s cur t).map (· ++ [0])).reverse ++ v.strings.map Prod.snd := by
  induction t with
  | nil =>
    intro σ v pt s last cur i _ hc hd
    have hp : string[pt]? = some 0 := by
      rw [← List.head?_drop, hd]; rfl
    have hct : charType q 0 = .null := (charType_null q 0).2 rfl
    obtain ⟨last', σ', v', e1, e2, e3, -⟩ := act_ok i hc hp .finish
    refine ⟨σ', v', ?_, e2, ?_⟩
    · simp only [List.nil_append, loop, hct, table_null, e1, Res.bind]
      cases s <;> rfl
    · rw [e3]
      simp only [scan]
      cases cur <;> simp
  | cons c t ih =>
    intro σ v pt s last cur i hn hc hd
    rw [List.mem_cons, not_or] at hn
    have hp : string[pt]? = some c := by
      rw [← List.head?_drop, hd]; rfl
    have hd' : string.drop (pt + 1) = t ++ 0 :: junk := by
      rw [← List.tail_drop, hd]; rfl
    obtain ⟨s', hs'⟩ := (table_next s (charType q c)).2 (fun h => hn.1 ((charType_null q c).1 h).symm)
    obtain ⟨last', σ', v', e1, e2, e3, e4⟩ := act_ok i hc hp (table s (charType q c)).1
    obtain ⟨σ'', v'', f1, f2, f3⟩ := ih (s := s') e2 hn.2 e4 hd'
    refine ⟨σ'', v'', ?_, f2, ?_⟩
    · simp only [List.cons_append, loop, e1, Res.bind, hs']
      rw [if_pos (Ne.symm hn.1)]
      exact f1
    · rw [f3, e3]
      simp only [scan, hs']
      cases (table s (charType q c)).1 with
      | incl => simp
      | skip => simp
      | finish => cases cur <;> simp

theorem argify_ok (h0 : Mem) (ok0 : h0.Ok) (q : Nat) (t junk : List Byte) (ht : (0 : Byte) ∉ t) :
    ∃ σ v, argify h0 (t ++ 0 :: junk) q = .ok σ ∧ AInv h0 σ v ∧
      v.strings.reverse.map Prod.snd = (scan q .spaces none t).map (· ++ [0]) := by
  obtain ⟨σ', v', h1, h2, h3⟩ := loop_ok q (string := t ++ 0 :: junk) (junk := junk) t (s := .spaces) (last := none) (cur := none)
    (pt := 0) (create_inv h0 ok0) ht ⟨fun _ => ⟨rfl, rfl⟩, by simp⟩ rfl
  refine ⟨σ', v', h1, h2, ?_⟩
  rw [List.map_reverse, h3]
  simp

/-! ## the grammar -/

/-- the style given by the bits -/
def styleOf (q : Nat) : Style := { escape := !q.testBit 0, quote := !q.testBit 1 }

theorem ct_blank (q : Nat) {c : Byte} (h : isBlank c = true) : charType q c = .space := by
  simp only [isBlank, List.contains_cons, List.contains_nil, Bool.or_false, Bool.or_eq_true, beq_iff_eq] at h
  unfold charType
  rcases h with h | h | h | h | h <;> subst h <;> simp

theorem ct_plain (q : Nat) {c : Byte} (h : (Part.plain c).Ok (styleOf q)) : charType q c = .other := by
  obtain ⟨h1, h2, h3, h4⟩ := h
  simp only [isBlank, List.contains_cons, List.contains_nil, Bool.or_false, Bool.or_eq_false_iff, beq_eq_false_iff_ne] at h2
  simp only [styleOf, Bool.not_eq_true', isQuote, Bool.or_eq_false_iff, beq_eq_false_iff_ne] at h3 h4
  unfold charType
  split
  · rename_i h
    split
    · rfl
    · rename_i hq; exact absurd h (h3 (by simpa using hq)).1
  split
  · rename_i h
    split
    · rfl
    · rename_i hq; exact absurd h (h3 (by simpa using hq)).2
  split
  · rename_i h
    split
    · rfl
    · rename_i hq; exact absurd h (h4 (by simpa using hq))
  simp [h2]

theorem ct_bs (q : Nat) (h : (styleOf q).escape = true) : charType q 92 = .bs := by
  simp only [styleOf, Bool.not_eq_true'] at h
  unfold charType
  simp [h]

/-- the state inside a quote -/
def quoteSt (d : Byte) : St := if d = 34 then .inDQ else .inSQ

theorem isQuote_cases {d : Byte} (h : isQuote d = true) : d = 34 ∨ d = 39 := by
  simpa [isQuote] using h

theorem ct_quote (q : Nat) {d : Byte} (hq : (styleOf q).quote = true) (h : isQuote d = true) :
    charType q d = if d = 34 then .dq else .sq := by
  simp only [styleOf, Bool.not_eq_true'] at hq
  rcases isQuote_cases h with rfl | rfl <;> simp [charType, hq]

theorem ct_dq (q : Nat) {c : Byte} (h : charType q c = .dq) : c = 34 := by
  unfold charType at h
  repeat' split at h
  all_goals first | assumption | simp at h

theorem ct_sq (q : Nat) {c : Byte} (h : charType q c = .sq) : c = 39 := by
  unfold charType at h
  repeat' split at h
  all_goals first | assumption | simp at h

/-- between words or inside one, outside quotes -/
def Outside (s : St) : Prop := s = .spaces ∨ s = .inTok

theorem scan_body (q : Nat) {d : Byte} (hd : isQuote d = true) (body : List Byte) :
    ∀ (w t : List Byte), d ∉ body → (0 : Byte) ∉ body →
    scan q (quoteSt d) (some w) (body ++ t) = scan q (quoteSt d) (some (w ++ body)) t := by
  induction body with
  | nil => intro w t _ _; simp
  | cons c body ih =>
    intro w t h1 h2
    rw [List.mem_cons, not_or] at h1 h2
    have hnull : charType q c ≠ .null := fun h => h2.1 ((charType_null q c).1 h).symm
    have hx : table (quoteSt d) (charType q c) = (.incl, .st (quoteSt d)) := by
      rcases isQuote_cases hd with rfl | rfl
      · have : charType q c ≠ .dq := fun h => h1.1 (ct_dq q h).symm
        simp only [quoteSt, if_true]
        cases hct : charType q c <;> simp_all [table]
      · have : charType q c ≠ .sq := fun h => h1.1 (ct_sq q h).symm
        have hne : ¬ (39 : Byte) = 34 := by decide
        simp only [quoteSt, if_neg hne]
        cases hct : charType q c <;> simp_all [table]
    rw [List.cons_append]
    conv => lhs; unfold scan
    simp only [hx, Option.getD_some]
    rw [ih _ _ h1.2 h2.2]
    simp

/-- reading the start of a quoted part -/
theorem scan_open (q : Nat) {d : Byte} (hq : (styleOf q).quote = true) (hd : isQuote d = true) {s : St} (hs : Outside s)
    (cur : Option (List Byte)) (t : List Byte) : scan q s cur (d :: t) = scan q (quoteSt d) (some (cur.getD [])) t := by
  conv => lhs; unfold scan
  rw [ct_quote q hq hd]
  rcases isQuote_cases hd with rfl | rfl
  · rcases hs with rfl | rfl <;> simp [table, quoteSt]
  · have hne : ¬ (39 : Byte) = 34 := by decide
    rcases hs with rfl | rfl <;> simp [table, quoteSt, hne]

theorem scan_part (q : Nat) (p : Part) (hp : p.Ok (styleOf q)) {s : St} (hs : Outside s) (cur : Option (List Byte))
    (t : List Byte) :
    ∃ s', Outside s' ∧ scan q s cur (p.src ++ t) = scan q s' (some (cur.getD [] ++ p.val)) t := by
  cases p with
  | plain c =>
    refine ⟨.inTok, Or.inr rfl, ?_⟩
    simp only [Part.src, Part.val, List.cons_append, List.nil_append]
    conv => lhs; unfold scan
    rw [ct_plain q hp]
    rcases hs with rfl | rfl <;> simp [table]
  | escaped c =>
    obtain ⟨h1, h2⟩ := hp
    refine ⟨.inTok, Or.inr rfl, ?_⟩
    simp only [Part.src, Part.val, List.cons_append, List.nil_append]
    conv => lhs; unfold scan
    rw [ct_bs q h2]
    have hx : table .inTokBS (charType q c) = (.incl, .st .inTok) := by
      have hnull : charType q c ≠ .null := fun h => h1 ((charType_null q c).1 h)
      cases hct : charType q c <;> simp_all [table]
    rcases hs with rfl | rfl
    · simp only [table]
      conv => lhs; unfold scan
      simp [hx]
    · simp only [table]
      conv => lhs; unfold scan
      simp [hx]
  | quoted d body =>
    obtain ⟨h1, h2, h3, h4⟩ := hp
    refine ⟨.spaces, Or.inl rfl, ?_⟩
    simp only [Part.src, Part.val, List.cons_append, List.append_assoc]
    rw [scan_open q h1 h2 hs, scan_body q h2 _ _ _ h3 h4]
    simp only [List.nil_append]
    conv => lhs; unfold scan
    rw [ct_quote q h1 h2]
    rcases isQuote_cases h2 with rfl | rfl <;> simp [table, quoteSt]

theorem scan_parts (q : Nat) (ps : List Part) : (∀ p ∈ ps, p.Ok (styleOf q)) →
    ∀ {s : St}, Outside s → ∀ (w t : List Byte),
    ∃ s', Outside s' ∧ scan q s (some w) (srcs ps ++ t) = scan q s' (some (w ++ vals ps)) t := by
  induction ps with
  | nil => intro _ s hs w t; exact ⟨s, hs, by simp [srcs, vals]⟩
  | cons p ps ih =>
    intro hp s hs w t
    obtain ⟨s1, h1, h2⟩ := scan_part q p (hp p (by simp)) hs (some w) (srcs ps ++ t)
    obtain ⟨s2, h3, h4⟩ := ih (fun p h => hp p (by simp [h])) h1 (w ++ p.val) t
    refine ⟨s2, h3, ?_⟩
    simp only [Option.getD_some] at h2
    have e1 : srcs (p :: ps) ++ t = p.src ++ (srcs ps ++ t) := by simp [srcs]
    have e2 : w ++ vals (p :: ps) = w ++ p.val ++ vals ps := by simp [vals]
    rw [e1, h2, h4, e2]

/-- the parts read so far, if any -/
def begun (ps : List Part) : Option (List Byte) := if ps = [] then none else some (vals ps)

theorem scan_word (q : Nat) (ps : List Part) (hp : ∀ p ∈ ps, p.Ok (styleOf q)) {s : St} (hs : Outside s)
    (t : List Byte) : ∃ s', Outside s' ∧ scan q s none (srcs ps ++ t) = scan q s' (begun ps) t := by
  cases ps with
  | nil => exact ⟨s, hs, by simp [srcs, begun]⟩
  | cons p ps =>
    obtain ⟨s1, h1, h2⟩ := scan_part q p (hp p (by simp)) hs none (srcs ps ++ t)
    obtain ⟨s2, h3, h4⟩ := scan_parts q ps (fun p h => hp p (by simp [h])) h1 p.val t
    refine ⟨s2, h3, ?_⟩
    simp only [Option.getD_none, List.nil_append] at h2
    have e1 : srcs (p :: ps) ++ t = p.src ++ (srcs ps ++ t) := by simp [srcs]
    have e2 : vals (p :: ps) = p.val ++ vals ps := by simp [vals]
    rw [e1, h2, h4]
    simp [begun, e2]

theorem scan_blank (q : Nat) {b : Byte} (hb : isBlank b = true) {s : St} (hs : Outside s) (cur : Option (List Byte))
    (t : List Byte) : scan q s cur (b :: t) = cur.toList ++ scan q .spaces none t := by
  conv => lhs; unfold scan
  rw [ct_blank q hb]
  rcases hs with rfl | rfl <;> simp [table]

/-- a text split by the rules is read that way -/
theorem scan_splits (q : Nat) {text : List Byte} {items : List (List Byte)} (h : Splits (styleOf q) text items) :
    ∀ {s : St}, Outside s → scan q s none text = items := by
  induction h with
  | nil => intro s _; simp [scan]
  | blank b t items hb _ ih =>
    intro s hs
    rw [scan_blank q hb hs, ih (Or.inl rfl)]
    simp
  | word ps t items hne hp hh _ ih =>
    intro s hs
    obtain ⟨s', h1, h2⟩ := scan_word q ps hp hs t
    rw [h2]
    simp only [begun, if_neg hne]
    cases t with
    | nil =>
      have := ih (Or.inl rfl : Outside .spaces)
      simp only [scan, Option.toList] at this
      simp [scan, ← this]
    | cons b t =>
      have hb := hh b rfl
      rw [scan_blank q hb h1]
      have := ih (Or.inl rfl : Outside .spaces)
      rw [scan_blank q hb (Or.inl rfl)] at this
      simp only [Option.toList_none, List.nil_append] at this
      simp [this]
  | openEscape ps hp he =>
    intro s hs
    obtain ⟨s', h1, h2⟩ := scan_word q ps hp hs [92]
    rw [h2]
    conv => lhs; unfold scan
    rw [ct_bs q he]
    have hv : (begun ps).getD [] = vals ps := by
      unfold begun
      split
      · rename_i h; subst h; rfl
      · rfl
    rcases h1 with rfl | rfl <;> simp [table, scan, hv]
  | openQuote ps d body hp hq hd h3 h4 =>
    intro s hs
    obtain ⟨s', h1, h2⟩ := scan_word q ps hp hs (d :: body)
    rw [h2, scan_open q hq hd h1]
    have := scan_body q hd body ((begun ps).getD []) [] h3 h4
    rw [List.append_nil] at this
    rw [this]
    have hv : (begun ps).getD [] = vals ps := by
      unfold begun
      split
      · rename_i h; subst h; rfl
      · rfl
    simp [scan, hv]

/-- a text without its first character, or what is left after a part, is shorter -/
theorem split_at (d : Byte) (t : List Byte) : d ∉ t ∨ ∃ body rest, t = body ++ d :: rest ∧ d ∉ body := by
  induction t with
  | nil => simp
  | cons c t ih =>
    by_cases hc : c = d
    · exact Or.inr ⟨[], t, by simp [hc], by simp⟩
    · rcases ih with h | ⟨body, rest, h1, h2⟩
      · exact Or.inl (by simp [Ne.symm hc, h])
      · exact Or.inr ⟨c :: body, rest, by simp [h1], by simp [Ne.symm hc, h2]⟩

/-- Every text is split somehow: `pre` are the parts of the word being read. -/
theorem splits_total (st : Style) (n : Nat) : ∀ (text : List Byte) (ps : List Part), text.length < n → (0 : Byte) ∉ text →
    (∀ p ∈ ps, p.Ok st) → ∃ items, Splits st (srcs ps ++ text) items := by
  induction n with
  | zero => intro text ps h; omega
  | succ n ih =>
    intro text ps hlen h0 hps
    cases text with
    | nil =>
      by_cases hne : ps = []
      · subst hne; exact ⟨[], Splits.nil⟩
      · exact ⟨_, Splits.word ps [] [] hne hps (by simp) Splits.nil⟩
    | cons c t =>
      simp only [List.length_cons] at hlen
      rw [List.mem_cons, not_or] at h0
      have next : ∀ (p : Part) (t' : List Byte), p.Ok st → c :: t = p.src ++ t' → t'.length < n → (0 : Byte) ∉ t' →
          ∃ items, Splits st (srcs ps ++ c :: t) items := by
        intro p t' hp he hl h0'
        obtain ⟨items, hi⟩ := ih t' (ps ++ [p]) hl h0' (by
          intro x hx
          rcases List.mem_append.1 hx with h | h
          · exact hps x h
          · rw [List.mem_singleton.1 h]; exact hp)
        refine ⟨items, ?_⟩
        rw [he]
        simpa [srcs] using hi
      by_cases hb : isBlank c = true
      · obtain ⟨items, hi⟩ := ih t [] (by omega) h0.2 (by simp)
        have hi' : Splits st (c :: t) items := Splits.blank c t items hb (by simpa [srcs] using hi)
        by_cases hne : ps = []
        · subst hne; exact ⟨items, by simpa [srcs] using hi'⟩
        · exact ⟨_, Splits.word ps _ _ hne hps (by intro b hb'; simp at hb'; rw [← hb']; exact hb) hi'⟩
      · by_cases hq : st.quote = true ∧ isQuote c = true
        · rcases split_at c t with h | ⟨body, rest, h1, h2⟩
          · exact ⟨_, Splits.openQuote ps c t hps hq.1 hq.2 h h0.2⟩
          · refine next (.quoted c body) rest ⟨hq.1, hq.2, h2, ?_⟩ (by simp [Part.src, h1]) ?_ ?_
            · intro h; exact h0.2 (by rw [h1]; simp [h])
            · rw [h1] at hlen; simp at hlen; omega
            · intro h; exact h0.2 (by rw [h1]; simp [h])
        · by_cases he : st.escape = true ∧ c = 92
          · obtain ⟨he, rfl⟩ := he
            cases t with
            | nil => exact ⟨_, Splits.openEscape ps hps he⟩
            | cons c' t' =>
              simp only [List.length_cons] at hlen
              rw [List.mem_cons, not_or] at h0
              exact next (.escaped c') t' ⟨Ne.symm h0.2.1, he⟩ rfl (by omega) h0.2.2
          · refine next (.plain c) t ⟨Ne.symm h0.1, by simpa using hb, ?_, ?_⟩ rfl (by omega) h0.2
            · intro h
              by_contra hc
              exact hq ⟨h, by simpa using hc⟩
            · intro h hc
              exact he ⟨h, hc⟩

/-- quoting -/
theorem splits_quoteLine (ws : List (List Byte)) : (∀ w ∈ ws, (0 : Byte) ∉ w) →
    Splits ⟨true, true⟩ (Spec.quoteLine ws) ws := by
  have one : ∀ w : List Byte, (0 : Byte) ∉ w → ∃ ps, ps ≠ [] ∧ (∀ p ∈ ps, p.Ok ⟨true, true⟩) ∧
      srcs ps = Spec.quoteArg w ∧ vals ps = w := by
    intro w hw
    by_cases hne : w = []
    · subst hne
      exact ⟨[.quoted 34 []], by simp, by simp [Part.Ok, isQuote], by simp [srcs, Part.src, Spec.quoteArg], by simp [vals, Part.val]⟩
    · refine ⟨w.map .escaped, by simpa using hne, ?_, ?_, ?_⟩
      · intro p hp
        obtain ⟨c, hc, rfl⟩ := List.mem_map.1 hp
        exact ⟨fun h => hw (h ▸ hc), rfl⟩
      · simp only [Spec.quoteArg, if_neg hne, srcs, List.flatMap_map, Part.src]
      · simp only [vals, List.flatMap_map, Part.val]
        simp
  induction ws with
  | nil => intro _; exact Splits.nil
  | cons w ws ih =>
    intro hw
    obtain ⟨ps, h1, h2, h3, h4⟩ := one w (hw w (by simp))
    have ih' := ih (fun x hx => hw x (by simp [hx]))
    cases ws with
    | nil =>
      have := Splits.word ps [] [] h1 h2 (by simp) Splits.nil
      rw [h4, h3, List.append_nil] at this
      exact this
    | cons w' ws' =>
      have := Splits.word ps (32 :: Spec.quoteLine (w' :: ws')) _ h1 h2 (by intro b hb; simp at hb; subst hb; decide)
        (Splits.blank 32 _ _ (by decide) ih')
      rw [h4, h3] at this
      exact this

end Maa.Arg
