import Verif.Props.Borrowed
import Verif.Props.Timer

/-! # Property C89, timers: names that stay in the caller's memory -/

namespace Maa.Borrowed

open HashHeap (HState HTab)
open Spec (ResRel Loans Honoured Memory stringAt Timers TimCall TimOp timLoans)

section Iterate
variable {P : Ptr → Prop} {g : Ptr → List Byte} {h : Heap (Tab.Entry Ptr Ptr)} {h' : Heap (Tab.Entry (List Byte) Ptr)} {σ : Type}

theorem iterChain_both (s : Shadow P g h h') (t : HTab) (G : σ → Ptr × Ptr → σ) (G' : σ → List Byte × Ptr → σ) (hG : ∀ st k d, G' st (g k, d) = G st (k, d))
    (n : Nat) : ∀ (pt : Nat) (st : σ),
    HashHeap.hiterChain NameTab.strOps (NameTab.quiet G') n (h', t) pt st = (iterChain G n h pt st).bind fun st => .ok ((h', t), st, 0) := by
  induction n with
  | zero => intro pt st; rfl
  | succ n ih =>
    intro pt st
    simp only [HashHeap.hiterChain, iterChain]
    by_cases e : pt = 0
    · rw [if_pos e, if_pos e]; rfl
    rw [if_neg e, if_neg e]
    have r1 := s.read pt
    cases ha : h.read pt <;> cases hb : h'.read pt <;> rw [ha, hb] at r1 <;> simp only [ResRel] at r1 <;> try rfl
    rename_i a b
    obtain ⟨rfl, -⟩ := r1
    simp only [Res.bind, NameTab.quiet, Spec.Calls.run]
    rw [if_neg (by decide), ih, show ((entry g a.1).key, (entry g a.1).datum) = (g a.1.key, a.1.datum) from rfl, hG]
    rfl

theorem iterate_both {t : Table} {t' : NameTab.Table} (b : Both P g t t') (G : σ → Ptr × Ptr → σ) (G' : σ → List Byte × Ptr → σ)
    (hG : ∀ st k d, G' st (g k, d) = G st (k, d)) (n : Nat) : ∀ (i : Nat) (st : σ), n + i = t.2.prime →
    HashHeap.hiterate NameTab.strOps (NameTab.quiet G') (n + 1) i t' st = (iterate G t (List.range' i n) st).bind fun st => .ok (t', st, 0) := by
  obtain ⟨s, e⟩ := b
  induction n with
  | zero =>
    intro i st hi
    simp only [HashHeap.hiterate, e, List.range'_zero, iterate]
    rw [if_neg (by omega)]
    rfl
  | succ n ih =>
    intro i st hi
    rw [HashHeap.hiterate, if_pos (by rw [e]; omega), List.range'_succ, iterate]
    have h1 := iterChain_both s t.2 G G' hG t.1.clock (t.2.buckets i) st
    have e2 : t' = (t'.1, t.2) := Prod.ext rfl e
    rw [← e2] at h1
    rw [s.clock, e, h1]
    cases hx : iterChain G t.1.clock t.1 (t.2.buckets i) st with
    | ok st' =>
      simp only [Res.bind]
      rw [if_neg (by decide)]
      exact ih (i + 1) st' (by omega)
    | _ => rfl

end Iterate

/-- timer.c with pointers and timer.c with characters -/
structure TLock (B : Loans) (σ : TimState) (σ' : Timer.State) : Prop where
  hash : (σ.hash = none ∧ σ'.hash = none) ∨ ∃ t t', σ.hash = some t ∧ σ'.hash = some t' ∧ Agree B t t'
  mem : σ'.mem = σ.mem
  fresh : σ'.fresh = σ.fresh

theorem TLock.init (B : Loans) : TLock B TimState.init Timer.State.init := ⟨Or.inl ⟨rfl, rfl⟩, rfl, rfl⟩

theorem TLock.check {B : Loans} {σ : TimState} {σ' : Timer.State} (h : TLock B σ σ') : ResRel (Agree B) (timCheck σ) (Timer.check σ') := by
  unfold timCheck Timer.check
  rcases h.hash with ⟨h1, h2⟩ | ⟨t, t'', h1, h2, ag⟩
  · rw [h1, h2]
    have h3 := create_both (P := fun p => (p, []) ∈ B) (g := fun _ => [])
    simp only
    cases hc : create <;> cases hc' : NameTab.create <;> rw [hc, hc'] at h3 <;> simp only [ResRel] at h3 ⊢
    exact ⟨_, h3⟩
  · rw [h1, h2]; exact ag

theorem Agree.retrieve {B : Loans} {t : Table} {t' : NameTab.Table} (ag : Agree B t t') {m : Memory} (hk : B.Kept m) {p : Ptr} {n : Option (List Byte)}
    (hn : Spec.nameAt m p = some n) :
    ResRel (fun c c' => c'.2 = c.2 ∧ Agree B c.1 c'.1) (retrieve m t p) (NameTab.retrieve t' (n.map CStr.ofStr)) := by
  unfold Borrowed.retrieve
  rcases nameAt_cases hn with ⟨rfl, rfl⟩ | ⟨s, hs, rfl⟩
  · exact trivial
  · rw [text_iff.2 hs, Option.map_some, retrieve_ofStr t' (stringAt_nul hs)]
    have h3 := retrieve_both (reads hk) (stringAt_nul hs) (ag.now hk)
    simp only [Flags.okBind]
    cases hx : retrieveKey m t s <;> cases hy : NameTab.retrieveKey t' s <;> rw [hx, hy] at h3 <;> simp only [ResRel] at h3 ⊢
    exact ⟨h3.1, _, h3.2⟩

theorem TLock.lookup {B : Loans} {σ : TimState} {σ' : Timer.State} (h : TLock B σ σ') {m : Memory} (hk : B.Kept m) {p : Ptr} {n : Option (List Byte)}
    (hn : Spec.nameAt m p = some n) :
    ResRel (fun c c' => c'.2 = c.2 ∧ TLock B c.1 c'.1) (timLookup m σ p) (Timer.lookup σ' (n.map CStr.ofStr)) := by
  unfold timLookup Timer.lookup
  refine ResRel.bind h.check ?_
  intro t t' ag
  refine ResRel.bind (ag.retrieve hk hn) ?_
  rintro q q' ⟨e, ag2⟩
  rw [e]
  by_cases c : q.2 = 0
  · rw [if_pos c, if_pos c]; trivial
  · rw [if_neg c, if_neg c]
    exact ⟨rfl, Or.inr ⟨_, _, rfl, rfl, ag2⟩, h.mem, h.fresh⟩

theorem TLock.deref {B : Loans} {σ : TimState} {σ' : Timer.State} (h : TLock B σ σ') (p : Nat) : Timer.deref σ' p = timDeref σ p := by
  unfold Timer.deref timDeref
  rw [h.mem]
  cases σ.mem p <;> rfl

theorem TLock.store {B : Loans} {σ : TimState} {σ' : Timer.State} (h : TLock B σ σ') (p : Nat) (e : Timer.Entry) :
    TLock B (timStore σ p e) (Timer.store σ' p e) := ⟨h.hash, by simp only [timStore, Timer.store, h.mem], h.fresh⟩

/-- looking a timer up and working on its entry, in both -/
theorem TLock.on {B : Loans} {σ : TimState} {σ' : Timer.State} (h : TLock B σ σ') {m : Memory} (hk : B.Kept m) {p : Ptr} {n : Option (List Byte)}
    (hn : Spec.nameAt m p = some n) {X X' : Type} (f : TimState × Nat → Timer.Entry → Res X) (f' : Timer.State × Nat → Timer.Entry → Res X') {R : X → X' → Prop}
    (hf : ∀ τ τ' a e, TLock B τ τ' → ResRel R (f (τ, a) e) (f' (τ', a) e)) {F : Res X} {F' : Res X'}
    (hF : F = (timLookup m σ p).bind fun q => (timDeref q.1 q.2).bind fun e => f q e)
    (hF' : F' = (Timer.lookup σ' (n.map CStr.ofStr)).bind fun q => (Timer.deref q.1 q.2).bind fun e => f' q e) : ResRel R F F' := by
  subst hF hF'
  refine ResRel.bind (h.lookup hk hn) ?_
  rintro ⟨τ, a⟩ ⟨τ', a'⟩ ⟨e, l⟩
  simp only at e l
  subst e
  simp only
  rw [l.deref]
  cases timDeref τ a' with
  | ok e => exact hf τ τ' a' e l
  | _ => trivial

/-- the timers, what the user knows of them, and the loans -/
def LentTim (B : Loans) (σ : TimState) (T : Timers) : Prop :=
  (∃ σ', TLock B σ σ' ∧ Timer.Sim σ' T) ∧ ∀ s, s ∈ B.map Prod.snd ↔ T s ≠ none

theorem TLock.shutdown {B : Loans} {σ : TimState} {σ' : Timer.State} (h : TLock B σ σ') {T : Timers} (sim : Timer.Sim σ' T) :
    ResRel (TLock []) (timShutdown σ) (Timer.timShutdown σ') := by
  obtain ⟨σ₁, h1, -, e1, e2, e3⟩ := Timer.shutdown_sim sim
  rw [h1]
  unfold Timer.timShutdown at h1
  unfold timShutdown
  rcases h.hash with ⟨h2, h3⟩ | ⟨t, t', h2, h3, g, ag⟩
  · rw [h2]
    rw [h3] at h1
    simp only [Res.ok.injEq] at h1
    subst h1
    exact ⟨Or.inl ⟨rfl, rfl⟩, h.mem, h.fresh⟩
  rw [h2]
  rw [h3] at h1
  simp only at h1 ⊢
  have h4 := iterate_both ag timFreer Timer.timFreer (fun st k d => by unfold Timer.timFreer timFreer; rfl) t.2.prime 0 (.ok σ.mem) (by omega)
  unfold NameTab.iterate at h1
  rw [h.mem, ag.2, h4, ← List.range_eq_range'] at h1
  have h5 := destroy_both ag
  cases hi : iterate timFreer t (List.range t.2.prime) (.ok σ.mem) <;> rw [hi] at h1 <;> simp only [Res.bind] at h1 <;> try cases h1
  rename_i out
  cases out <;> simp only at h1 <;> try cases h1
  rename_i mem
  cases hd : Borrowed.destroy t <;> cases hd' : NameTab.destroy t' <;> rw [hd, hd'] at h5 <;> simp only [ResRel] at h5 <;> rw [hd'] at h1 <;>
    simp only [reduceCtorEq, Res.ok.injEq] at h1
  subst h1
  simp only [Res.bind]
  exact ⟨Or.inl ⟨rfl, rfl⟩, rfl, h.fresh⟩

theorem TLock.start {B : Loans} {σ : TimState} {σ' : Timer.State} (h : TLock B σ σ') {T : Timers} (sim : Timer.Sim σ' T)
    (hl : ∀ s, s ∈ B.map Prod.snd ↔ T s ≠ none) {m : Memory} (hk : B.Kept m) {p : Ptr} {n : Option (List Byte)}
    (hn : Spec.nameAt m p = some n) (r : Spec.Reading) :
    ResRel (TLock (B.lend m p)) (timStart m σ p r) (Timer.timStart σ' (n.map CStr.ofStr) r) := by
  obtain ⟨M, t', c1, nr, rep⟩ := Timer.check_sim sim
  unfold timStart Timer.timStart
  have c2 := h.check
  rw [c1] at c2 ⊢
  cases ct : timCheck σ <;> rw [ct] at c2 <;> simp only [ResRel] at c2
  rename_i t
  simp only [Flags.okBind]
  rcases nameAt_cases hn with ⟨rfl, rfl⟩ | ⟨s, hs, rfl⟩
  · exact trivial
  have hz := stringAt_nul hs
  have h4 := c2.retrieve hk hn
  obtain ⟨t₂', h5, nr2⟩ := nr.retrieve hz []
  have h5' : NameTab.retrieve t' (some (CStr.ofStr s)) = _ := h5
  simp only [Option.map_some] at h4 ⊢
  rw [h5'] at h4 ⊢
  cases hr : Borrowed.retrieve m t p <;> rw [hr] at h4 <;> simp only [ResRel] at h4
  rename_i q
  obtain ⟨e4, ag⟩ := h4
  simp only [Flags.okBind]
  rw [← e4]
  have hfind := rep.find s
  cases hf : Spec.find (· == ·) M s with
  | none =>
    rw [hf] at hfind
    simp only [Option.getD_none, if_true]
    obtain ⟨t₃', h6, -⟩ := nr2.insert hz [] σ'.fresh
    have h6' : NameTab.insert t₂' (some (CStr.ofStr s)) σ'.fresh = _ := h6
    have e1 : NameTab.insert t₂' (some (CStr.ofStr s)) σ'.fresh = NameTab.insertKey t₂' s σ'.fresh := by
      unfold NameTab.insert NameTab.argKey
      simp only
      rw [CStr.cstr_ofStr s hz]; rfl
    have h7 := ag.insert hk hs σ'.fresh (by
      intro _ _ hc
      exact (hl s).1 hc hfind)
    rw [e1, ← h.fresh]
    refine ResRel.bind h7 ?_
    rintro a b ⟨-, ag3⟩
    refine ⟨Or.inr ⟨_, _, rfl, rfl, ag3⟩, ?_, rfl⟩
    simp only [Timer.store, timStore, h.mem]
  | some d =>
    rw [hf] at hfind
    obtain ⟨hd, e, h6, h7⟩ := hfind
    simp only [Option.getD_some, if_neg hd]
    have hB : B.lend m p = B := by
      simp only [Loans.lend, hs]
      rw [if_pos ((hl s).2 (by rw [h7]; simp))]
    rw [hB]
    have l3 : TLock B { σ with hash := some q.1 } { σ' with hash := some t₂' } := ⟨Or.inr ⟨_, _, rfl, rfl, ag⟩, h.mem, h.fresh⟩
    rw [h.deref]
    cases timDeref σ d with
    | ok e => exact l3.store _ _
    | _ => trivial

theorem TLock.step {B : Loans} {σ : TimState} {σ' : Timer.State} (h : TLock B σ σ') {T : Timers} (sim : Timer.Sim σ' T)
    (hl : ∀ s, s ∈ B.map Prod.snd ↔ T s ≠ none) {m : Memory} (hk : B.Kept m) {o : TimCall} {o' : TimOp} (ho : o.spelled m = some o') :
    ResRel (fun c c' => c.2 = c'.2 ∧ TLock (timLoans B m o) c.1 c'.1) (timStep σ (m, o)) (Timer.step σ' o') := by
  cases o with
  | start p r =>
    simp only [TimCall.spelled, Option.map_eq_some_iff] at ho
    obtain ⟨n, hn, rfl⟩ := ho
    refine ResRel.bind (h.start sim hl hk hn r) ?_
    intro a b hab
    exact ⟨rfl, hab⟩
  | stop p r =>
    simp only [TimCall.spelled, Option.map_eq_some_iff] at ho
    obtain ⟨n, hn, rfl⟩ := ho
    refine h.on hk hn (fun q e => .ok (timStore q.1 q.2 _, 0)) (fun q e => .ok (Timer.store q.1 q.2 _, 0)) ?_
      (by simp only [timStep, timStop, Timer.bind_assoc']; rfl) (by simp only [Timer.step, Timer.timStop, Timer.bind_assoc']; rfl)
    intro τ τ' a e l
    exact ⟨rfl, l.store _ _⟩
  | reset p =>
    simp only [TimCall.spelled, Option.map_eq_some_iff] at ho
    obtain ⟨n, hn, rfl⟩ := ho
    refine h.on hk hn (fun q e => .ok (timStore q.1 q.2 _, 0)) (fun q e => .ok (Timer.store q.1 q.2 _, 0)) ?_
      (by simp only [timStep, timReset, Timer.bind_assoc']; rfl) (by simp only [Timer.step, Timer.timReset, Timer.bind_assoc']; rfl)
    intro τ τ' a e l
    exact ⟨rfl, l.store _ _⟩
  | getReal p =>
    simp only [TimCall.spelled, Option.map_eq_some_iff] at ho
    obtain ⟨n, hn, rfl⟩ := ho
    refine h.on hk hn (fun q e => .ok (q.1, e.real)) (fun q e => .ok (q.1, e.real)) ?_ rfl rfl
    exact fun τ τ' a e l => ⟨rfl, l⟩
  | getUser p =>
    simp only [TimCall.spelled, Option.map_eq_some_iff] at ho
    obtain ⟨n, hn, rfl⟩ := ho
    refine h.on hk hn (fun q e => .ok (q.1, e.self_user + e.children_user)) (fun q e => .ok (q.1, e.self_user + e.children_user))
      ?_ rfl rfl
    exact fun τ τ' a e l => ⟨rfl, l⟩
  | getSystem p =>
    simp only [TimCall.spelled, Option.map_eq_some_iff] at ho
    obtain ⟨n, hn, rfl⟩ := ho
    refine h.on hk hn (fun q e => .ok (q.1, e.self_system + e.children_system)) (fun q e => .ok (q.1, e.self_system + e.children_system))
      ?_ rfl rfl
    exact fun τ τ' a e l => ⟨rfl, l⟩
  | shutdown =>
    simp only [TimCall.spelled, Option.some.injEq] at ho
    subst ho
    refine ResRel.bind (h.shutdown sim) ?_
    intro a b hab
    exact ⟨rfl, hab⟩

theorem on_names {T : Timers} {n : Option (List Byte)} {k : List Byte → Spec.Timer → Res (Timers × Int)} {r : Timers × Int} (h : T.on n k = .ok r)
    (hk : ∀ n t r, T n = some t → k n t = .ok r → ∀ s, r.1 s ≠ none ↔ T s ≠ none) : ∀ s, r.1 s ≠ none ↔ T s ≠ none := by
  unfold Timers.on at h
  cases n with
  | none => cases h
  | some n =>
    simp only at h
    cases hT : T n with
    | none => rw [hT] at h; cases h
    | some t => rw [hT] at h; exact hk n t r hT h

theorem set_names {T : Timers} {n : List Byte} {t : Spec.Timer} (hT : T n = some t) (t' : Spec.Timer) : ∀ s, (T.set n t') s ≠ none ↔ T s ≠ none := by
  intro s
  simp only [Timers.set]
  by_cases e : s = n
  · subst e; simp [hT]
  · rw [if_neg e]

theorem timStep_loans {B : Loans} {T : Timers} (hl : ∀ s, s ∈ B.map Prod.snd ↔ T s ≠ none) {m : Memory} {o : TimCall} {o' : TimOp}
    (ho : o.spelled m = some o') {d : Spec.Timeval → Spec.Timeval → Int} {r : Timers × Int} (h : Spec.timStep d T o' = .ok r) :
    ∀ s, s ∈ (timLoans B m o).map Prod.snd ↔ r.1 s ≠ none := by
  cases o with
  | start p rd =>
    simp only [TimCall.spelled, Option.map_eq_some_iff] at ho
    obtain ⟨n, hn, rfl⟩ := ho
    rcases nameAt_cases hn with ⟨rfl, rfl⟩ | ⟨s, hs, rfl⟩
    · cases h
    simp only [Spec.timStep] at h
    simp only [timLoans, Loans.lend, hs]
    intro s'
    cases hT : T s with
    | none =>
      rw [hT] at h
      simp only [Res.ok.injEq] at h
      rw [if_neg (fun hc => (hl s).1 hc hT), ← h]
      simp only [List.map_cons, List.mem_cons, Timers.set]
      rw [hl s']
      by_cases e : s' = s
      · simp [e]
      · simp [e]
    | some t =>
      rw [hT] at h
      simp only [Res.ok.injEq] at h
      rw [if_pos ((hl s).2 (by rw [hT]; simp)), ← h, hl s']
      exact (set_names hT _ s').symm
  | stop p rd =>
    simp only [TimCall.spelled, Option.map_eq_some_iff] at ho
    obtain ⟨n, hn, rfl⟩ := ho
    intro s
    refine (hl s).trans (on_names h ?_ s).symm
    intro n t r hT hr
    simp only [Res.ok.injEq] at hr
    rw [← hr]; exact set_names hT _
  | reset p =>
    simp only [TimCall.spelled, Option.map_eq_some_iff] at ho
    obtain ⟨n, hn, rfl⟩ := ho
    intro s
    refine (hl s).trans (on_names h ?_ s).symm
    intro n t r hT hr
    simp only [Res.ok.injEq] at hr
    rw [← hr]; exact set_names hT _
  | getReal p | getUser p | getSystem p =>
    simp only [TimCall.spelled, Option.map_eq_some_iff] at ho
    obtain ⟨n, hn, rfl⟩ := ho
    intro s
    refine (hl s).trans (on_names h ?_ s).symm
    intro n t r hT hr
    simp only [Res.ok.injEq] at hr
    rw [← hr]; exact fun s => Iff.rfl
  | shutdown =>
    simp only [TimCall.spelled, Option.some.injEq] at ho
    subst ho
    simp only [Spec.timStep, Res.ok.injEq] at h
    intro s
    rw [← h]
    simp [timLoans]

theorem timStep_lent {B : Loans} {σ : TimState} {T : Timers} {m : Memory} {o : TimCall} {o' : TimOp} (h : LentTim B σ T) (hk : B.Kept m)
    (ho : o.spelled m = some o') (hp : o'.Proper) :
    ResRel (fun c b => c.2 = b.2 ∧ LentTim (timLoans B m o) c.1 b.1) (timStep σ (m, o)) (Spec.timStep Timer.difftime T o') := by
  obtain ⟨⟨σ', l, sim⟩, hl⟩ := h
  have h1 := l.step sim hl hk ho
  have h2 := Timer.step_sim σ' T o' hp sim
  have h3 : ∀ r, Spec.timStep Timer.difftime T o' = .ok r → _ := fun r hr => timStep_loans hl ho hr
  cases hx : timStep σ (m, o) <;> cases hy : Timer.step σ' o' <;> rw [hx, hy] at h1 <;> simp only [ResRel] at h1 <;>
    cases hz : Spec.timStep Timer.difftime T o' <;> rw [hy, hz] at h2 <;> simp only [ResRel] at h2 ⊢
  exact ⟨h1.1.trans h2.1, ⟨_, h1.2, h2.2⟩, h3 _ hz⟩

/-- C89, timer.c: names given to `tim_start` by address, in a program that may write to its memory between any two calls as long as the name with which
each timer was first started stays as it is until the timers are shut down.  Every history of calls returns what it returns with the names given by
contents, which C44 describes. -/
theorem C89_timers (hist : List (Memory × TimCall)) (hist' : List TimOp) (strings : hist.map (fun x => x.2.spelled x.1) = hist'.map some)
    (proper : ∀ o ∈ hist', o.Proper) (kept : Honoured timLoans [] hist) :
    Spec.observe (Spec.run timStep TimState.init hist) = Spec.observe (Spec.run (Spec.timStep Timer.difftime) (fun _ => none) hist') := by
  exact ResRel.observe (R := fun c b => ∃ B, LentTim B c b)
    (run_loans (R := LentTim) (P := TimOp.Proper) (fun B s a m o o' h hk ho hp => timStep_lent h hk ho hp) hist hist' [] _ _
      ⟨⟨_, TLock.init _, Timer.Sim.init⟩, by simp⟩ kept strings proper)

/-- Non-vacuity for `C89_timers`: one timer, started again and asked through a buffer that is reused, and one that was never started. -/
example : let r : Nat → Spec.Reading := fun n => ⟨⟨n, 0⟩, ⟨n, 0⟩, ⟨0, 0⟩, ⟨0, 0⟩, ⟨0, 0⟩⟩
    let h : List (Memory × TimCall) := [(memOf [(100, [97])], .start 100 (r 1)), (memOf [(100, [97]), (200, [97])], .start 200 (r 3)),
      (memOf [(100, [97]), (200, [97])], .stop 200 (r 10)), (memOf [(100, [97]), (200, [97])], .getReal 200), (memOf [(100, [97]), (200, [120])], .shutdown),
      (memOf [(100, [98])], .start 100 (r 1)), (memOf [(100, [98])], .getUser 100)]
    h.map (fun x => (x.2.spelled x.1).isSome) = [true, true, true, true, true, true, true] ∧ Honoured timLoans [] h ∧
    Spec.observe (Spec.run timStep TimState.init h) = .ok [0, 0, 0, 7, 0, 0, 0] := by
  refine ⟨by decide +kernel, ?_, by decide +kernel⟩
  simp only [Honoured, timLoans, Loans.Kept]
  decide +kernel

/-- C89: two timers started from one buffer ("a", then "b" in the same place): the first one is lost, although it was started. -/
theorem C89_timers_one_buffer_refuted (r : Spec.Reading) :
    Spec.observe (Spec.run timStep TimState.init [(memOf [(100, [97])], .start 100 r), (memOf [(100, [98])], .start 100 r),
      (memOf [(100, [98]), (200, [97])], .stop 200 r)]) = .abort := by
  rfl

end Maa.Borrowed
