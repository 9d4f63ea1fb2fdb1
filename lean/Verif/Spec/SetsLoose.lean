import Verif.Spec.TabLoose
import Verif.Spec.Sets

/-! # What several sets may do with any hash and comparison functions

As Spec/TabLoose.lean, for programs with any number of sets, with `set_add`, `set_del`, `set_union`, `set_inter`, `set_diff` and `set_equal`. -/

namespace Maa.Spec

variable {K : Type}

/-- One set: what it holds, and which two functions it was created with. -/
structure LooseSet (K : Type) where
  tab : LooseTab K Unit
  hashFn : Nat
  cmpFn : Nat

/-- All sets of a program. -/
structure LooseSets (K : Type) where
  objs : Nat → Option (LooseSet K)
  next : Nat

/-- No sets. -/
def LooseSets.empty : LooseSets K := { objs := fun _ => none, next := 0 }

/-- Replace one set. -/
def LooseSets.put (S : LooseSets K) (i : Nat) (a : Option (LooseSet K)) : LooseSets K := { S with objs := fun j => if j = i then a else S.objs j }

/-- A new set. -/
def LooseSets.alloc (S : LooseSets K) (a : LooseSet K) : LooseSets K :=
  { objs := fun j => if j = S.next then some a else S.objs j, next := S.next + 1 }

/-- Using a set that does not exist is undefined. -/
def LooseSets.get (S : LooseSets K) (i : Nat) : Res (LooseSet K) :=
  match S.objs i with
  | some a => .ok a
  | none => .ub

/-- A binary operation ends the program unless both sets were created with the same functions. -/
def LooseSets.get2 (S : LooseSets K) (i j : Nat) : Res (LooseSet K × LooseSet K) :=
  (S.get i).bind fun a => (S.get j).bind fun b => if a.hashFn = b.hashFn ∧ a.cmpFn = b.cmpFn then .ok (a, b) else .fatal

/-- The elements of a set. -/
def LooseSet.elems (a : LooseSet K) : List K := a.tab.pairs.map Stored.key

/-- Adding the elements `l` one after the other. -/
def mayInsertAll (ops : KeyOps K) (m : LooseTab K Unit) (l : List K) (r : Res (LooseTab K Unit × List Int)) : Prop :=
  mayRun setMay m (l.map fun k => (ops, .insert k)) r

/-- Removing the elements `l` one after the other. -/
def mayDeleteAll (ops : KeyOps K) (m : LooseTab K Unit) (l : List K) (r : Res (LooseTab K Unit × List Int)) : Prop :=
  mayRun setMay m (l.map fun k => (ops, .delete k)) r

/-- A set after a search in it that found something or not. -/
def LooseTab.searched (m : LooseTab K Unit) (x : Option Unit) : LooseTab K Unit :=
  { m with retrievals := m.retrievals + 1, misses := if x.isSome then m.misses else m.misses + 1 }

/-- Looking each of the elements `l` up in `b` and adding those that are found (`keep`), or those that are not, to `n`; the result is both sets. -/
def maySelect (ops : KeyOps K) (keep : Bool) : List K → LooseTab K Unit → LooseTab K Unit → LooseTab K Unit × LooseTab K Unit → Prop
  | [], n, b, r => r = (n, b)
  | k :: ks, n, b, r => ∃ x, mayFind ops b.pairs k x ∧
      if x.isSome = keep then ∃ L y, mayInsert ops n.pairs k () L y ∧ maySelect ops keep ks { n with pairs := L } (b.searched x) r
      else maySelect ops keep ks n (b.searched x) r

/-- Looking each of the elements `l` up in `b`, up to the first that is not found. -/
def mayFindAll (ops : KeyOps K) : List K → LooseTab K Unit → LooseTab K Unit × Int → Prop
  | [], b, r => r = (b, 1)
  | k :: ks, b, r => ∃ x, mayFind ops b.pairs k x ∧ if x.isSome then mayFindAll ops ks (b.searched x) r else r = (b.searched x, 0)

/-- A call on one set. -/
def LooseSets.mayOne (S : LooseSets K) (ops : LooseSet K → KeyOps K) (i : Nat) (o : OneSetOp K) (r : Res (LooseSets K × Int)) : Prop :=
  Res.Then (S.get i) (fun a r => ∃ q, setMay a.tab (ops a, o) q ∧ r = q.bind fun b => .ok (S.put i (some { a with tab := b.1 }), b.2)) r

/-- The outcomes a call may have; `hash f` and `cmp f` say how the functions answer during this call.  The elements of a set are met in any order. -/
def LooseSets.may (hash : Nat → K → Nat) (cmp : Nat → K → K → Int) (S : LooseSets K) (o : SetOp K) (r : Res (LooseSets K × Int)) : Prop :=
  let ops : LooseSet K → KeyOps K := fun a => { hash := hash a.hashFn, cmp := cmp a.cmpFn }
  match o with
  | .create h c => r = .ok (S.alloc ⟨{}, h, c⟩, (S.next : Int))
  | .insert i e => S.mayOne ops i (.insert e) r
  | .delete i e => S.mayOne ops i (.delete e) r
  | .member i e => S.mayOne ops i (.member e) r
  | .readonly i f => S.mayOne ops i (.readonly f) r
  | .destroy i => Res.Then (S.get i) (fun a r => r = if a.tab.readonly ≠ 0 then .abort else .ok (S.put i none, 0)) r
  | .count i => Res.Then (S.get i) (fun a r => r = .ok (S, (a.tab.pairs.length : Int))) r
  | .stats i => Res.Then (S.get i) (fun a r => r = .ok (S, (a.tab.pairs.length : Int))) r
  | .add i j => Res.Then (S.get2 i j) (fun p r => ∃ order q, order.Perm p.2.elems ∧ mayInsertAll (ops p.1) p.1.tab order q ∧
      r = q.bind fun b => .ok (S.put i (some { p.1 with tab := b.1 }), (i : Int))) r
  | .del i j => Res.Then (S.get2 i j) (fun p r => ∃ order q, order.Perm p.2.elems ∧ mayDeleteAll (ops p.1) p.1.tab order q ∧
      r = q.bind fun b => .ok (S.put i (some { p.1 with tab := b.1 }), (i : Int))) r
  | .union i j => Res.Then (S.get2 i j) (fun p r => ∃ order1 order2 b, order1.Perm p.1.elems ∧ order2.Perm p.2.elems ∧
      mayInsertAll (ops p.1) {} (order1 ++ order2) (.ok b) ∧ r = .ok (S.alloc { p.1 with tab := b.1 }, (S.next : Int))) r
  | .inter i j => Res.Then (S.get2 i j) (fun p r => ∃ order b, order.Perm p.1.elems ∧ maySelect (ops p.1) true order {} p.2.tab b ∧
      r = .ok ((S.put j (some { p.2 with tab := b.2 })).alloc { p.1 with tab := b.1 }, (S.next : Int))) r
  | .diff i j => Res.Then (S.get2 i j) (fun p r => ∃ order b, order.Perm p.1.elems ∧ maySelect (ops p.1) false order {} p.2.tab b ∧
      r = .ok ((S.put j (some { p.2 with tab := b.2 })).alloc { p.1 with tab := b.1 }, (S.next : Int))) r
  | .equal i j => Res.Then (S.get2 i j) (fun p r => if p.1.tab.pairs.length ≠ p.2.tab.pairs.length then r = .ok (S, 0) else
      ∃ order b, order.Perm p.1.elems ∧ mayFindAll (ops p.1) order p.2.tab b ∧ r = .ok (S.put j (some { p.2 with tab := b.1 }), b.2)) r

/-- The sets a call is given. -/
def SetOp.handles : SetOp K → List Nat
  | .create _ _ => []
  | .insert i _ | .delete i _ | .member i _ | .readonly i _ | .destroy i | .count i | .stats i => [i]
  | .add i j | .del i j | .union i j | .inter i j | .diff i j | .equal i j => [i, j]

end Maa.Spec
