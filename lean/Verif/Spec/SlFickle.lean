import Verif.Spec.SlLoose
import Verif.Spec.TabLoose

/-! # Ordered collections whose functions change from call to call -/

namespace Maa.Spec

/-- The collections at a moment when their functions answer as `f` says. -/
def Colls.answering (S : Colls) (f : Nat → (Nat → Nat → Int) × (Nat → Nat)) : Colls :=
  { S with colls := fun l => (S.colls l).map fun c => { c with cmp := (f l).1, key := (f l).2 } }

/-- The outcomes of a call (`Colls.may`) during which the functions answer as `o.1` says. -/
def Colls.mayNow (S : Colls) (o : (Nat → (Nat → Nat → Int) × (Nat → Nat)) × SlOp) (r : Res (Colls × Nat)) : Prop :=
  (S.answering o.1).may o.2 r

/-- The new answers are those of a total order, under which what was smaller still is. -/
def Colls.Keeps (S : Colls) (f : Nat → (Nat → Nat → Int) × (Nat → Nat)) : Prop :=
  ∀ l c, S.colls l = some c → TotalOrder (f l).1 ∧
    ∀ a ∈ c.data, ∀ b ∈ c.data, c.cmp (c.key a) (c.key b) < 0 → (f l).1 ((f l).2 a) ((f l).2 b) < 0

/-- One call on collections with an order, during which the functions answer as `o.1` says. -/
def Colls.stepNow (S : Colls) (o : (Nat → (Nat → Nat → Int) × (Nat → Nat)) × SlOp) : Res (Colls × Nat) := (S.answering o.1).step o.2

/-- A history in which the order of what is in the collections never changes. -/
def Colls.InOrder : Colls → List ((Nat → (Nat → Nat → Int) × (Nat → Nat)) × SlOp) → Prop
  | _, [] => True
  | S, o :: os => S.Keeps o.1 ∧ o.2.Ok ∧ ∀ S' x, S.stepNow o = .ok (S', x) → S'.InOrder os

end Maa.Spec
