import Verif.Spec.SlProgs

/-! # What the checks of the debugging build look for -/

namespace Maa.Spec

variable {σ : Type}

/-- Every datum but the last compares as smaller than the one after it. -/
def Ascending (cmp : Nat → Nat → Int) (key : Nat → Nat) : List Nat → Prop
  | d :: e :: ds => cmp (key d) (key e) < 0 ∧ Ascending cmp key (e :: ds)
  | _ => True

/-- No list is destroyed while the program walks over it. -/
def SlProg.Keeps : SlProg σ → Prop
  | .ret _ _ => True
  | .call _ k => ∀ x, (k x).Keeps
  | .walk l _ f k => (∀ st d, (f st d).All (· ≠ .destroy l) ∧ (f st d).Keeps) ∧ ∀ st r, (k st r).Keeps

end Maa.Spec
