import Verif.Spec.StrPool
import Verif.Spec.SourceErr

/-! # Concrete symbols next to the string pool (C90): what a user relies on

To the user the symbols registered with `prs_register_concrete` have nothing to do with the string pool: the specification is the state machine `prsStep`
(C50), and calls of the `str_*` functions do nothing to it. -/

namespace Maa.Spec

/-- A call: of `str_*`, of `prs_*`. -/
inductive SymOp where
  | str (o : GlobalOp)
  | prs (o : PrsOp)

/-- What is seen of a call: for `prs_concrete` the string at the address returned, if that is not NULL. -/
inductive SymOut where
  | str
  | form (c : Option (List Byte))
  deriving DecidableEq

/-- One call: the symbols are independent of the string pool. -/
def symStep (π : Prs) : SymOp → Res (Prs × SymOut)
  | .str _ => .ok (π, .str)
  | .prs o => (prsStep π o).bind fun r => .ok (r.1, .form r.2)

/-- Symbols and forms are C strings; arguments of `str_*` are as for C26. -/
def SymOp.Permitted : SymOp → Prop
  | .str o => o.Permitted
  | .prs (.register s c) => (0 : Byte) ∉ s ∧ (0 : Byte) ∉ c
  | .prs (.concrete (some s)) => (0 : Byte) ∉ s
  | _ => True

/-- Calls that work only once the pool exists (C29). -/
def SymOp.needsPool : SymOp → Bool
  | .str (.exists_ _) | .str (.copyn _ _) | .str (.unique _) => true
  | _ => false

/-- Does the pool exist after the call, if it did (`b`) or did not exist before? -/
def SymOp.poolAfter (b : Bool) : SymOp → Bool
  | .str .destroy => false
  | .str _ => true
  | .prs (.register _ _) => true
  | _ => b

/-- A history is safe from a state (`pool`: the string pool exists): arguments are as they should be, and `str_destroy` is called only when no symbol has
been registered or after `_prs_shutdown`. -/
def SafeSymbols : (pool : Bool) → Prs → List SymOp → Prop
  | _, _, [] => True
  | pool, π, o :: os => o.Permitted ∧ (o.needsPool = true → pool = true) ∧ (o = .str .destroy → π.inUse = false ∨ π.gone = true) ∧
      ∀ r, symStep π o = .ok r → SafeSymbols (o.poolAfter pool) r.1 os

end Maa.Spec
