import Verif.Spec.StrPool
import Verif.Spec.Log
import Verif.Spec.Source

/-! # Names the library keeps (C84): what a user relies on

A program uses the logging functions, the source manager and the library's string pool side by side.  To the user the first two have nothing to do with
the pool: the specification is the two state machines `logStep` (C45) and `srcStep` (C49) next to each other, and calls of the `str_*` functions do nothing to
either. -/

namespace Maa.Spec

/-- A call: of `str_*`, of `log_*`, of `src_*`. -/
inductive NameOp where
  | str (o : GlobalOp)
  | log (o : LogOp)
  | src (o : SrcOp)

/-- What is seen of a call; the results of `str_*` are the subject of C26 to C29. -/
inductive NameOut where
  | str
  | log (events : List LogEvent)
  | src (v : SrcVal)
  deriving DecidableEq

/-- One call: log and source manager are independent of each other and of the string pool. -/
def nameStep (facilities : List (List Byte × Int)) (s : Sinks × Src) : NameOp → Res ((Sinks × Src) × NameOut)
  | .str _ => .ok (s, .str)
  | .log o => (logStep facilities s.1 o).bind fun r => .ok ((r.1, s.2), .log r.2)
  | .src o => (srcStep s.2 o).bind fun r => .ok ((s.1, r.1), .src r.2)

/-- Names do not contain NUL (they are C strings). -/
def NameOp.Strings : NameOp → Prop
  | .log (.file (some ident) (some name) _) => (0 : Byte) ∉ ident ∧ (0 : Byte) ∉ name
  | .log (.stream (some ident) (some _) _) => (0 : Byte) ∉ ident
  | .src (.newFile name) => (0 : Byte) ∉ name
  | _ => True

/-- Arguments of `str_*` are as for C26. -/
def NameOp.Permitted : NameOp → Prop
  | .str o => o.Permitted
  | _ => True

/-- Calls that work only once the pool exists (C29). -/
def NameOp.needsPool : NameOp → Bool
  | .str (.exists_ _) | .str (.copyn _ _) | .str (.unique _) => true
  | _ => false

/-- Does the pool exist after the call, if it did (`b`) or did not exist before? -/
def NameOp.poolAfter (b : Bool) : NameOp → Bool
  | .str .destroy => false
  | .str _ => true
  | .log (.file (some _) (some _) _) | .log (.stream (some _) (some _) _) | .src (.newFile _) => true
  | _ => b

/-- No name given to the library is in use: no log file and no log stream is open, no file name was given to the source manager. -/
def NoNames (s : Sinks × Src) : Prop :=
  s.1.file = none ∧ s.1.stream = none ∧ s.2.file = none ∧ ∀ h t, s.2.tokens h = some t → t.file = none

/-- A history is safe from a state (`pool`: the string pool exists): names are strings, `str_*` are called as they may be, and `str_destroy` only when no
name is in use. -/
def Safe (facilities : List (List Byte × Int)) : (pool : Bool) → Sinks × Src → List NameOp → Prop
  | _, _, [] => True
  | pool, s, o :: os => o.Strings ∧ o.Permitted ∧ (o.needsPool = true → pool = true) ∧ (o = .str .destroy → NoNames s) ∧
      ∀ r, nameStep facilities s o = .ok r → Safe facilities (o.poolAfter pool) r.1 os

end Maa.Spec
