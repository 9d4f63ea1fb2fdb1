import Verif.Model.CStr

/-! # The layout of the text `hsh_key_strings` prints -/

namespace Maa.Spec

/-- A key as printed: followed by two blanks. -/
def keyText (k : List Byte) : List Byte := k ++ [32, 32]

/-- A printed line. -/
def keyLine (ks : List (List Byte)) : List Byte := ks.flatMap keyText ++ [10]

/-- The width of a line, without its end. -/
def keyWidth (ks : List (List Byte)) : Nat := (ks.flatMap keyText).length

/-- `out` shows the keys in this order: lines, each filled until it has 60 columns, then the rest of the keys (perhaps none) on
a last line. -/
def KeyLines (keys : List (List Byte)) (out : List Byte) : Prop :=
  ∃ (full : List (List (List Byte))) (last : List (List Byte)), keys = full.flatten ++ last ∧ out = full.flatMap keyLine ++ keyLine last ∧
    (∀ l ∈ full, ∃ init k, l = init ++ [k] ∧ keyWidth init < 60 ∧ 60 ≤ keyWidth l) ∧ keyWidth last < 60

end Maa.Spec
