import Verif.Model.Handles

/-! # Which handles are good

Computed from what the program did and got, without looking at memory. -/

namespace Maa.Spec

open _root_.Maa.Handles

/-- The functions that end the life of a handle. -/
def destroys : Fn → Bool
  | .hsh_destroy | .set_destroy | .lst_destroy | .mem_destroy_strings | .mem_destroy_objects | .arg_destroy | .sl_destroy => true
  | _ => false

/-- After these steps, is `p` a handle the program may use, and of what kind?  It is if the last step that gave it out or destroyed
it was the create function of that kind.  (Earliest step first.) -/
def kindOf (p : Ptr) (es : List (Ev × Ret)) : Option Kind :=
  es.foldl (fun k e => match e with
    | (.create k', .handle q) => if q = p then some k' else k
    | (.call f q, .entered) => if q = p ∧ destroys f then none else k
    | _ => k) none

/-- After these steps, is `p` a skip list that was destroyed and has not been given out again? -/
def staleSl (p : Ptr) (es : List (Ev × Ret)) : Bool :=
  es.foldl (fun b e => match e with
    | (.create _, .handle q) => if q = p then false else b
    | (.call .sl_destroy q, .entered) => if q = p then true else b
    | _ => b) false

end Maa.Spec
