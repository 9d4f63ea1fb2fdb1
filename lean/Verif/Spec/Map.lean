/-! # Specification of finite maps

A finite map is a list of (key, value) pairs; `eq` is the user's notion of equal keys.  This file
does not mention buckets, chains, hash values or sizes. -/

namespace Maa.Spec

variable {K D : Type}

/-- The value stored for a key equal to `x`. -/
def find (eq : K → K → Bool) : List (K × D) → K → Option D
  | [], _ => none
  | (k, d) :: m, x => if eq k x then some d else find eq m x

/-- Insert unless an equal key is present. Returns 0 when inserted, 1 when not. -/
def insert (eq : K → K → Bool) (m : List (K × D)) (k : K) (d : D) : List (K × D) × Int :=
  match find eq m k with
  | some _ => (m, 1)
  | none => ((k, d) :: m, 0)

/-- Remove the equal key.  Returns 0 when it was present, 1 when not. -/
def delete (eq : K → K → Bool) (m : List (K × D)) (k : K) : List (K × D) × Int :=
  match find eq m k with
  | some _ => (m.filter (fun p => !eq p.1 k), 0)
  | none => (m, 1)

/-- Keys of a map are pairwise different. -/
def Distinct (eq : K → K → Bool) (m : List (K × D)) : Prop :=
  m.Pairwise (fun a b => eq a.1 b.1 = false)

end Maa.Spec
