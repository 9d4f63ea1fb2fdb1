import Verif.Model.Base

/-! # Model of maa/prime.c

`unsigned int` values are natural numbers below 2^32; every arithmetic operation that can leave that
range is reduced modulo 2^32 exactly where C does it.  Loops take a number of iterations as fuel and
return `none` when it runs out; `prmIsPrime`/`prmNextPrime` supply as much fuel as there are
`unsigned int` values, and Props/Prime.lean proves that `none` never happens (termination). -/

namespace Maa.Prime

/-- Number of `unsigned int` values. -/
abbrev U32 : Nat := 4294967296

/-- The `while` loop of `prm_is_prime` and the final test, maa/prime.c:52-58.
One iteration is `++divisor; square += 4 * divisor; ++divisor;` with 32-bit wrap-around.
(`value % divisor` is only evaluated when `square < value`, as with C's `&&`.) -/
def isPrimeLoop : (fuel : Nat) → (value divisor square : Nat) → Option Nat
  | 0, _, _, _ => none
  | fuel + 1, value, divisor, square =>
    if square < value ∧ value % divisor ≠ 0 then
      isPrimeLoop fuel value ((divisor + 1 + 1) % U32)
        ((square + 4 * ((divisor + 1) % U32)) % U32)
    else
      some (if value % divisor ≠ 0 then 1 else 0)

/-- `prm_is_prime`, maa/prime.c:43-59.  `none` would mean the loop does not terminate. -/
def prmIsPrime (value : Nat) : Option Nat :=
  let divisor := 3
  let square := divisor * divisor
  if value = 2 then some 1
  else if value = 3 then some 1
  else if value &&& 1 = 0 then some 0
  else isPrimeLoop U32 value divisor square

/-- The `for` loop of `prm_next_prime`, maa/prime.c:68: `!prm_is_prime(next); next += 2`. -/
def nextPrimeLoop : (fuel : Nat) → (next : Nat) → Option Nat
  | 0, _ => none
  | fuel + 1, next =>
    match prmIsPrime next with
    | none => none
    | some 0 => nextPrimeLoop fuel ((next + 2) % U32)
    | some (_ + 1) => some next

/-- `prm_next_prime`, maa/prime.c:64-70.  The parameter is `unsigned int`, so a caller passing a
larger `unsigned long` (maa/hash.c:82,231) has it reduced modulo 2^32 first. -/
def prmNextPrime (start : Nat) : Option Nat :=
  nextPrimeLoop U32 ((start % U32) ||| 1)

end Maa.Prime
