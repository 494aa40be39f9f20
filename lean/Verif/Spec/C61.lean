import Verif.Spec.C10
import Verif.Spec.C11
import Mathlib.Data.Int.Interval

/-!
# Specification vocabulary for C61

Somebody without the private key sees an encrypted number: public key, ciphertext, exponent and
flag.  How likely each of these is, over the random numbers that can be drawn, is all there is to
learn from looking at it.
-/

set_option autoImplicit false

namespace Verif
open Paillier

namespace Spec

/-- The usable random numbers that can be drawn: those of `1 .. n-1` without common factor with
`n`. -/
def drawable (n : Int) : Finset Int := (Finset.Ico 1 n).filter fun r => Int.gcd r n = 1

/-- Out of these, the number of random numbers with which the outcome is `X`. -/
def frequency (n : Int) (f : Int → Except PyErr EncNum) (X : EncNum) : Nat :=
  ((drawable n).filter fun r => f r = .ok X).card

end Spec
end Verif
