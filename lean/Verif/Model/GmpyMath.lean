import Verif.Model.Py
import Mathlib.Algebra.Order.Ring.Int

/-!
# Model of `ml/secureprotol/gmpy_math.py`

Python ints are `Int`; exponents are `Nat` (all callers pass non-negative exponents).
`gmpy2.powmod` and the built-in three-argument `pow` are the mathematical modular
power with non-negative remainder (`%` on `Int` with positive modulus).
-/

set_option autoImplicit false

namespace Verif
namespace Gmpy

/-- `gmpy_math.py` 23-35.  The two branches on the operand size compute the same value
(`pow(a, b, c)` / `gmpy2.powmod(a, b, c)`) and are merged. -/
def powmod (a : Int) (b : Nat) (c : Int) : Int :=
  if a = 1 then 1 else a ^ b % c

/-- `gmpy2.invert(a, b)`: the least non-negative `x` with `a * x ≡ 1 (mod b)`, 0 if none
(version 2.0) – by exhaustive definition, not by an algorithm. -/
def gmpyInvert (a b : Int) : Int :=
  match (List.range b.toNat).find? (fun x : Nat => a * (x : Int) % b == 1) with
  | some x => x
  | none => 0

/-- `gmpy_math.py` 38-46. -/
def invert (a b : Int) : Except PyErr Int :=
  let x := gmpyInvert a b
  if x = 0 then .error .zeroDivision else .ok x

end Gmpy
end Verif
