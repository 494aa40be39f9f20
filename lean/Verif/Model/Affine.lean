import Verif.Model.GmpyMath
import Mathlib.Algebra.Order.Ring.Rat
import Mathlib.Algebra.Order.Field.Rat
import Mathlib.Data.Rat.Floor

/-!
# Model of `ml/secureprotol/affine.py` and `affine_encoder.py`

The float comparison `plaintext / n > 0.9` is modelled exactly as
`10 * plaintext > 9 * n` (the code rounds the quotient and the constant to double
precision, so the boundary may be off by a relative `2^-52`).  Real plaintexts are exact
rationals.
-/

set_option autoImplicit false

namespace Verif
namespace Affine
open Gmpy

/-- `affine.py` 43-49. -/
structure Key where
  a : Int
  b : Int
  n : Int
  aInv : Int
  mult : Int
deriving DecidableEq, Repr

/-- `affine.py` 44-49, 66-67. -/
def Key.new (a b n mult : Int) : Except PyErr Key := do
  let aInv ← invert a n
  .ok ⟨a, b, n, aInv, mult⟩

/-- `affine.py` 70-73. -/
structure Ct where
  cipher : Int
  multiplier : Int
deriving DecidableEq, Repr

/-- `affine.py` 57-58. -/
def rawEncrypt (k : Key) (m : Int) : Ct := ⟨(k.a * m + k.b) % k.n, 1⟩

/-- `affine.py` 60-64. -/
def rawDecrypt (k : Key) (c : Ct) : Int :=
  let plaintext := (k.aInv * (c.cipher % k.n - c.multiplier * k.b)) % k.n
  if 10 * plaintext > 9 * k.n then plaintext - k.n else plaintext

/-- The second operand of `+`. -/
inductive Operand where
  | ct (c : Ct)
  | int (z : Int)
  | other
deriving DecidableEq, Repr

/-- `affine.py` 75-84 (`__radd__` is the same). -/
def add (x : Ct) : Operand → Except PyErr Ct
  | .ct y => .ok ⟨x.cipher + y.cipher, x.multiplier + y.multiplier⟩
  | .int z => if z = 0 then .ok x else .error .typeError
  | .other => .error .typeError

/-- `affine.py` 86-93 with an int. -/
def mulInt (x : Ct) (z : Int) : Ct := ⟨x.cipher * z, x.multiplier * z⟩

/-- `affine.py` 95-96 with a ciphertext. -/
def sub (x y : Ct) : Except PyErr Ct := add x (.ct (mulInt y (-1)))

/-- `int(x)` on a rational: truncation toward zero. -/
def pyTrunc (x : Rat) : Int := if 0 ≤ x then ⌊x⌋ else ⌈x⌉

/-- `affine_encoder.py` 22-23 with `trans = 0` (the only value used). -/
def encode (k : Key) (x : Rat) : Int := pyTrunc (k.mult * x)

/-- `affine_encoder.py` 25-26 with `trans = 0`. -/
def decode (k : Key) (c : Int) : Rat := c / k.mult

/-- `affine.py` 51-52. -/
def encrypt (k : Key) (x : Rat) : Ct := rawEncrypt k (encode k x)

/-- `affine.py` 54-55. -/
def decrypt (k : Key) (c : Ct) : Rat := decode k (rawDecrypt k c)

end Affine
end Verif
