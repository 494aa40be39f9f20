import Verif.Model.Py
import Mathlib.Data.Int.Log
import Mathlib.Data.Rat.Floor
import Mathlib.Algebra.Order.Ring.Rat
import Mathlib.Algebra.Order.Field.Rat

/-!
# Model of `ml/secureprotol/fixedpoint.py`

A Python number is a `Scalar`: an int, or a float given by its exact (rational) value, or
some other type.  The arithmetic the code performs on floats here is multiplication by a
power of two, which is exact in binary floating point (barring overflow/underflow of the
exponent range, not modelled).  `decode` converts the integer mantissa to a float before
multiplying: that conversion is exact for mantissas below 2^53 and is otherwise *not*
modelled (the model keeps the exact rational).  Infinities and NaN are not modelled.
The `precision` argument (never used by the callers) is not modelled.
-/

set_option autoImplicit false

namespace Verif
namespace FP

/-- Python scalars accepted (or rejected) by `encode`. -/
inductive Scalar where
  | int (z : Int)
  | float (x : Rat)
  | other
deriving DecidableEq, Repr

namespace Scalar
/-- The number denoted. -/
def val : Scalar → Rat
  | int z => z
  | float x => x
  | other => 0

def neg : Scalar → Scalar
  | int z => int (-z)
  | float x => float (-x)
  | other => other
end Scalar

/-- Python 3 `round(x)` with one argument: to nearest, ties to even. -/
def roundEven (x : Rat) : Int :=
  let f := ⌊x⌋
  let r := x - f
  if r < 1 / 2 then f
  else if 1 / 2 < r then f + 1
  else if f % 2 = 0 then f else f + 1

/-- `math.frexp(x)[1]`: the `E` with `2^(E-1) ≤ |x| < 2^E`, and 0 for 0. -/
def frexpExp (x : Rat) : Int := if x = 0 then 0 else Int.log 2 |x| + 1

/-- `fixedpoint.py` 29-33: `FixedPointNumber.Q`. -/
def Q : Int := 293973345475167247070445277780365744413

/-- `fixedpoint.py` 35-44: the object.  The constructor's `n=None` default is `mkQ`. -/
structure Num where
  encoding : Int
  exponent : Int
  n : Int
  maxInt : Int
deriving DecidableEq, Repr

/-- `FixedPointNumber(encoding, exponent)`; `fixedpoint.py` 39-41. -/
def mkQ (encoding exponent : Int) : Num := ⟨encoding, exponent, Q, Q / 3 - 1⟩

/-- The constant `1e-200` of `fixedpoint.py` 56 (the float nearest to it in the code). -/
@[irreducible] def tiny : Rat := 1 / 10 ^ 200

/-- `scalar = 0` for tiny values; `fixedpoint.py` 56-57. -/
def flush (s : Scalar) : Scalar :=
  if s ≠ .other ∧ |s.val| < tiny then .int 0 else s

/-- `fixedpoint.py` 63-79: the exponent chosen for the (already flushed) scalar. -/
def chooseExp (s : Scalar) (maxExponent : Option Int) : Except PyErr Int :=
  let e : Except PyErr Int := match s with
    | .int _ => .ok 0
    | .float x => .ok ((53 - frexpExp x) / 4)
    | .other => .error .typeError
  match e, maxExponent with
  | .ok e, none => .ok e
  | .ok e, some m => .ok (max m e)
  | .error err, _ => .error err

/-- `fixedpoint.py` 47-87 with explicit modulus.  (Argument of another type: `np.abs` or the
final `else` raise `TypeError`.) -/
def encode (s : Scalar) (n maxInt : Int) (maxExponent : Option Int) : Except PyErr Num := do
  let s := flush s
  let e ← chooseExp s maxExponent
  let i := roundEven (s.val * (16 : Rat) ^ e)
  if |i| > maxInt then .error .valueError
  else .ok ⟨i % n, e, n, maxInt⟩

/-- `encode(scalar)` with the default modulus, `fixedpoint.py` 59-61. -/
def encodeQ (s : Scalar) (maxExponent : Option Int) : Except PyErr Num :=
  encode s Q (Q / 3 - 1) maxExponent

/-- `fixedpoint.py` 89-104, the signed mantissa. -/
def mantissa (x : Num) : Except PyErr Int :=
  if x.encoding ≥ x.n then .error .valueError
  else if x.encoding ≤ x.maxInt then .ok x.encoding
  else if x.encoding ≥ x.n - x.maxInt then .ok (x.encoding - x.n)
  else .error .overflow

/-- `fixedpoint.py` 104: `mantissa * pow(16, -exponent)`; `pow(16, k)` is an int for
`k ≥ 0` and a float otherwise. -/
def scale (m e : Int) : Scalar :=
  if e ≤ 0 then .int (m * 16 ^ (-e).toNat) else .float (m * (16 : Rat) ^ (-e))

/-- `fixedpoint.py` 89-104. -/
def decode (x : Num) : Except PyErr Scalar := do
  let m ← mantissa x
  .ok (scale m x.exponent)

/-- `fixedpoint.py` 106-116. -/
def increaseExponentTo (x : Num) (e : Int) : Except PyErr Num :=
  if e < x.exponent then .error .valueError
  else .ok ⟨x.encoding * 16 ^ (e - x.exponent).toNat % x.n, e, x.n, x.maxInt⟩

/-- `fixedpoint.py` 118-126. -/
def align (x y : Num) : Except PyErr (Num × Num) :=
  if x.exponent < y.exponent then do
    let x ← increaseExponentTo x y.exponent
    .ok (x, y)
  else if x.exponent > y.exponent then do
    let y ← increaseExponentTo y x.exponent
    .ok (x, y)
  else .ok (x, y)

/-- `fixedpoint.py` 128-130. -/
def truncate (x : Num) : Except PyErr Num := do
  let s ← decode x
  encodeQ s none

/-- `fixedpoint.py` 241-244 `__add_fixpointnumber`: note the class constant `Q`. -/
def addFix (x y : Num) : Except PyErr Num := do
  let (x, y) ← align x y
  .ok (mkQ ((x.encoding + y.encoding) % Q) x.exponent)

/-- `fixedpoint.py` 246-248 `__add_scalar`. -/
def addScalar (x : Num) (s : Scalar) : Except PyErr Num := do
  let y ← encodeQ s none
  addFix x y

/-- `fixedpoint.py` 250-253 `__sub_fixpointnumber`. -/
def subFix (x y : Num) : Except PyErr Num := do
  let s ← decode y
  addScalar x s.neg

/-- `fixedpoint.py` 255-256 `__sub_scalar`. -/
def subScalar (x : Num) (s : Scalar) : Except PyErr Num := addScalar x s.neg

/-- `fixedpoint.py` 258-262 `__mul_fixpointnumber`. -/
def mulFix (x y : Num) : Except PyErr Num := do
  truncate (mkQ (x.encoding * y.encoding % Q) (x.exponent + y.exponent))

/-- `fixedpoint.py` 264-267 `__mul_scalar`. -/
def mulScalar (x : Num) (s : Scalar) : Except PyErr Num := do
  let y ← encodeQ s none
  mulFix x y

/-- `fixedpoint.py` 174-239: comparisons decode both sides. -/
def compareNum (rel : Rat → Rat → Bool) (x y : Num) : Except PyErr Bool := do
  let a ← decode x
  let b ← decode y
  .ok (rel a.val b.val)

end FP
end Verif
