import Verif.Model.Paillier

/-!
# Division and reversed subtraction (`fixedpoint.py` 148-172, `fate_paillier.py` 245-246)

`rnd` rounds the reciprocal, the one operation on floats here that is not exact.  A scalar is a
Python int or float: for a numpy zero the reciprocal is an infinity with a warning, not an exception
(not modelled).
-/

set_option autoImplicit false

namespace Verif
namespace FP

/-- `1 / scalar`: a float, also for an int; Python raises `ZeroDivisionError` for zero. -/
def recip (rnd : Rat → Rat) (s : Scalar) : Except PyErr Scalar :=
  match s with
  | .other => .error .typeError
  | s => if s.val = 0 then .error .zeroDivision else .ok (.float (rnd (1 / s.val)))

/-- `fixedpoint.py` 162-168 `__truediv__` by a plain number. -/
def divScalar (rnd : Rat → Rat) (x : Num) (s : Scalar) : Except PyErr Num := do
  let r ← recip rnd s
  mulScalar x r

/-- `fixedpoint.py` 162-168 `__truediv__` by a fixed-point number. -/
def divFix (rnd : Rat → Rat) (x y : Num) : Except PyErr Num := do
  let s ← decode y
  divScalar rnd x s

/-- `fixedpoint.py` 170-172 `__rtruediv__`: a plain number divided by a fixed-point number. -/
def rdivScalar (rnd : Rat → Rat) (s : Scalar) (x : Num) : Except PyErr Num := do
  let d ← divScalar rnd x s
  let t ← decode d
  let r ← recip rnd t
  encodeQ r none

/-- `fixedpoint.py` 148-151 `__rsub__`: a plain number minus a fixed-point number. -/
def rsubScalar (s : Scalar) (x : Num) : Except PyErr Num := do
  let z ← subScalar x s
  let t ← decode z
  encodeQ t.neg none

end FP

namespace Paillier

/-- `fate_paillier.py` 245-246 `__truediv__`. -/
def divScalar (rnd : Rat → Rat) (x : EncNum) (s : FP.Scalar) : Except PyErr EncNum := do
  let r ← FP.recip rnd s
  mul x r

end Paillier
end Verif
