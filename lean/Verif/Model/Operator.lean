import Verif.Model.Py
import Mathlib.Algebra.Order.Ring.Rat
import Mathlib.Algebra.Order.Group.Abs

/-!
# Vector helpers (`ml/utils/fate_operator.py`)

Numbers are rationals; vectors are Python lists (for numpy arrays `+` with a number would
broadcast instead of raising).
-/

set_option autoImplicit false

namespace Verif
namespace Operator

/-- What `reduce_add` is given. -/
inductive Acc
  | none
  | scalar (q : Rat)
  | vec (xs : List Rat)
deriving DecidableEq, Repr

/-- 68-70: the loop `result.append(acc + y[idx])`. -/
def addLoop (y : List Rat) : Nat → List Rat → Except PyErr (List Rat)
  | _, [] => .ok []
  | idx, a :: rest =>
    match y[idx]? with
    | .none => .error .indexError
    | some b =>
      match addLoop y (idx + 1) rest with
      | .error e => .error e
      | .ok r => .ok ((a + b) :: r)

/-- 55-71 `reduce_add` -/
def reduceAdd : Acc → Acc → Except PyErr Acc
  | .none, y => .ok y
  | x, .none => .ok x
  | .scalar a, .scalar b => .ok (.scalar (a + b))
  | .scalar _, .vec _ => .error .typeError
  | .vec [], .scalar _ => .ok (.vec [])
  | .vec (_ :: _), .scalar _ => .error .typeError
  | .vec x, .vec y => (addLoop y 0 x).map Acc.vec

/-- `reduce_add` folded over a sequence, as `DTable.reduce` and `functools.reduce` do. -/
def reduceAll : Acc → List Acc → Except PyErr Acc
  | acc, [] => .ok acc
  | acc, y :: ys =>
    match reduceAdd acc y with
    | .error e => .error e
    | .ok r => reduceAll r ys

/-- 25-31 `_one_dimension_dot` from position `i` on. -/
def dotLoop (w : List Rat) : Nat → List Rat → Rat → Except PyErr Rat
  | _, [], res => .ok res
  | i, x :: xs, res =>
    if |x| < 1 / 100000 then dotLoop w (i + 1) xs res
    else
      match w[i]? with
      | none => .error .indexError
      | some b => dotLoop w (i + 1) xs (res + b * x)

/-- 34-46 `dot` of two vectors. -/
def dot1 (x w : List Rat) : Except PyErr Rat := dotLoop w 0 x 0

/-- 47-51 `dot` of a matrix and a vector. -/
def dot2 (w : List Rat) : List (List Rat) → Except PyErr (List Rat)
  | [] => .ok []
  | x :: xs =>
    match dot1 x w with
    | .error e => .error e
    | .ok r =>
      match dot2 w xs with
      | .error e => .error e
      | .ok rs => .ok (r :: rs)

end Operator
end Verif
