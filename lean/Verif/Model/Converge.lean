import Verif.Model.Py
import Mathlib.Analysis.Real.Sqrt

/-!
# Convergence objects: `ml/optim/convergence.py`

An object is its state; a call returns the verdict and the new state.  Floats are reals; a weight
vector is a one-dimensional numpy array.  (`DiffConverge` on rationals, as training uses it, is
`DTree.isConverge`.)
-/

set_option autoImplicit false

namespace Verif
namespace Converge

/-- `convergence.py` 42-49 `DiffConverge.is_converge`. -/
noncomputable def diff (eps : ℝ) (pre : Option ℝ) (loss : ℝ) : Bool × Option ℝ :=
  let flag := match pre with
    | none => false
    | some p => decide (|p - loss| < eps)
  (flag, some loss)

/-- `convergence.py` 58-63 `AbsConverge.is_converge`; no state. -/
noncomputable def abs (eps : ℝ) (loss : ℝ) : Bool := if loss ≤ eps then true else false

/-- `a - b` of two arrays: an array of length 1 is repeated. -/
noncomputable def sub (a b : List ℝ) : Except PyErr (List ℝ) :=
  if a.length = b.length then .ok (List.zipWith (· - ·) a b)
  else match a, b with
    | [x], _ => .ok (b.map (x - ·))
    | _, [y] => .ok (a.map (· - y))
    | _, _ => .error .valueError

/-- `fate_operator.py` 73-89 `norm` with `p = 2`: the Euclidean norm. -/
noncomputable def norm (v : List ℝ) : ℝ := √(v.map fun x => x ^ 2).sum

/-- `convergence.py` 75-84 `WeightDiffConverge.is_converge`.  The subtraction comes first: if it
raises, the state stays. -/
noncomputable def weightDiff (eps : ℝ) (pre : Option (List ℝ)) (weight : List ℝ) :
    Except PyErr (Bool × Option (List ℝ)) :=
  match pre with
  | none => .ok (false, some weight)
  | some p => do
    let d ← sub p weight
    if norm d < eps * max (norm weight) 1 then .ok (true, some weight) else .ok (false, some weight)

/-- Verdicts of successive calls. -/
noncomputable def diffCalls (eps : ℝ) : Option ℝ → List ℝ → List Bool
  | _, [] => []
  | pre, l :: ls => (diff eps pre l).1 :: diffCalls eps (diff eps pre l).2 ls

/-- Verdicts of successive calls with fresh arrays. -/
noncomputable def weightCalls (eps : ℝ) : Option (List ℝ) → List (List ℝ) → Except PyErr (List Bool)
  | _, [] => .ok []
  | pre, w :: ws => do
    let r ← weightDiff eps pre w
    let rest ← weightCalls eps r.2 ws
    .ok (r.1 :: rest)

/-- Verdicts of successive calls with the same array object, whose contents the caller overwrites
between the calls: the object keeps a reference (77, 81), so what it remembers changes too. -/
noncomputable def inPlaceCalls (eps : ℝ) : Bool → List (List ℝ) → Except PyErr (List Bool)
  | _, [] => .ok []
  | seen, w :: ws => do
    let r ← weightDiff eps (if seen then some w else none) w
    let rest ← inPlaceCalls eps true ws
    .ok (r.1 :: rest)

end Converge
end Verif
