import Verif.Model.DTable
import Mathlib.Analysis.SpecialFunctions.Exp
import Mathlib.Analysis.SpecialFunctions.Log.Basic
import Mathlib.Analysis.SpecialFunctions.Pow.Real
import Mathlib.Analysis.Complex.Trigonometric

/-!
# Score transforms and losses

`ml/optim/activation.py` 25-36, `ml/loss/cross_entropy.py`, `ml/loss/regression_loss.py`, in exact
real arithmetic (the code uses floats).  A loss is described by what is computed for one sample;
`meanLoss` is the number reported for a data set.
-/

set_option autoImplicit false

namespace Verif
namespace Loss

open Real

/-- `activation.py` 30-36. -/
noncomputable def sigmoid (x : ℝ) : ℝ :=
  if x ≤ 0 then exp x / (1 + exp x) else 1 / (1 + exp (-x))

/-- `np.max(x)`; raises for an empty array. -/
noncomputable def npMax : List ℝ → Except PyErr ℝ
  | [] => .error .valueError
  | x :: xs => .ok (xs.foldl max x)

/-- `activation.py` 25-27. -/
noncomputable def softmax (x : List ℝ) : Except PyErr (List ℝ) :=
  match npMax x with
  | .error e => .error e
  | .ok m =>
    let y := x.map fun v => exp (v - m)
    .ok (y.map fun v => v / y.sum)

/-- `FLOAT_ZERO` -/
noncomputable def floatZero : ℝ := 1 / 1000000

/-- `loss.reduce(..)` and the division, e.g. `cross_entropy.py` 77-78: the terms of the samples
that are in both tables.  Without any, `reduce` gives `None`, which cannot be unpacked. -/
noncomputable def meanLoss {K Y S : Type} [DecidableEq K] (term : Y → S → ℝ) (y : DTable K Y)
    (scores : DTable K S) : Except PyErr ℝ :=
  match y.join scores fun a b => (term a b, 1) with
  | .error e => .error e
  | .ok t =>
    match t.data.values with
    | [] => .error .typeError
    | p :: ps =>
      let s := ps.foldl (fun (a b : ℝ × ℝ) => (a.1 + b.1, a.2 + b.2)) p
      .ok (s.1 / s.2)

/-- A loss with one score per sample: `predict`, and what `compute_loss`, `compute_grad` and
`compute_hess` do with the label and the transformed score. -/
structure Scalar where
  predict : ℝ → ℝ
  loss : ℝ → ℝ → ℝ
  grad : ℝ → ℝ → ℝ
  hess : ℝ → ℝ → ℝ

/-- `cross_entropy.py` 22-113.  (`np.nan_to_num` changes nothing here: the logarithms are finite.) -/
noncomputable def logistic : Scalar where
  predict := sigmoid
  loss y p := -(y * log p + (1 - y) * log (1 - p))
  grad y p := p - y
  hess _ p := p * (1 - p)

/-- `regression_loss.py` 23-52 -/
noncomputable def lse : Scalar where
  predict v := v
  loss y p := (y - p) * (y - p)
  grad y p := 2 * (p - y)
  hess _ _ := 2

/-- `regression_loss.py` 55-100 (the arrays are changed in place, one comparison after the other). -/
noncomputable def lae : Scalar where
  predict v := v
  loss y p := |y - p|
  grad y p :=
    let d0 := p - y
    let d1 := if d0 > floatZero then 1 else d0
    let d2 := if d1 < floatZero then -1 else d1
    if |d2| ≤ floatZero then 0 else d2
  hess _ _ := 1

/-- `HuberLoss.__init__`, `FairLoss.__init__` (parameter not `None`). -/
noncomputable def clampParam (d : ℝ) : ℝ := if |d| < floatZero then floatZero else d

/-- `regression_loss.py` 103-139 for `HuberLoss(param)`. -/
noncomputable def huber (param : ℝ) : Scalar where
  predict v := v
  loss y p := clampParam param ^ 2 * (√(1 + ((p - y) / clampParam param) ^ 2) - 1)
  grad y p := (p - y) / √(1 + (p - y) * (p - y) / clampParam param ^ 2)
  hess y p := 1 / (1 + (p - y) * (p - y) / clampParam param ^ 2) ^ (1.5 : ℝ)

/-- `regression_loss.py` 142-178 for `FairLoss(param)`. -/
noncomputable def fair (param : ℝ) : Scalar where
  predict v := v
  loss y p := clampParam param * |p - y| - clampParam param ^ 2 * log (|p - y| / clampParam param + 1)
  grad y p := clampParam param * (p - y) / (|p - y| + clampParam param)
  hess y p := clampParam param ^ 2 / (|p - y| + clampParam param) ^ 2

/-- `regression_loss.py` 181-207 -/
noncomputable def logCosh : Scalar where
  predict v := v
  loss y p := log (cosh (p - y))
  grad y p := tanh (p - y)
  hess y p := 1 - tanh (p - y) ^ 2

/-- `regression_loss.py` 210-244 for `TweedieLoss(rho)`. -/
noncomputable def tweedie (rho : ℝ) : Scalar where
  predict v := v
  loss y p := -y * exp (1 - rho) * log (max p floatZero) / (1 - rho) +
    exp (2 - rho) * log (max floatZero p) / (2 - rho)
  grad y p := -y * exp (1 - rho) * p + exp (2 - rho) * p
  hess y p := -y * (1 - rho) * exp (1 - rho) * p + (2 - rho) * exp (2 - rho) * p

/-! ## Several classes: `cross_entropy.py` 116-217 -/

/-- `np.log(yp_array[y])`, negated; an index out of range raises. -/
noncomputable def softmaxLoss (y : Nat) (p : List ℝ) : Except PyErr ℝ :=
  match p[y]? with
  | none => .error .indexError
  | some v => .ok (-log v)

/-- `grad = y_pred.copy(); grad[y] -= 1` -/
noncomputable def softmaxGrad (y : Nat) (p : List ℝ) : Except PyErr (List ℝ) :=
  match p[y]? with
  | none => .error .indexError
  | some v => .ok (p.set y (v - 1))

/-- `y_pred * (1 - y_pred)` -/
noncomputable def softmaxHess (_ : Nat) (p : List ℝ) : List ℝ := p.map fun v => v * (1 - v)

end Loss
end Verif
