import Verif.Model.Loss

/-!
# Activation functions: `ml/optim/activation.py`

In exact real arithmetic, with the exponential function as an argument `e`: so that it can be said
for which arguments the code calls it.  `Loss.sigmoid` and `Loss.softmax` are the two that training
and prediction use.
-/

set_option autoImplicit false

namespace Verif
namespace Activation

open Real

/-- `activation.py` 20-22; `np.clip(y, 0, 1)`. -/
noncomputable def hardSigmoid (x : ℝ) : ℝ := min (max (0.2 * x + 0.5) 0) 1

/-- `activation.py` 25-27. -/
noncomputable def softmaxWith (e : ℝ → ℝ) (x : List ℝ) : Except PyErr (List ℝ) :=
  match Loss.npMax x with
  | .error err => .error err
  | .ok m =>
    let y := x.map fun v => e (v - m)
    .ok (y.map fun v => v / y.sum)

/-- `activation.py` 30-36. -/
noncomputable def sigmoidWith (e : ℝ → ℝ) (x : ℝ) : ℝ :=
  if x ≤ 0 then e x / (1 + e x) else 1 / (1 + e (-x))

/-- `activation.py` 39-40. -/
noncomputable def softplusWith (e : ℝ → ℝ) (x : ℝ) : ℝ := log (1 + e x)

/-- `activation.py` 43-44. -/
noncomputable def softsign (x : ℝ) : ℝ := x / (1 + |x|)

/-- `activation.py` 47-48. -/
noncomputable def tanh (x : ℝ) : ℝ := Real.tanh x

/-- `activation.py` 51-56. -/
noncomputable def logLogisticWith (e : ℝ → ℝ) (x : ℝ) : ℝ :=
  if x ≤ 0 then x - log (1 + e x) else -log (1 + e (-x))

end Activation
end Verif
