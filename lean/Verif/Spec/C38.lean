import Verif.Model.Loss
import Mathlib.Analysis.Calculus.Deriv.Basic

/-!
# Specification for C38: derivatives of a loss
-/

set_option autoImplicit false

namespace Verif
namespace Spec

open Loss

/-- At label `y` and score `s`, the gradient is the derivative of the loss of the transformed
score, with respect to the score. -/
def GradAt (L : Scalar) (y s : ℝ) : Prop :=
  HasDerivAt (fun s => L.loss y (L.predict s)) (L.grad y (L.predict s)) s

/-- … and the hessian is the derivative of the gradient. -/
def HessAt (L : Scalar) (y s : ℝ) : Prop :=
  HasDerivAt (fun s => L.grad y (L.predict s)) (L.hess y (L.predict s)) s

/-- The loss of class `y` as a function of the score of class `i`, the other scores being fixed
(0 where the code raises an exception; it does not for a class among the scores). -/
noncomputable def lossAlong (y : Nat) (s : List ℝ) (i : Nat) (t : ℝ) : ℝ :=
  match softmax (s.set i t) with
  | .error _ => 0
  | .ok p => match softmaxLoss y p with
    | .error _ => 0
    | .ok l => l

/-- Entry `i` of the gradient as a function of the score of class `i`. -/
noncomputable def gradAlong (y : Nat) (s : List ℝ) (i : Nat) (t : ℝ) : ℝ :=
  match softmax (s.set i t) with
  | .error _ => 0
  | .ok p => match softmaxGrad y p with
    | .error _ => 0
    | .ok g => g.getD i 0

end Spec
end Verif
