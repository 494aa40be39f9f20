import Mathlib.Algebra.Order.Ring.Rat
import Mathlib.Algebra.Order.Group.Abs

/-! # Specification vocabulary for convergence -/

set_option autoImplicit false

namespace Verif
namespace Spec

/-- The losses of rounds `i` and `i + 1` differ by less than the tolerance. -/
def Converged (tol : Rat) (losses : List Rat) (i : Nat) : Prop :=
  ∃ a b, losses[i]? = some a ∧ losses[i + 1]? = some b ∧ |a - b| < tol

end Spec
end Verif
