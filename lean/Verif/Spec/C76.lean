import Verif.Spec.C09
import Verif.Spec.C11

/-! # Specification vocabulary for C76 -/

set_option autoImplicit false

namespace Verif
namespace Spec

/-- `x` is `y` up to the relative error `u`. -/
def Close (u x y : Rat) : Prop := |x - y| ≤ u * |y|

/-- Rounding makes a relative error of at most `u` on numbers that are neither tiny nor huge
(`1e-200` to `1e200`; for Python floats `u` is `2^-53`). -/
def RoundsTo (rnd : Rat → Rat) (u : Rat) : Prop :=
  ∀ x, FP.tiny ≤ |x| → |x| ≤ 1 / FP.tiny → Close u (rnd x) x

end Spec
end Verif
