import Verif.Spec.C32
import Mathlib.Algebra.Order.Group.Unbundled.Abs
import Mathlib.Algebra.Order.Ring.Rat

/-! # Specification vocabulary for rounding -/

set_option autoImplicit false

namespace Verif
namespace Spec

/-- Rounding moves numbers of absolute value up to `M` by at most `ε`. -/
def RoundsWithin (rnd : Rat → Rat) (M ε : Rat) : Prop := ∀ x, |x| ≤ M → |rnd x - x| ≤ ε

/-- The weights that contribute to component `c` of the scores: those of trees `c`, `c + dim`, ...
among the first `n`. -/
def contributions (dim : Nat) (W : Nat → Rat) (n c : Nat) : List Rat :=
  ((List.range n).filter fun m => m % dim = c).map W

/-- The same run with other roundings: `rnd` in growing the trees, `rnd'` in adding up the scores. -/
def withRounding {K α L : Type} (B : DTree.Boost K α L) (rnd rnd' : Rat → Rat) : DTree.Boost K α L :=
  { B with base := { B.base with cfg := { B.base.cfg with rnd := rnd } },
           rate := { B.rate with rnd := rnd' } }

end Spec
end Verif
