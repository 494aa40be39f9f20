import Verif.Model.FixedPoint

/-!
# Specification vocabulary for C09
-/

set_option autoImplicit false

namespace Verif
open FP

namespace Spec
/-- `x` is a valid number over the default modulus that decodes to the value `a`. -/
def DecodesTo (x : Num) (a : Rat) : Prop := ∃ t, decode x = .ok t ∧ t.val = a
/-- The number uses the default modulus of the class. -/
def OverQ (x : Num) : Prop := x.n = Q ∧ x.maxInt = Q / 3 - 1
/-- `a` is representable at exponent `e` within the signed window. -/
def Fits (a : Rat) (e : Int) : Prop := |a| * (16 : Rat) ^ e ≤ ((Q / 3 - 1 : Int) : Rat)
end Spec

end Verif
