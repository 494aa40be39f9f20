import Mathlib.Algebra.Order.Ring.Rat
import Mathlib.Algebra.Order.Group.Abs

/-! # Specification vocabulary for C20 and C21 -/

set_option autoImplicit false

namespace Verif
namespace Spec

/-- `v` lies in bin `b` of the split points: above all split points before position `b`, and
not above any from position `b` on.  For increasing split points this is the half-open
interval between split point `b - 1` (exclusive) and split point `b` (inclusive). -/
def InBin (sps : List Rat) (b : Nat) (v : Rat) : Prop :=
  b ≤ sps.length ∧ (∀ s ∈ sps.take b, s < v) ∧ (∀ s ∈ sps.drop b, v ≤ s)

/-- A near-zero feature value is read as zero. -/
def snap (x : Rat) : Rat := if |x| < 1 / 10 ^ 6 then 0 else x

end Spec
end Verif
