import Mathlib.Data.Real.Basic

/-! # The regularised second-order objective of a leaf -/

set_option autoImplicit false

namespace Verif
namespace Spec

/-- Approximate loss of giving weight `w` to samples with gradient sum `G` and hessian sum `H`. -/
noncomputable def objective (lam G H : Rat) (w : ℝ) : ℝ := G * w + (H + lam) * w ^ 2 / 2

/-- `m` is the smallest objective any weight achieves. -/
def IsBestObjective (lam G H : Rat) (m : ℝ) : Prop :=
  (∃ w, objective lam G H w = m) ∧ ∀ w, m ≤ objective lam G H w

end Spec
end Verif
