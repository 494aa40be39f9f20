import Mathlib.Analysis.Real.Sqrt

/-!
# Specification for C62
-/

set_option autoImplicit false

namespace Verif

/-- The Euclidean distance of two vectors of the same length. -/
noncomputable def Spec.distance (v w : List ℝ) : ℝ :=
  √((v.zip w).map fun p => (p.1 - p.2) ^ 2).sum

/-- The Euclidean length. -/
noncomputable def Spec.euclid (v : List ℝ) : ℝ := √(v.map fun x => x ^ 2).sum

end Verif
