import Verif.Spec.C26
import Mathlib.Algebra.BigOperators.Group.List.Basic
import Mathlib.Algebra.Order.Ring.Rat

/-! # Specification vocabulary for the statistics of nodes -/

set_option autoImplicit false

namespace Verif
namespace Spec

open DTree (Node)

/-- The leaves of a tree. -/
def leaves (tree : List Node) : List Node := tree.filter fun n => n.isLeaf

/-- Gradient and hessian sums of a whole data set. -/
def allSums {K : Type} (gh : DTable K (Rat × Rat)) : Rat × Rat :=
  ((gh.data.map fun p => p.2.1).sum, (gh.data.map fun p => p.2.2).sum)

end Spec
end Verif
