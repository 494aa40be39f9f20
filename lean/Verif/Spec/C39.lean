import Verif.Model.Py
import Mathlib.Algebra.Order.Ring.Rat
import Mathlib.Algebra.BigOperators.Group.List.Basic
import Mathlib.Algebra.Order.BigOperators.Group.List
import Mathlib.Algebra.BigOperators.Ring.List

/-!
# What summary statistics should be

Nothing here refers to the model.
-/

set_option autoImplicit false

namespace Verif
namespace Spec

/-- The numbers among the values: values declared abnormal and values that are not numbers at all
are left out. -/
def numbers {V : Type} [DecidableEq V] (float : V → Except PyErr Rat) (abnormal : List V)
    (vs : List V) : List Rat :=
  vs.filterMap fun v =>
    if v ∈ abnormal then none
    else match float v with
      | .ok r => some r
      | .error _ => none

/-- No value raises anything but `TypeError` on conversion. -/
def Convertible {V : Type} [DecidableEq V] (float : V → Except PyErr Rat) (abnormal : List V)
    (vs : List V) : Prop :=
  ∀ v ∈ vs, v ∉ abnormal → ∀ e, float v = .error e → e = .typeError

/-- The arithmetic mean. -/
def mean (xs : List Rat) : Rat := xs.sum / xs.length

/-- The population variance: the mean squared distance from the mean. -/
def variance (xs : List Rat) : Rat := (xs.map fun x => (x - mean xs) ^ 2).sum / xs.length

/-- `m` is the greatest of `xs`. -/
def IsGreatest (xs : List Rat) (m : Rat) : Prop := m ∈ xs ∧ ∀ x ∈ xs, x ≤ m

/-- `m` is the least of `xs`. -/
def IsLeast (xs : List Rat) (m : Rat) : Prop := m ∈ xs ∧ ∀ x ∈ xs, m ≤ x

/-- The values of one column. -/
def column {V : Type} (rows : List (List V)) (i : Nat) : List V := rows.filterMap fun r => r[i]?

end Spec
end Verif
