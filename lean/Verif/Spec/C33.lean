import Verif.Model.Labels

/-!
# Specification for C33: codes of labels
-/

set_option autoImplicit false

namespace Verif
namespace Spec

variable {T : Type} [LinearOrder T]

/-- The labels can be compared with each other: all are numbers, or none is. -/
def Comparable (ls : List (Label T)) : Prop :=
  (∀ l ∈ ls, l.isNum = true) ∨ ∀ l ∈ ls, l.isNum = false

/-- The different values in a column of labels. -/
def distinct (ls : List (Label T)) : List (Rat ⊕ₗ T) := (ls.map Label.value).dedup

/-- How many different values of the column are smaller. -/
def rank (ls : List (Label T)) (l : Label T) : Nat :=
  ((distinct ls).filter fun v => v < l.value).length

end Spec
end Verif
