import Mathlib.Data.List.Basic

/-! # Specification vocabulary for C77 -/

set_option autoImplicit false

namespace Verif
namespace Spec

/-- Column `j` of `n` columns is named by the selection: by its number, or counted from the end
as Python indices are. -/
def Picked (sel : List Int) (n j : Nat) : Prop := (j : Int) ∈ sel ∨ (j : Int) - n ∈ sel

instance (sel : List Int) (n j : Nat) : Decidable (Picked sel n j) :=
  inferInstanceAs (Decidable (_ ∨ _))

/-- Every index of the selection is a Python index of a list of `n` elements. -/
def InRange (sel : List Int) (n : Nat) : Prop := ∀ i ∈ sel, -(n : Int) ≤ i ∧ i < n

end Spec
end Verif
