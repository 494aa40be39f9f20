import Verif.Spec.C29

/-! # Specification vocabulary for samples that cannot be told apart -/

set_option autoImplicit false

namespace Verif
namespace Spec

open DTree

variable {K : Type} [DecidableEq K] {α : Type}

/-- The tree compares feature `f` of party `j` with a threshold. -/
def AsksFor (S : Setup K α) (F : Fitted K) (j : Option Nat) (f : Nat) : Prop :=
  ∃ i t, SplitAt S F i j f t

/-- Sample `k` of one data set and sample `k'` of another have the same value (near-zero values
read as zero) of every feature that the tree asks for. -/
def SameAnswers (S : Setup K α) (F : Fitted K) (rows rows' : Option Nat → DTable K (List Rat))
    (k k' : K) : Prop :=
  ∀ j f, AsksFor S F j f → ∀ row row', (rows j).data.get? k = some row →
    (rows' j).data.get? k' = some row' → value row f = value row' f

end Spec
end Verif
