import Verif.Spec.C29

/-! # Specification vocabulary for longer runs -/

set_option autoImplicit false

namespace Verif
namespace Spec

open DTree

variable {K : Type} [DecidableEq K] {α : Type}

/-- `F'` continues `F`: every node of `F` is in `F'`, under the same number and with the same
gradient sums and weight; an inner node of `F` is the same node in `F'`, split by the same party
on the same feature at the same threshold.  (Only leaves of `F` can be split in `F'`.) -/
structure Continues (S : Setup K α) (F F' : Fitted K) : Prop where
  nodes : ∀ (i : Nat) n, F.tree[i]? = some n → ∃ n', F'.tree[i]? = some n' ∧ n'.id = n.id ∧
    n'.sumGrad = n.sumGrad ∧ n'.sumHess = n.sumHess ∧ n'.weight = n.weight ∧
    (n.isLeaf = false → n' = n)
  splits : ∀ i j f t, SplitAt S F i j f t → SplitAt S F' i j f t

end Spec
end Verif
