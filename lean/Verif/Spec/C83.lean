import Verif.Spec.C51

/-! # Specification vocabulary for trees whose splits separate the training samples -/

set_option autoImplicit false

namespace Verif
namespace Spec

open DTree

variable {K : Type} [DecidableEq K] {α : Type}

/-- The training samples that come to node `i` and whose value of feature `f` of party `j` is on
the given side. -/
def OnSide (S : Setup K α) (F : Fitted K) (rows : Option Nat → DTable K (List Rat)) (i : Nat)
    (j : Option Nat) (f : Nat) (side : Rat → Prop) (k : K) : Prop :=
  (k ∈ S.gh.data.keys ∧ Reaches S F rows k i) ∧
    ∃ row, (rows j).data.get? k = some row ∧ side (value row f)

/-- A tree whose splits separate the training samples. -/
structure Separates (S : Setup K α) (F : Fitted K) (rows : Option Nat → DTable K (List Rat)) : Prop where
  /-- The samples `A` at a split are enough to split, and enough of them (`L` and `R`) are on either
  side of the threshold, which are all of them. -/
  sides : ∀ i j f t A L R, SplitAt S F i j f t →
    Lists A (fun k => k ∈ S.gh.data.keys ∧ Reaches S F rows k i) →
    Lists L (OnSide S F rows i j f fun v => v ≤ t) → Lists R (OnSide S F rows i j f fun v => t < v) →
    S.cfg.minSample ≤ A.length ∧ S.cfg.minLeaf ≤ L.length ∧ S.cfg.minLeaf ≤ R.length ∧
      L.length + R.length = A.length
  /-- Enough samples come to each node but the root. -/
  size : ∀ i A, 0 < i → i < F.tree.length →
    Lists A (fun k => k ∈ S.gh.data.keys ∧ Reaches S F rows k i) → S.cfg.minLeaf ≤ A.length
  /-- No split is on a column in which all samples have the same value. -/
  constant : ∀ j f, (∃ c, ∀ k row, (rows j).data.get? k = some row → value row f = c) →
    ∀ i t, ¬ SplitAt S F i j f t
  /-- The number of leaves is bounded by the number of samples, if the tree has a split. -/
  leaves : 1 < F.tree.length →
    (F.tree.filter Node.isLeaf).length * S.cfg.minLeaf ≤ S.gh.data.length

end Spec
end Verif
