import Verif.Spec.C26
import Verif.Spec.C20
import Mathlib.Logic.Relation

/-! # Specification vocabulary for walking a finished tree with raw values -/

set_option autoImplicit false

namespace Verif
namespace Spec

open DTree

variable {K : Type} [DecidableEq K] {α : Type}

/-- The party trains on what the preparation of its rows (alignment, fitting of the split points,
binning) returns. -/
def FromRaw (P : Party K) (rows : DTable K (List Rat)) : Prop :=
  ∃ (cfg : Quantile.Config) (binNum : Nat) (header : List String), 0 ≤ cfg.error ∧
    cfg.abnormal = [] ∧ 1 ≤ binNum ∧ header.Nodup ∧ rows.WF ∧ rows.data ≠ [] ∧
    (∀ k row, rows.data.get? k = some row → row.length = header.length) ∧
    Binning.prepare cfg binNum header rows = .ok (P.data, P.splits, P.sparse)

/-- Feature `f` of a row; near-zero values are read as zero. -/
def value (row : List Rat) (f : Nat) : Rat := snap ((row[f]?).getD 0)

/-- One step of walking the finished tree with the raw rows: at a split of party `j`, the sample
goes left if its value of the feature is not above the threshold, else right. -/
def Step (S : Setup K α) (F : Fitted K) (rows : Option Nat → DTable K (List Rat)) (k : K)
    (i c : Nat) : Prop :=
  ∃ j f t row n, SplitAt S F i j f t ∧ (rows j).data.get? k = some row ∧ F.tree[i]? = some n ∧
    ((value row f ≤ t ∧ n.left = some c) ∨ (t < value row f ∧ n.right = some c))

/-- The sample comes to node `i` on its walk from the root. -/
def Reaches (S : Setup K α) (F : Fitted K) (rows : Option Nat → DTable K (List Rat)) (k : K)
    (i : Nat) : Prop :=
  Relation.ReflTransGen (Step S F rows k) 0 i

/-- The weight training has recorded for a sample. -/
def trainedWeight (F : Fitted K) (k : K) : Option Rat := F.weights.bind fun t => t.data.get? k

end Spec
end Verif
