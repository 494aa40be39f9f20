import Verif.Spec.C75

/-! # Specification vocabulary for tables with the rows in another order -/

set_option autoImplicit false

namespace Verif
namespace Spec

open DTree

variable {K : Type} [DecidableEq K] {α : Type}

/-- `P` and `P'` are prepared with the same settings from the same rows, in any two orders; there are
fewer rows than the buffer of a summary holds (`head_size`, by default 10000). -/
def SameRows (P P' : Party K) (rows rows' : DTable K (List Rat)) : Prop :=
  rows'.data.Perm rows.data ∧ ∃ (cfg : Quantile.Config) (binNum : Nat) (header : List String),
    header.Nodup ∧ (∀ p ∈ rows.data, p.2.length = header.length) ∧ rows.data.length < cfg.headSize ∧
    Binning.prepare cfg binNum header rows = .ok (P.data, P.splits, P.sparse) ∧
    Binning.prepare cfg binNum header rows' = .ok (P'.data, P'.splits, P'.sparse)

/-- Training with the same limits on the same gradients, parties and rows; the rows of every party, and
the gradients, may come in another order, independently of each other. -/
structure Reordered (S : Setup K α) (rows : Option Nat → DTable K (List Rat)) (S' : Setup K α)
    (rows' : Option Nat → DTable K (List Rat)) : Prop where
  lam : S'.cfg.regLambda = S.cfg.regLambda
  impurity : S'.cfg.minImpurity = S.cfg.minImpurity
  sample : S'.cfg.minSample = S.cfg.minSample
  leaf : S'.cfg.minLeaf = S.cfg.minLeaf
  depth : S'.maxDepth = S.maxDepth
  gh : S'.gh.data.Perm S.gh.data
  hosts : S'.hosts.length = S.hosts.length
  parties : ∀ j P P', partyAt S j = some P → partyAt S' j = some P' →
    P'.valid = P.valid ∧ SameRows P P' (rows j) (rows' j)

end Spec
end Verif
