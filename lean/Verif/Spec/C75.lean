import Verif.Spec.C70

/-! # Specification vocabulary for other distributions of the columns over the parties -/

set_option autoImplicit false

namespace Verif
namespace Spec

open DTree

variable {K : Type} [DecidableEq K] {α : Type}

/-- Column `f` of `P` and column `f'` of `P'` are the same: same split points, both sampled or both not,
same values of all samples (`rows` and `rows'` are the tables of the two parties). -/
def SameColumn (keys : List K) (P : Party K) (rows : DTable K (List Rat)) (f : Nat)
    (P' : Party K) (rows' : DTable K (List Rat)) (f' : Nat) : Prop :=
  P'.splits[f']? = P.splits[f]? ∧ P'.valid[f']? = P.valid[f]? ∧
  ∀ k ∈ keys, ∀ row row', rows.data.get? k = some row → rows'.data.get? k = some row' →
    value row' f' = value row f

/-- Every column of a party in `S` is the column of some party in `S'`. -/
def ColumnsOf (S : Setup K α) (rows : Option Nat → DTable K (List Rat)) (S' : Setup K α)
    (rows' : Option Nat → DTable K (List Rat)) : Prop :=
  ∀ j P, partyAt S j = some P → ∀ f < P.splits.length, ∃ j' P' f', partyAt S' j' = some P' ∧
    SameColumn S.gh.data.keys P (rows j) f P' (rows' j') f'

/-- Training with the same limits on the same gradients and the same columns; which party holds which
column, and at which position, may be different, and so may the order of the samples in every table.
Nothing is said about the number of hosts, their numbers and their order, about rounding, keys, draws,
encodings and batches. -/
structure Redistributed (S : Setup K α) (rows : Option Nat → DTable K (List Rat)) (S' : Setup K α)
    (rows' : Option Nat → DTable K (List Rat)) : Prop where
  lam : S'.cfg.regLambda = S.cfg.regLambda
  impurity : S'.cfg.minImpurity = S.cfg.minImpurity
  sample : S'.cfg.minSample = S.cfg.minSample
  leaf : S'.cfg.minLeaf = S.cfg.minLeaf
  depth : S'.maxDepth = S.maxDepth
  gh : S'.gh.data.Perm S.gh.data
  there : ColumnsOf S rows S' rows'
  back : ColumnsOf S' rows' S rows

/-- `TreesAgree` for trees of two distributions: the same shape, the same samples at every node, sums
and weights that differ by at most `a`, `b` and `w`. -/
structure TreesMatch (S : Setup K α) (rows : Option Nat → DTable K (List Rat)) (S' : Setup K α)
    (rows' : Option Nat → DTable K (List Rat)) (a b w : Rat) (F F' : Fitted K) : Prop where
  length : F.tree.length = F'.tree.length
  nodes : ∀ (i : Nat) n n', F.tree[i]? = some n → F'.tree[i]? = some n' →
    n'.id = n.id ∧ n'.isLeaf = n.isLeaf ∧ n'.left = n.left ∧ n'.right = n.right ∧
    |n.sumGrad - n'.sumGrad| ≤ a ∧ |n.sumHess - n'.sumHess| ≤ b ∧ |n.weight - n'.weight| ≤ w
  reach : ∀ k ∈ S.gh.data.keys, ∀ i, Reaches S F rows k i ↔ Reaches S' F' rows' k i
  weights : ∀ k ∈ S.gh.data.keys, ∃ x x', trainedWeight F k = some x ∧ trainedWeight F' k = some x' ∧ |x - x'| ≤ w

end Spec
end Verif
