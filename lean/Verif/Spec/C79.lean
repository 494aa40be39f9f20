import Verif.Spec.C53
import Verif.Spec.C55
import Verif.Spec.C75
import Verif.Spec.C78

/-! # Specification vocabulary for whole runs on other distributions of the columns -/

set_option autoImplicit false

namespace Verif
namespace Spec

open DTree

variable {K : Type} [DecidableEq K] {α L : Type}

/-- Every column of a party in `B` is the column of some party in `B'`: same split points, same values of
the samples, and sampled for the same trees. -/
def ColumnsOfRun (keys : List K) (B : Boost K α L) (rows : Option Nat → DTable K (List Rat)) (B' : Boost K α L)
    (rows' : Option Nat → DTable K (List Rat)) : Prop :=
  ∀ j P, partyAt B.base j = some P → ∀ f < P.splits.length, ∃ j' P' f', partyAt B'.base j' = some P' ∧
    P'.splits[f']? = P.splits[f]? ∧ (∀ i t, (B'.valid i t j')[f']? = (B.valid i t j)[f]?) ∧
    ∀ k ∈ keys, ∀ row row', (rows j).data.get? k = some row → (rows' j').data.get? k = some row' →
      value row' f' = value row f

/-- Boosting with the same limits and the same loss on the same labels and columns; which party holds
which column, and at which position, may be different, and so may the order of the samples in every
table.  Nothing is said about the number of hosts, their numbers and their order, about keys, draws,
encodings and batches.  The loss may add up the samples in another order. -/
structure RedistributedBoost (B : Boost K α L) (y : DTable K L) (rows : Option Nat → DTable K (List Rat))
    (B' : Boost K α L) (y' : DTable K L) (rows' : Option Nat → DTable K (List Rat)) : Prop where
  lam : B'.base.cfg.regLambda = B.base.cfg.regLambda
  impurity : B'.base.cfg.minImpurity = B.base.cfg.minImpurity
  sample : B'.base.cfg.minSample = B.base.cfg.minSample
  leaf : B'.base.cfg.minLeaf = B.base.cfg.minLeaf
  depth : B'.base.maxDepth = B.base.maxDepth
  labels : y'.data.Perm y.data
  there : ColumnsOfRun y.data.keys B rows B' rows'
  back : ColumnsOfRun y.data.keys B' rows' B rows
  gradHess : B'.gradHess = B.gradHess
  loss : ∀ s s' : DTable K (List Rat), s.WF → s'.WF → (∀ k, s'.data.get? k = s.data.get? k) →
    B'.loss y' s' = B.loss y s
  rounds : B'.rounds = B.rounds
  dim : B'.dim = B.dim
  rate : B'.rate = B.rate
  early : B'.early = B.early
  tol : B'.tol = B.tol

/-- The decision is clear by `δ` at every node of every tree of the run (above the depth limit). -/
def ClearRun (B : Boost K α L) (y : DTable K L) (init : List Rat) (δ : Rat)
    (rows : Option Nat → DTable K (List Rat)) (fits : List (Fitted K)) : Prop :=
  ∀ (n : Nat) F gh egh, fits[n]? = some F → GradientsFor B y init fits n gh →
    ClearTree (treeSetup B (n / B.dim) (n % B.dim) gh egh) δ F rows

/-- Two trees of two distributions are the same: as many nodes, with the same numbers, children, sums
and weights; every sample of `keys` goes the same way and gets the same weight. -/
structure SameGrowth (keys : List K) (S : Setup K α) (rows : Option Nat → DTable K (List Rat)) (S' : Setup K α)
    (rows' : Option Nat → DTable K (List Rat)) (F F' : Fitted K) : Prop where
  length : F.tree.length = F'.tree.length
  nodes : ∀ (i : Nat) n n', F.tree[i]? = some n → F'.tree[i]? = some n' →
    n'.id = n.id ∧ n'.isLeaf = n.isLeaf ∧ n'.left = n.left ∧ n'.right = n.right ∧
    n'.sumGrad = n.sumGrad ∧ n'.sumHess = n.sumHess ∧ n'.weight = n.weight
  reach : ∀ k ∈ keys, ∀ i, Reaches S F rows k i ↔ Reaches S' F' rows' k i
  weights : ∀ k, trainedWeight F' k = trainedWeight F k

/-- Boosting with the same settings, parties, labels and rows; the rows of every party and the labels may
come in other orders. -/
structure ReorderedBoost (B : Boost K α L) (y : DTable K L) (rows : Option Nat → DTable K (List Rat))
    (B' : Boost K α L) (y' : DTable K L) (rows' : Option Nat → DTable K (List Rat)) : Prop where
  lam : B'.base.cfg.regLambda = B.base.cfg.regLambda
  impurity : B'.base.cfg.minImpurity = B.base.cfg.minImpurity
  sample : B'.base.cfg.minSample = B.base.cfg.minSample
  leaf : B'.base.cfg.minLeaf = B.base.cfg.minLeaf
  depth : B'.base.maxDepth = B.base.maxDepth
  labels : y'.data.Perm y.data
  hosts : B'.base.hosts.length = B.base.hosts.length
  parties : ∀ j P P', partyAt B.base j = some P → partyAt B'.base j = some P' →
    SameRows P P' (rows j) (rows' j)
  valid : ∀ i t j, B'.valid i t j = B.valid i t j
  gradHess : B'.gradHess = B.gradHess
  loss : ∀ s s' : DTable K (List Rat), s.WF → s'.WF → (∀ k, s'.data.get? k = s.data.get? k) →
    B'.loss y' s' = B.loss y s
  rounds : B'.rounds = B.rounds
  dim : B'.dim = B.dim
  rate : B'.rate = B.rate
  early : B'.early = B.early
  tol : B'.tol = B.tol

end Spec
end Verif
