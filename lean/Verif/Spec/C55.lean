import Verif.Spec.C53
import Verif.Spec.C54
import Verif.Model.CentralBoost

/-! # Specification vocabulary for comparing whole runs with training on the joined columns -/

set_option autoImplicit false

namespace Verif
namespace Spec

open DTree

variable {K : Type} [DecidableEq K] {α L : Type}

/-- `C` is the centralised counterpart of the boosting run `B`: the same settings and loss, one
party with the columns of all parties, and for every tree the same features sampled.  The loss
may add up the samples in another order. -/
structure CentralisedBoost (B : Boost K α L) (y : DTable K L)
    (rows : Option Nat → DTable K (List Rat)) (C : CBoost K L) (all : DTable K (List Rat)) : Prop
    extends JoinedColumns B.base rows C.base.party all where
  cfg : C.base.cfg = B.base.cfg
  depth : C.base.maxDepth = B.base.maxDepth
  batch : C.base.maxSplitNodes ≠ 0
  kind : C.base.kind ≠ .other
  columns : C.base.party.splits.length ≤ 2 ^ 31
  valid : ∀ i t, C.valid i t = sideBySide B.base (B.valid i t)
  gradHess : C.gradHess = B.gradHess
  loss : ∀ s s' : DTable K (List Rat), s.WF → s'.WF → (∀ k, s'.data.get? k = s.data.get? k) →
    C.loss y s' = B.loss y s
  rounds : C.rounds = B.rounds
  dim : C.dim = B.dim
  rate : C.rate = B.rate
  early : C.early = B.early
  tol : C.tol = B.tol

/-- `gh` has the gradients and hessians that tree `n` is trained on: those of its component at the
scores after the finished rounds. -/
def GradientsFor (B : Boost K α L) (y : DTable K L) (init : List Rat) (fits : List (Fitted K))
    (n : Nat) (gh : DTable K (Rat × Rat)) : Prop :=
  gh.WF ∧ (∀ k, k ∈ gh.data.keys ↔ k ∈ y.data.keys) ∧
    ∀ k l, y.data.get? k = some l → ∃ g h a b,
      B.gradHess l (scoreAfter init B.rate B.dim (weightIn fits k) (n / B.dim * B.dim)) = .ok (g, h) ∧
      g[n % B.dim]? = some a ∧ h[n % B.dim]? = some b ∧ gh.data.get? k = some (a, b)

/-- The choice of the split is clear at every node of every tree of the run. -/
def DecisiveRun (B : Boost K α L) (y : DTable K L) (init : List Rat)
    (rows : Option Nat → DTable K (List Rat)) (fits : List (Fitted K)) : Prop :=
  ∀ (n : Nat) F gh egh, fits[n]? = some F → GradientsFor B y init fits n gh →
    DecisiveTree (treeSetup B (n / B.dim) (n % B.dim) gh egh) F rows

end Spec
end Verif
