import Verif.Model.Splitter
import Verif.Spec.C22
import Mathlib.Algebra.Order.Ring.Rat
import Mathlib.Algebra.Order.Field.Rat

/-! # Specification vocabulary for split finding -/

set_option autoImplicit false

namespace Verif
namespace Spec

open DTree Histogram

/-- The gain of a split: the scores of the two sides minus the score of the node, where the score
of a set of samples is (gradient sum)² / (hessian sum + λ).  Pairs are (gradient sum, hessian
sum). -/
def gain (lam : Rat) (node left : Rat × Rat) : Rat :=
  left.1 ^ 2 / (left.2 + lam) + (node.1 - left.1) ^ 2 / (node.2 - left.2 + lam)
    - node.1 ^ 2 / (node.2 + lam)

/-- The split "feature `f`, bin `b` and below to the left" may be considered for a node with
accumulated histogram `hist`: the feature is enabled, the node has enough samples to be split and
each side has enough samples.  `left` is the cell of the split. -/
def Offered {α : Type} (cfg : Config) (valid : List Bool) (hist : List (List (HCell α)))
    (f b : Nat) (left : HCell α) : Prop :=
  ∃ bins total, valid[f]? = some true ∧ hist[f]? = some bins ∧ bins[b]? = some left ∧
    bins.getLast? = some total ∧ cfg.minSample ≤ total.2.2 ∧ cfg.minLeaf ≤ left.2.2 ∧
    cfg.minLeaf ≤ total.2.2 - left.2.2

/-- All enabled features of the histogram of a node have the same totals in the last bin. -/
def LastIs {α : Type} (valid : List Bool) (hist : List (List (HCell α))) (P : HCell α → Prop) :
    Prop :=
  ∀ (f : Nat) bins c, valid[f]? = some true → hist[f]? = some bins → bins.getLast? = some c → P c

/-- `s` reports the best of the splits `offered f b left` of a node: the largest gain above
`minImp`, among equals the lowest feature and then the lowest bin; or no feature. -/
def IsBest (lam minImp : Rat) (node : Rat × Rat) (offered : Nat → Nat → Rat × Rat → Prop)
    (s : SplitInfo (Option Rat) Rat) : Prop :=
  (s.fid = none ∧ s.bid = none ∧ s.gain = minImp - 1 / 10 ^ 6 ∧
    ∀ f b l, offered f b l → gain lam node l ≤ minImp) ∨
  ∃ (f b : Nat) (l : Rat × Rat), s.fid = some f ∧ s.bid = some b ∧ s.sumGrad = some l.1 ∧
    s.sumHess = some l.2 ∧ s.gain = gain lam node l ∧ offered f b l ∧ minImp < s.gain ∧
    ∀ f' b' l', offered f' b' l' → gain lam node l' ≤ s.gain ∧
      (gain lam node l' = s.gain → f < f' ∨ (f = f' ∧ b ≤ b'))

/-- Divisions by `x + lam` are possible. -/
def Safe (lam : Rat) (node left : Rat × Rat) : Prop :=
  left.2 + lam ≠ 0 ∧ node.2 - left.2 + lam ≠ 0 ∧ node.2 + lam ≠ 0

/-- Gradient and hessian sum of a list of samples. -/
def sumsOf {R : Type} (l : List (R × Rat × Rat)) : Rat × Rat :=
  ((l.map fun s => s.2.1).sum, (l.map fun s => s.2.2).sum)

/-- The split "feature `f`, bin `b` and below to the left" may be considered for a node holding
the samples `S`: the feature is enabled, there are enough samples, and each side gets enough of
them.  `left` are the sums of the left side. -/
def OfferedOn (cfg : Config) (valid : List Bool) (splits : List (List Rat)) (sparse : Dict Nat Nat)
    (S : List (Binning.SparseVec Binning.Cell × Rat × Rat)) (f b : Nat) (left : Rat × Rat) : Prop :=
  valid[f]? = some true ∧ (∃ sp, splits[f]? = some sp ∧ b ≤ sp.length) ∧
    cfg.minSample ≤ S.length ∧ cfg.minLeaf ≤ (upToBin sparse f b S).length ∧
    cfg.minLeaf ≤ (S.filter fun s => decide ((b : Rat) < binOf sparse f s.1)).length ∧
    left = sumsOf (upToBin sparse f b S)

/-- No division by zero can occur: with λ > 0 it is enough that no hessian is negative; with
λ = 0 hessians must be positive and each side non-empty. -/
def Regular {R : Type} (cfg : Config) (S : List (R × Rat × Rat)) : Prop :=
  (0 < cfg.regLambda ∧ ∀ s ∈ S, 0 ≤ s.2.2) ∨
  (0 ≤ cfg.regLambda ∧ 1 ≤ cfg.minLeaf ∧ ∀ s ∈ S, 0 < s.2.2)

end Spec
end Verif
