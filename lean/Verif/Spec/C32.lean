import Verif.Spec.C29
import Verif.Model.Boost

/-! # Specification vocabulary for boosting -/

set_option autoImplicit false

namespace Verif
namespace Spec

open DTree

variable {K : Type} [DecidableEq K]

/-- The scores of a sample after the first `n` trees, which give it the weights `W 0`, `W 1`, ...:
trees `c`, `c + dim`, `c + 2 dim`, ... contribute to component `c`, each with the learning
rate; product and sum are rounded. -/
def scoreAfter (init : List Rat) (rate : Rate) (dim : Nat) (W : Nat → Rat) (n : Nat) : List Rat :=
  init.mapIdx fun c x => ((List.range n).filter fun m => m % dim = c).foldl
    (fun s m => rate.rnd (s + rate.rnd (rate.value * W m))) x

/-- The weight that training of tree `n` has recorded for a sample. -/
def weightIn (fits : List (Fitted K)) (k : K) (n : Nat) : Rat :=
  ((fits[n]?).bind fun F => trainedWeight F k).getD 0

/-- The tables of a run: every party has the same samples, the guest has a label for each of
them, hosts have different names. -/
structure SameData {α L : Type} (B : Boost K α L) (y : DTable K L) : Prop where
  wf : y.WF
  guest : ∀ k, k ∈ B.base.guest.data.data.keys ↔ k ∈ y.data.keys
  hosts : ∀ H ∈ B.base.hosts, ∀ k, k ∈ y.data.keys → k ∈ H.data.data.keys
  names : (B.base.hosts.map Party.idx).Nodup

/-- Tree `n` is trained, with its own feature sample and encryption, on the gradients and hessians
of its component at the scores after the finished rounds: all trees of a round use the same
scores. -/
def TrainedOn {α L : Type} (B : Boost K α L) (y : DTable K L) (init : List Rat)
    (fits : List (Fitted K)) (n : Nat) (F : Fitted K) : Prop :=
  ∃ gh egh, gh.WF ∧ B.enc (n / B.dim) (n % B.dim) gh = .ok egh ∧
    fit (treeSetup B (n / B.dim) (n % B.dim) gh egh) = .ok F ∧
    (∀ k, k ∈ gh.data.keys ↔ k ∈ y.data.keys) ∧
    ∀ k l, y.data.get? k = some l → ∃ g h a b,
      B.gradHess l (scoreAfter init B.rate B.dim (weightIn fits k) (n / B.dim * B.dim)) = .ok (g, h) ∧
      g[n % B.dim]? = some a ∧ h[n % B.dim]? = some b ∧ gh.data.get? k = some (a, b)

end Spec
end Verif
