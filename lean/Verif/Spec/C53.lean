import Verif.Spec.C32
import Verif.Spec.C51

/-! # Specification vocabulary for whole boosting runs with Paillier encryption -/

set_option autoImplicit false

namespace Verif
namespace Spec

open DTree Histogram

variable {K : Type} [DecidableEq K] {L : Type}

/-- A whole run with Paillier encryption whose conditions can be checked before it starts: every
party has prepared its own raw rows, all have the same samples; the loss is defined for the labels
of the samples and all scores, its gradients and hessians satisfy `G`, which bounds them by `gmax` and `hmax` and by `m`
from below (hessian plus λ); such numbers are encrypted with errors of at most `eg` and `eh`, with exponents
between `lo` and `hi`; the errors of all hessians together stay below `m / 2`; the plaintext range has room for as many of them as there are samples, and a gain
survives encryption with an error of at most 1e-6. -/
structure PaillierBoost (p q : Nat) (sk : Paillier.PrivKey) (lo hi : Int) (m gmax hmax eg eh : Rat)
    (G : Rat × Rat → Prop) (B : Boost K Num L) (y : DTable K L)
    (rows : Option Nat → DTable K (List Rat)) : Prop where
  raw : ∀ j P, partyAt B.base j = some P → FromRaw P (rows j) ∧
    (∀ i t, (B.valid i t j).length = P.splits.length) ∧ P.splits.length ≤ 2 ^ 31 ∧
    ∀ k, k ∈ (rows j).data.keys ↔ k ∈ y.data.keys
  names : (B.base.hosts.map Party.idx).Nodup
  wf : y.WF
  depth : 1 ≤ B.base.maxDepth ∧ B.base.maxDepth ≤ 31
  batch : B.base.maxSplitNodes ≠ 0
  kind : B.base.kind ≠ .other
  hosts : B.base.hosts ≠ []
  leaf : 1 ≤ B.base.cfg.minLeaf
  lam : 0 ≤ B.base.cfg.regLambda
  grads : ∀ k l f, y.data.get? k = some l → f.length = B.dim → ∃ g h, B.gradHess l f = .ok (g, h) ∧
    g.length = B.dim ∧ h.length = B.dim ∧
    ∀ (c : Nat) a b, g[c]? = some a → h[c]? = some b → G (a, b)
  loss : ∀ s : DTable K (List Rat), s.WF → (∀ k, k ∈ s.data.keys ↔ k ∈ y.data.keys) →
    ∃ v, B.loss y s = .ok v
  bounds : ∀ a b, G (a, b) → |a| ≤ gmax ∧ 0 ≤ b ∧ b ≤ hmax ∧ m ≤ b + B.base.cfg.regLambda
  pos : 0 < m
  key : KeyPair p q sk
  hi0 : 0 ≤ hi
  gap : (16 : Int) ^ (hi - lo).toNat ≤ sk.pk.n / 3 - 1
  big : 2 ^ 53 ≤ sk.pk.n / 3 - 1
  cipher : ∃ draw : Nat → Nat → Nat → Nat → Nat × Nat → Int, (∀ i t d b l, Usable sk (draw i t d b l)) ∧
    ∀ i t d b, B.cipher i t d b = paillierCipher sk (draw i t d b)
  arith : B.base.arith = Histogram.paillier
  enc : ∀ i t gh, gh.WF → (∀ x ∈ gh.data, G x.2) →
    ∃ e : DTable K (Paillier.EncNum × Paillier.EncNum), B.enc i t gh = .ok (liftGh e) ∧
      List.Forall₂ (fun a b => a.1 = b.1 ∧ EncryptionOf sk lo hi eg a.2.1 b.2.1 ∧
        EncryptionOf sk lo hi eh a.2.2 b.2.2) e.data gh.data
  errors : 0 ≤ eg ∧ 0 ≤ eh
  room : (B.base.maxDepth : Rat) * (y.data.length * eh) ≤ m / 2
  windowG : (y.data.length : Rat) * (gmax + eg) * (16 : Rat) ^ hi ≤ ((sk.pk.n / 3 - 1 : Int) : Rat)
  windowH : (y.data.length : Rat) * (hmax + eh) * (16 : Rat) ^ hi ≤ ((sk.pk.n / 3 - 1 : Int) : Rat)
  accuracy : max (2 * (y.data.length * gmax + (B.base.maxDepth + 1) * (y.data.length * eg)) ^ 2 / m)
    |B.base.cfg.minImpurity - 1 / 10 ^ 6| / 2 ^ 50 +
    FP.tiny ≤ 1 / 10 ^ 6

end Spec
end Verif
