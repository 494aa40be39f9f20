import Verif.Model.GuestEncrypt
import Verif.Spec.C53
import Verif.Spec.C56
import Mathlib.Data.Nat.Size

/-! # Specification vocabulary for runs with strict Paillier encryption of float gradients -/

set_option autoImplicit false

namespace Verif
namespace Spec

open DTree Histogram Program
open Data (Cell)

variable {K : Type} [DecidableEq K] {L : Type}

/-- Bounds on `n` gradients of size up to `gmax` and hessians of size up to `hmax`, where a hessian
plus λ is at least `m`, and on the minimal gain: nothing is said about which numbers they are. -/
structure Moderate (n : Nat) (m gmax hmax minImp : Rat) : Prop where
  pos : 0 < m
  grad : 1 ≤ gmax ∧ gmax ≤ 2 ^ 52
  hess : 1 ≤ hmax ∧ hmax ≤ 2 ^ 52
  gains : (n * gmax) ^ 2 ≤ 5 * 10 ^ 8 * m
  sums : n * hmax ≤ 2 ^ 43 * m
  number : n ≤ 2 ^ 100
  impurity : |minImp| ≤ 10 ^ 9

/-- The guest encrypts all gradients and hessians with a key of more than 1000 bits in strict mode,
and everything else with the same key; all random numbers are usable. -/
structure Strict (p q : Nat) (sk : Paillier.PrivKey)
    (enc : Nat → Nat → DTable K (Rat × Rat) → Except PyErr (DTable K (Num × Num)))
    (cipher : Nat → Nat → Nat → Nat → Cipher Num) (arith : Arith Num) : Prop where
  key : KeyPair p q sk
  size : 1000 < Nat.size sk.pk.n.toNat
  enc : ∃ draw : Nat → Nat → K → Nat → Int, (∀ i t k c, Usable sk (draw i t k c)) ∧
    ∀ i t gh, enc i t gh = strictEncrypt sk.pk (draw i t) gh
  cipher : ∃ draw : Nat → Nat → Nat → Nat → Nat × Nat → Int, (∀ i t d b l, Usable sk (draw i t d b l)) ∧
    ∀ i t d b, cipher i t d b = paillierCipher sk (draw i t d b)
  arith : arith = Histogram.paillier

/-- A boosting run with strict encryption: the raw rows of the same samples at every party, usual
settings, a loss whose gradients and hessians satisfy `G` and are bounded. -/
structure StrictBoost (p q : Nat) (sk : Paillier.PrivKey) (m gmax hmax : Rat)
    (G : Rat × Rat → Prop) (B : Boost K Num L) (y : DTable K L)
    (rows : Option Nat → DTable K (List Rat)) : Prop where
  raw : ∀ j P, partyAt B.base j = some P → FromRaw P (rows j) ∧
    (∀ i t, (B.valid i t j).length = P.splits.length) ∧ P.splits.length ≤ 2 ^ 31 ∧
    ∀ k, k ∈ (rows j).data.keys ↔ k ∈ y.data.keys
  names : (B.base.hosts.map Party.idx).Nodup
  wf : y.WF
  depth : 1 ≤ B.base.maxDepth ∧ B.base.maxDepth ≤ 31
  batch : B.base.maxSplitNodes ≠ 0
  kind : B.base.kind ≠ .other
  hosts : B.base.hosts ≠ []
  leaf : 1 ≤ B.base.cfg.minLeaf
  lam : 0 ≤ B.base.cfg.regLambda
  grads : ∀ k l f, y.data.get? k = some l → f.length = B.dim → ∃ g h, B.gradHess l f = .ok (g, h) ∧
    g.length = B.dim ∧ h.length = B.dim ∧
    ∀ (c : Nat) a b, g[c]? = some a → h[c]? = some b → G (a, b)
  loss : ∀ s : DTable K (List Rat), s.WF → (∀ k, k ∈ s.data.keys ↔ k ∈ y.data.keys) →
    ∃ v, B.loss y s = .ok v
  bounds : ∀ a b, G (a, b) → |a| ≤ gmax ∧ 0 ≤ b ∧ b ≤ hmax ∧ m ≤ b + B.base.cfg.regLambda
  moderate : Moderate y.data.length m gmax hmax B.base.cfg.minImpurity
  strict : Strict p q sk B.enc B.cipher B.base.arith

/-- The same for the programs on files with `n` lines. -/
structure StrictProgram {P : Type} (p q : Nat) (sk : Paillier.PrivKey) (m gmax hmax : Rat)
    (G : Rat × Rat → Prop) (S : Settings Num P) (n : Nat) : Prop where
  error : 0 ≤ S.binning.error
  abnormal : S.binning.abnormal = []
  bins : 1 ≤ S.binNum
  depth : 1 ≤ S.maxDepth ∧ S.maxDepth ≤ 31
  fuel : 2 ^ S.maxDepth ≤ S.fuel
  batch : S.maxSplitNodes ≠ 0
  kind : S.kind ≠ .other
  leaf : 1 ≤ S.tree.minLeaf
  lam : 0 ≤ S.tree.regLambda
  grads : ∀ (num c : Nat) l f, c < num → l.value = (Label.int (T := Cell) c).value →
    f.length = components num → ∃ g h, S.gradHess num l f = .ok (g, h) ∧
    g.length = components num ∧ h.length = components num ∧
    ∀ (c : Nat) a b, g[c]? = some a → h[c]? = some b → G (a, b)
  loss : ∀ (num : Nat) y s, s.WF → (∀ k, k ∈ s.data.keys ↔ k ∈ y.data.keys) →
    ∃ v, S.loss num y s = .ok v
  bounds : ∀ a b, G (a, b) → |a| ≤ gmax ∧ 0 ≤ b ∧ b ≤ hmax ∧ m ≤ b + S.tree.regLambda
  moderate : Moderate n m gmax hmax S.tree.minImpurity
  strict : Strict p q sk S.enc S.cipher S.arith
  softmax : ∀ s, (S.softmax s).length = s.length

/-- What a tree trained on gradients that are encrypted with errors of up to `eg` and `eh` has in
common with the tree of the exact greedy algorithm: at every node, with `A` the samples that reach
it, the recorded sums are those of `A` up to the errors, the weight is the optimal one for the
recorded sums, and the node is a leaf only at the maximal depth or if no split of any party gains
noticeably, and otherwise is split by a condition that is nearly the best one. -/
def NearlyGreedy {α : Type} (S : Setup K α) (F : Fitted K) (rows : Option Nat → DTable K (List Rat))
    (m eg eh : Rat) : Prop :=
  ∀ (i : Nat) n, F.tree[i]? = some n → ∀ A, Lists A (fun k => k ∈ S.gh.data.keys ∧ Reaches S F rows k i) →
    A ≠ [] ∧ |n.sumGrad - (sumKeys S.gh A).1| ≤ S.maxDepth * (S.gh.data.length * eg) ∧
    |n.sumHess - (sumKeys S.gh A).2| ≤ S.maxDepth * (S.gh.data.length * eh) ∧
    n.weight = -n.sumGrad / (S.cfg.regLambda + n.sumHess) ∧
    ∃ d, DepthAt F.tree i d ∧ d ≤ S.maxDepth ∧
      ((n.isLeaf = true ∧ (d = S.maxDepth ∨
          NoSplit S (2 / 10 ^ 6 + 3 * gainError S m eg + gainShift S m eg eh) A)) ∨
       (n.isLeaf = false ∧ d < S.maxDepth ∧ ∃ j P f b l sp t, partyAt S j = some P ∧
          P.splits[f]? = some sp ∧ sp[b]? = some t ∧ SplitAt S F i j f t ∧
          NearlyBest S (1 / 10 ^ 6 + 2 * gainError S m eg + 2 * gainShift S m eg eh)
            (gainShift S m eg eh) A j f b l))

/-- Error of a number of size up to `b` that is encrypted as a float. -/
def floatError (b : Rat) : Rat := b / 2 ^ 50 + FP.tiny

end Spec
end Verif
