import Verif.Spec.C51
import Verif.Spec.C68
import Verif.Model.Rounding

/-! # Specification vocabulary for training with rounded floats -/

set_option autoImplicit false

namespace Verif
namespace Spec

open DTree Histogram

variable {K : Type} [DecidableEq K] {α : Type}

/-- The error that one level can add to the sums of a node, if encrypted numbers are off by `e`,
rounding by `ε`, and features have at most `bins` split points. -/
def sumError (S : Setup K α) (bins : Nat) (ε e : Rat) : Rat :=
  S.gh.data.length * e + (3 * S.gh.data.length + bins + 3) * ε

/-- No gradient sum that is computed exceeds this size. -/
def gradRange (S : Setup K α) (bins : Nat) (ε eg : Rat) : Rat :=
  (S.gh.data.map fun x => |x.2.1|).sum + (S.maxDepth + 1) * sumError S bins ε eg

/-- The same for hessian sums with λ added. -/
def hessRange (S : Setup K α) (bins : Nat) (ε eh : Rat) : Rat :=
  (S.gh.data.map fun x => |x.2.2|).sum + S.cfg.regLambda + (S.maxDepth + 1) * sumError S bins ε eh

/-- No gain that is computed exceeds this size, nor does the least gain that is worth a split. -/
def gainRange (S : Setup K α) (bins : Nat) (m ε eg : Rat) : Rat :=
  max (3 * (2 * (gradRange S bins ε eg ^ 2 + ε) / m) + 5 * ε) (|S.cfg.minImpurity| + 1)

/-- The computed gain of a split is off by at most this much. -/
def roundedShift (S : Setup K α) (bins : Nat) (m ε eg eh : Rat) : Rat :=
  3 * (4 * gradRange S bins ε eg * ((S.maxDepth + 1) * sumError S bins ε eg) / m +
    4 * gradRange S bins ε eg ^ 2 * ((S.maxDepth + 1) * sumError S bins ε eh + ε) / m ^ 2 + 2 * ε / m + ε) + 2 * ε

/-- Error of a gain that is encrypted and decrypted. -/
def roundedError (S : Setup K α) (bins : Nat) (m ε eg : Rat) : Rat :=
  gainRange S bins m ε eg / 2 ^ 50 + FP.tiny + ε

/-- The weight of a node is off by at most this much. -/
def weightError (S : Setup K α) (bins : Nat) (m ε eg eh : Rat) : Rat :=
  2 * (S.maxDepth * sumError S bins ε eg) / m +
    2 * gradRange S bins ε eg * (S.maxDepth * sumError S bins ε eh + ε) / m ^ 2 + ε

/-- A run of the protocol with Paillier encryption (see `PaillierRun`) in which the result of every
float operation is rounded, by at most `ε` for numbers up to `M`: all errors of hessians together
stay below `m / 2`, everything that is computed stays within `M`, and a gain survives encryption with
an error of less than 1e-6. -/
structure RoundedRun (p q : Nat) (sk : Paillier.PrivKey) (lo hi : Int) (m eg eh : Rat) (bins : Nat) (M ε : Rat)
    (S : Setup K Histogram.Num) : Prop where
  key : KeyPair p q sk
  hi0 : 0 ≤ hi
  gap : (16 : Int) ^ (hi - lo).toNat ≤ sk.pk.n / 3 - 1
  big : 2 ^ 53 ≤ sk.pk.n / 3 - 1
  cipher : ∃ draw : Nat → Nat → Nat × Nat → Int, (∀ d b l, Usable sk (draw d b l)) ∧
    ∀ d b, S.cipher d b = roundCipher S.cfg.rnd (paillierCipher sk (draw d b))
  arith : S.arith = Histogram.paillier
  errors : 0 ≤ eg ∧ 0 ≤ eh
  enc : ∃ enc : DTable K (Paillier.EncNum × Paillier.EncNum), S.encGh = liftGh enc ∧
    List.Forall₂ (fun a b => a.1 = b.1 ∧ EncryptionOf sk lo hi eg a.2.1 b.2.1 ∧
      EncryptionOf sk lo hi eh a.2.2 b.2.2) enc.data S.gh.data
  windowG : ((S.gh.data.map fun x => |x.2.1|).sum + S.gh.data.length * eg) * (16 : Rat) ^ hi ≤
    ((sk.pk.n / 3 - 1 : Int) : Rat)
  windowH : ((S.gh.data.map fun x => |x.2.2|).sum + S.gh.data.length * eh) * (16 : Rat) ^ hi ≤
    ((sk.pk.n / 3 - 1 : Int) : Rat)
  eps : 0 ≤ ε
  rounds : RoundsWithin S.cfg.rnd M ε
  points : ∀ sp ∈ S.guest.splits, sp.length ≤ bins
  room : (S.maxDepth + 1) * sumError S bins ε eh + ε ≤ m / 2
  sizes : 3 * gradRange S bins ε eg ≤ M ∧ 3 * hessRange S bins ε eh ≤ M
  weights : 2 * gradRange S bins ε eg / m ≤ M
  square : gradRange S bins ε eg ^ 2 ≤ M
  gains : gainRange S bins m ε eg + 1 ≤ M
  accuracy : roundedError S bins m ε eg + 3 * ε ≤ 1 / 10 ^ 6

end Spec
end Verif
