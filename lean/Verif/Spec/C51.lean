import Verif.Spec.C25
import Verif.Spec.C28
import Verif.Spec.C23
import Verif.Model.SplitChoice

/-! # Specification vocabulary for greedy tree growing -/

set_option autoImplicit false

namespace Verif
namespace Spec

open DTree Histogram

variable {K : Type} [DecidableEq K] {α : Type}

/-- `A` lists the samples with property `p`, each once. -/
def Lists (A : List K) (p : K → Prop) : Prop := A.Nodup ∧ ∀ k, k ∈ A ↔ p k

/-- Gradient and hessian of a sample. -/
def ghOf (gh : DTable K (Rat × Rat)) (k : K) : Rat × Rat := (gh.data.get? k).getD (0, 0)

/-- Gradient and hessian sum of the samples in `A`. -/
def sumKeys (gh : DTable K (Rat × Rat)) (A : List K) : Rat × Rat :=
  ((A.map fun k => (ghOf gh k).1).sum, (A.map fun k => (ghOf gh k).2).sum)

/-- The bin of feature `f` of a sample, in the data of party `P`. -/
def binAt (P : Party K) (f : Nat) (k : K) : Rat :=
  match P.data.data.get? k with
  | some v => binOf P.sparse f v
  | none => 0

/-- The splits that can be considered for a node with the samples `A`: any party `j`, any of its
enabled features `f`, any bin `b`, if there are enough samples in total and on both sides.  `l`
are the sums of the left side. -/
def OfferAt (S : Setup K α) (A : List K) : Offers := fun j f b l =>
  ∃ P sp, partyAt S j = some P ∧ P.valid[f]? = some true ∧ P.splits[f]? = some sp ∧ b ≤ sp.length ∧
    S.cfg.minSample ≤ A.length ∧
    S.cfg.minLeaf ≤ (A.filter fun k => decide (binAt P f k ≤ (b : Rat))).length ∧
    S.cfg.minLeaf ≤ (A.filter fun k => decide ((b : Rat) < binAt P f k)).length ∧
    l = sumKeys S.gh (A.filter fun k => decide (binAt P f k ≤ (b : Rat)))

/-- No split of the samples `A` is worth making: gains do not exceed the minimum by more than
`ε`. -/
def NoSplit (S : Setup K α) (ε : Rat) (A : List K) : Prop :=
  ∀ j f b l, OfferAt S A j f b l →
    gain S.cfg.regLambda (sumKeys S.gh A) l ≤ S.cfg.minImpurity + ε

/-- The guest comes before the hosts, the hosts are ordered by position. -/
def Earlier : Option Nat → Option Nat → Prop
  | none, some _ => True
  | some i, some j => i < j
  | _, none => False

/-- The split of party `j` at bin `b` of feature `f` with left sums `l` is worth making and the
best of all, up to `ε`; among the party's own splits it is the best one exactly, with the lowest
feature and then bin.  An earlier party does not have the same best gain. -/
def BestSplit (S : Setup K α) (ε : Rat) (A : List K) (j : Option Nat) (f b : Nat) (l : Rat × Rat) :
    Prop :=
  OfferAt S A j f b l ∧ S.cfg.minImpurity < gain S.cfg.regLambda (sumKeys S.gh A) l ∧
  (∀ j' f' b' l', OfferAt S A j' f' b' l' →
    gain S.cfg.regLambda (sumKeys S.gh A) l' ≤ gain S.cfg.regLambda (sumKeys S.gh A) l + ε) ∧
  (∀ f' b' l', OfferAt S A j f' b' l' →
    gain S.cfg.regLambda (sumKeys S.gh A) l' ≤ gain S.cfg.regLambda (sumKeys S.gh A) l ∧
    (gain S.cfg.regLambda (sumKeys S.gh A) l' = gain S.cfg.regLambda (sumKeys S.gh A) l →
      f < f' ∨ (f = f' ∧ b ≤ b'))) ∧
  ∀ j' f' b' l', Earlier j' j → OfferAt S A j' f' b' l' →
    gain S.cfg.regLambda (sumKeys S.gh A) l' = gain S.cfg.regLambda (sumKeys S.gh A) l →
    ∃ f'' b'' l'', OfferAt S A j' f'' b'' l'' ∧
      gain S.cfg.regLambda (sumKeys S.gh A) l < gain S.cfg.regLambda (sumKeys S.gh A) l''

/-- All parties are prepared for training: masks of sampled features of the right length, binned
rows, the bins of zero, the same samples everywhere, gradients for exactly these samples. -/
structure Prepared (S : Setup K α) : Prop where
  parties : ∀ j P, partyAt S j = some P → P.valid.length = P.splits.length ∧
    ZeroBins P.splits P.sparse ∧ P.data.WF ∧
    (∀ k v, P.data.data.get? k = some v → BinnedRow P.splits v) ∧
    ∀ k, k ∈ P.data.data.keys ↔ k ∈ S.gh.data.keys
  names : (S.hosts.map Party.idx).Nodup
  wf : S.gh.WF
  some : S.gh.data ≠ []

/-- Every party trains on the preparation of its own raw rows; all have the same samples, the
guest has gradients for them; there is a flag for every feature that says whether it is sampled. -/
structure RawRun (S : Setup K α) (rows : Option Nat → DTable K (List Rat)) : Prop where
  parties : ∀ j P, partyAt S j = some P → FromRaw P (rows j) ∧ P.valid.length = P.splits.length ∧
    ∀ k, k ∈ (rows j).data.keys ↔ k ∈ S.gh.data.keys
  names : (S.hosts.map Party.idx).Nodup
  wf : S.gh.WF

/-- `X` is a ciphertext of a number that differs from `v` by at most `e`. -/
def EncryptionOf (sk : Paillier.PrivKey) (lo hi : Int) (e : Rat) (X : Paillier.EncNum) (v : Rat) : Prop :=
  ∃ w, CiphertextOf sk lo hi X w ∧ |w - v| ≤ e

/-- No gradient sum of a node exceeds this size, if an encrypted gradient may be off by `eg`. -/
def gradSize (S : Setup K α) (eg : Rat) : Rat :=
  (S.gh.data.map fun x => |x.2.1|).sum + (S.maxDepth + 1) * (S.gh.data.length * eg)

/-- Error of a gain that is encrypted and decrypted, if no hessian plus λ is below `m`. -/
def gainError (S : Setup K α) (m eg : Rat) : Rat :=
  max (2 * gradSize S eg ^ 2 / m) |S.cfg.minImpurity - 1 / 10 ^ 6| / 2 ^ 50 + FP.tiny

/-- The gain of a split, computed from sums that are off because the encrypted gradients and
hessians are off by up to `eg` and `eh`, is off by at most this much. -/
def gainShift (S : Setup K α) (m eg eh : Rat) : Rat :=
  3 * (4 * gradSize S eg * ((S.maxDepth + 1) * (S.gh.data.length * eg)) / m +
    4 * gradSize S eg ^ 2 * ((S.maxDepth + 1) * (S.gh.data.length * eh)) / m ^ 2)

/-- The split of party `j` at bin `b` of feature `f` with left sums `l` has a gain that is above the
minimum, up to `η`, and that no split of any party exceeds by more than `ε`. -/
def NearlyBest (S : Setup K α) (ε η : Rat) (A : List K) (j : Option Nat) (f b : Nat) (l : Rat × Rat) :
    Prop :=
  OfferAt S A j f b l ∧ S.cfg.minImpurity - η < gain S.cfg.regLambda (sumKeys S.gh A) l ∧
  ∀ j' f' b' l', OfferAt S A j' f' b' l' →
    gain S.cfg.regLambda (sumKeys S.gh A) l' ≤ gain S.cfg.regLambda (sumKeys S.gh A) l + ε

/-- The hosts compute on Paillier ciphertexts of the gradients and hessians, which are off by at
most `eg` and `eh`: usable keys and randomness, the plaintext range holds the sums of all gradients
(whose exponents lie between `lo` and `hi`), all errors of hessians together stay below `m / 2`,
and a gain survives encryption with an error of at most 1e-6. -/
structure PaillierRun (p q : Nat) (sk : Paillier.PrivKey) (lo hi : Int) (m eg eh : Rat)
    (S : Setup K Histogram.Num) : Prop where
  key : KeyPair p q sk
  hi0 : 0 ≤ hi
  gap : (16 : Int) ^ (hi - lo).toNat ≤ sk.pk.n / 3 - 1
  big : 2 ^ 53 ≤ sk.pk.n / 3 - 1
  cipher : ∃ draw : Nat → Nat → Nat × Nat → Int, (∀ d b l, Usable sk (draw d b l)) ∧
    ∀ d b, S.cipher d b = paillierCipher sk (draw d b)
  arith : S.arith = Histogram.paillier
  errors : 0 ≤ eg ∧ 0 ≤ eh
  enc : ∃ enc : DTable K (Paillier.EncNum × Paillier.EncNum), S.encGh = liftGh enc ∧
    List.Forall₂ (fun a b => a.1 = b.1 ∧ EncryptionOf sk lo hi eg a.2.1 b.2.1 ∧
      EncryptionOf sk lo hi eh a.2.2 b.2.2) enc.data S.gh.data
  room : S.maxDepth * (S.gh.data.length * eh) ≤ m / 2
  windowG : ((S.gh.data.map fun x => |x.2.1|).sum + S.gh.data.length * eg) * (16 : Rat) ^ hi ≤
    ((sk.pk.n / 3 - 1 : Int) : Rat)
  windowH : ((S.gh.data.map fun x => |x.2.2|).sum + S.gh.data.length * eh) * (16 : Rat) ^ hi ≤
    ((sk.pk.n / 3 - 1 : Int) : Rat)
  accuracy : gainError S m eg ≤ 1 / 10 ^ 6

/-- Settings under which a tree can be trained. -/
structure Usual (S : Setup K α) (m : Rat) : Prop where
  depth : 1 ≤ S.maxDepth
  batch : S.maxSplitNodes ≠ 0
  kind : S.kind ≠ .other
  hosts : S.hosts ≠ []
  leaf : 1 ≤ S.cfg.minLeaf
  lam : 0 ≤ S.cfg.regLambda
  hess : 0 < m ∧ ∀ x ∈ S.gh.data, 0 ≤ x.2.2 ∧ m ≤ x.2.2 + S.cfg.regLambda

end Spec
end Verif
