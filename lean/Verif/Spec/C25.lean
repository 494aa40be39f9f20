import Verif.Model.SplitChoice
import Verif.Spec.C24
import Mathlib.Algebra.Order.Group.Abs

/-! # Specification vocabulary for the federated choice of a split -/

set_option autoImplicit false

namespace Verif
namespace Spec

open DTree Histogram

/-- The key holder reads the two sums of cell `c` as those of the plain cell `p`; counts agree.
Cells with too few samples for a split are never decrypted and need not be ciphertexts. -/
def Readable {α : Type} (C : Cipher α) (minLeaf : Int) (c : HCell α) (p : HCell Rat) : Prop :=
  c.2.2 = p.2.2 ∧ (minLeaf ≤ c.2.2 → C.dec c.1 = .ok p.1 ∧ C.dec c.2.1 = .ok p.2.1)

/-- Encryption followed by decryption turns a number `x` up to size `B` into `rd x`, with error at
most `δ`. -/
def FaithfulBy {α : Type} (C : Cipher α) (rd : Rat → Rat) (δ B : Rat) : Prop :=
  ∀ label x, |x| ≤ B → ∃ c, C.enc label x = .ok c ∧ C.dec c = .ok (rd x) ∧ |rd x - x| ≤ δ

/-- Encryption followed by decryption returns numbers up to size `B` with error at most `δ`, equal
numbers with equal results. -/
def Faithful {α : Type} (C : Cipher α) (δ B : Rat) : Prop := ∃ rd, FaithfulBy C rd δ B

/-- The centralised view of a node: what every party could offer.  `none` is the guest, `some j`
the host at position `j`; the last argument are the sums of the left side. -/
abbrev Offers := Option Nat → Nat → Nat → Rat × Rat → Prop

variable {α : Type}

/-- What is assumed about a host's histogram `E` of a node: it stands for the plain histogram `P`
and its splits can be evaluated. -/
structure NodeOk (cfg : Config) (C : Cipher α) (B : Rat) (valid : List Bool) (node : Rat × Rat)
    (E : List (List (HCell α))) (P : List (List (HCell Rat))) : Prop where
  reads : List.Forall₂ (List.Forall₂ (Readable C cfg.minLeaf)) E P
  covers : P.length ≤ valid.length
  count : ∃ cnt, LastIs valid P (fun c => c.2.2 = cnt)
  safe : ∀ f b c, Offered cfg valid P f b c → Safe cfg.regLambda node (c.1, c.2.1)
  bound : ∀ f b c, Offered cfg valid P f b c → |gain cfg.regLambda node (c.1, c.2.1)| ≤ B

/-- The splits a histogram offers. -/
def offersOf (cfg : Config) (valid : List Bool) (P : List (List (HCell Rat))) (f b : Nat)
    (l : Rat × Rat) : Prop := ∃ c, Offered cfg valid P f b c ∧ l = (c.1, c.2.1)

/-- What the parties hold for a node, seen from outside: guest histogram `hist`, plain host
histograms `P j`. -/
def partyOffers (cfg : Config) (valid : List Bool) (hist : List (List (HCell Rat)))
    (hosts : List (HostSide α)) (P : Nat → List (List (HCell Rat))) : Offers
  | none, f, b, l => offersOf cfg valid hist f b l
  | some j, f, b, l => ∃ H, hosts[j]? = some H ∧ offersOf cfg H.valid (P j) f b l

/-- `s` is the federated choice for a node among the splits in `offers`; `gn j l` is the gain of a
split of party `j` with left sums `l`.
`siteOf j` is the name of the host at position `j`; `bidAt j` the bin that host has recorded for
the node.  Gains are compared up to `10^-6` in favour of the guest; `δ` is the error of encrypting
and decrypting a gain.  Of hosts with the same best gain, the first one is chosen. -/
def FederatedChoiceBy (gn : Option Nat → Rat × Rat → Rat) (minImp δ : Rat) (offers : Offers)
    (siteOf : Nat → Site) (bidAt : Nat → Option Int) (s : SplitInfo (Option Rat) Rat) : Prop :=
  -- nobody has a split worth making
  (s.site = .guest ∧ s.fid = none ∧ s.bid = none ∧ s.gain ≤ minImp ∧
    (∀ f b l, offers none f b l → gn none l ≤ minImp) ∧
    ∀ j f b l, offers (some j) f b l → gn (some j) l ≤ minImp + δ) ∨
  -- a split of the guest
  (∃ (f b : Nat) (l : Rat × Rat), s.site = .guest ∧ s.fid = some f ∧ s.bid = some b ∧
    s.sumGrad = some l.1 ∧ s.sumHess = some l.2 ∧ s.gain = gn none l ∧ offers none f b l ∧
    minImp < gn none l ∧
    (∀ f' b' l', offers none f' b' l' → gn none l' ≤ gn none l ∧
      (gn none l' = gn none l → f < f' ∨ (f = f' ∧ b ≤ b'))) ∧
    ∀ j f' b' l', offers (some j) f' b' l' → gn (some j) l' ≤ gn none l + 1 / 10 ^ 6 + δ) ∨
  -- a split of host `j`, which keeps the bin to itself
  (∃ (j f b : Nat) (l : Rat × Rat), s.site = siteOf j ∧ s.fid = some f ∧ s.bid = none ∧
    bidAt j = some b ∧ s.sumGrad = some l.1 ∧ s.sumHess = some l.2 ∧
    |s.gain - gn (some j) l| ≤ δ ∧ offers (some j) f b l ∧ minImp < gn (some j) l ∧
    (∀ f' b' l', offers none f' b' l' →
      gn none l' ≤ minImp ∨
      (gn none l' + 1 / 10 ^ 6 < gn (some j) l + δ ∧ gn none l' < gn (some j) l)) ∧
    (∀ j' f' b' l', offers (some j') f' b' l' → gn (some j') l' ≤ gn (some j) l + 2 * δ ∧
      (j' < j → gn (some j') l' < gn (some j) l + 2 * δ ∧
        (gn (some j') l' = gn (some j) l → ∃ f'' b'' l'', offers (some j') f'' b'' l'' ∧
          gn (some j) l < gn (some j') l''))) ∧
    ∀ f' b' l', offers (some j) f' b' l' → gn (some j) l' ≤ gn (some j) l ∧
      (gn (some j) l' = gn (some j) l → f < f' ∨ (f = f' ∧ b ≤ b')))

/-- The federated choice for a node with sums `node`. -/
def FederatedChoice (lam minImp δ : Rat) (node : Rat × Rat) (offers : Offers)
    (siteOf : Nat → Site) (bidAt : Nat → Option Int) (s : SplitInfo (Option Rat) Rat) : Prop :=
  FederatedChoiceBy (fun _ => gain lam node) minImp δ offers siteOf bidAt s

/-- The gains if the guest takes `own` for the sums of the node, and `node` for splits of hosts. -/
def gainBy (lam : Rat) (own node : Rat × Rat) : Option Nat → Rat × Rat → Rat
  | none => gain lam own
  | some _ => gain lam node

/-- A party's share of the training data during one level of a tree: name, split points and bin of
zero per feature, sampled features, binned rows with the position of each sample in the tree, and
(hosts) the recorded bins. -/
structure Share (K : Type) where
  idx : Nat
  splits : List (List Rat)
  sparse : Dict Nat Nat
  valid : List Bool
  data : DTable K (Binning.SparseVec Binning.Cell × Nat × Nat)
  mask : Dict Nat Int

/-- The share is what data preparation leaves (C21). -/
structure Share.Good {K : Type} [DecidableEq K] (S : Share K) : Prop where
  valid : S.valid.length = S.splits.length
  zero : ZeroBins S.splits S.sparse
  rows : ∀ k x, S.data.data.get? k = some x → BinnedRow S.splits x.1

/-- Two parties have the same samples at the same positions. -/
def Share.Agrees {K : Type} [DecidableEq K] (S T : Share K) : Prop :=
  ∀ k, (S.data.data.get? k).map Prod.snd = (T.data.data.get? k).map Prod.snd

/-- Everything a centralised learner could choose from at node `id`. -/
def centralOffers {K : Type} [DecidableEq K] (cfg : Config) (gh : DTable K (Rat × Rat)) (id : Nat)
    (guest : Share K) (hosts : List (Share K)) : Offers
  | none, f, b, l =>
    OfferedOn cfg guest.valid guest.splits guest.sparse (atNode guest.data gh id) f b l
  | some j, f, b, l => ∃ H, hosts[j]? = some H ∧
    OfferedOn cfg H.valid H.splits H.sparse (atNode H.data gh id) f b l

/-- The same if the gradients of the hosts, `gh'`, need not be those of the guest, `gh`. -/
def mixedOffers {K : Type} [DecidableEq K] (cfg : Config) (gh gh' : DTable K (Rat × Rat)) (id : Nat)
    (guest : Share K) (hosts : List (Share K)) : Offers
  | none, f, b, l =>
    OfferedOn cfg guest.valid guest.splits guest.sparse (atNode guest.data gh id) f b l
  | some j, f, b, l => ∃ H, hosts[j]? = some H ∧
    OfferedOn cfg H.valid H.splits H.sparse (atNode H.data gh' id) f b l

end Spec
end Verif
