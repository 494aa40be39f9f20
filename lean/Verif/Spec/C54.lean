import Verif.Spec.C51
import Verif.Spec.C29
import Verif.Model.Central

/-! # Specification vocabulary for comparing with training on the joined columns -/

set_option autoImplicit false

namespace Verif
namespace Spec

open DTree

variable {K : Type} [DecidableEq K] {α : Type}

/-- Lists of all parties one after the other: the guest's first, then the hosts' in order. -/
def sideBySide {β : Type} (S : Setup K α) (g : Option Nat → List β) : List β :=
  g none ++ (List.range S.hosts.length).flatMap fun j => g (some j)

/-- Number of the first column of a party when the columns of all parties are put side by side. -/
def offset (S : Setup K α) : Option Nat → Nat
  | none => 0
  | some j => S.guest.splits.length + ((S.hosts.take j).map fun H => H.splits.length).sum

/-- `all` has the rows of the parties joined: for every sample, the columns of all parties side by
side. -/
structure JoinedRows (S : Setup K α) (rows : Option Nat → DTable K (List Rat))
    (all : DTable K (List Rat)) : Prop where
  wf : all.WF
  keys : ∀ j P, partyAt S j = some P → ∀ k, k ∈ (rows j).data.keys ↔ k ∈ all.data.keys
  width : ∀ j P, partyAt S j = some P → ∀ k row, (rows j).data.get? k = some row →
    row.length = P.splits.length
  cells : ∀ k row, all.data.get? k = some row →
    row = sideBySide S fun j => ((rows j).data.get? k).getD []

/-- The party `Q` holds the columns of all parties side by side, binned like those of the parties
(which list the samples in the same order). -/
structure JoinedColumns (S : Setup K α) (rows : Option Nat → DTable K (List Rat)) (Q : Party K)
    (all : DTable K (List Rat)) : Prop where
  joined : JoinedRows S rows all
  order : ∀ j P, partyAt S j = some P → (rows j).data.keys = all.data.keys
  bins : ∃ (cfg : Quantile.Config) (binNum : Nat) (header : Option Nat → List String),
    0 ≤ cfg.error ∧ cfg.abnormal = [] ∧ 1 ≤ binNum ∧ (sideBySide S header).Nodup ∧
    (∀ j P, partyAt S j = some P → (header j).length = P.splits.length ∧
      Binning.prepare cfg binNum (header j) (rows j) = .ok (P.data, P.splits, P.sparse)) ∧
    Binning.prepare cfg binNum (sideBySide S header) all = .ok (Q.data, Q.splits, Q.sparse)

/-- `C` is the centralised counterpart of the federated run `S`: the same settings and gradients
(the order of the samples in the gradient tables may differ), one party with the joined columns,
with the same features sampled.  The number of nodes per batch and the kind of importance may be
different. -/
structure Centralised (S : Setup K α) (rows : Option Nat → DTable K (List Rat)) (C : Central K)
    (all : DTable K (List Rat)) : Prop extends JoinedColumns S rows C.party all where
  cfg : C.cfg = S.cfg
  depth : C.maxDepth = S.maxDepth
  batch : C.maxSplitNodes ≠ 0
  kind : C.kind ≠ .other
  gh : C.gh.WF ∧ ∀ k, C.gh.data.get? k = S.gh.data.get? k
  valid : C.party.valid = sideBySide S fun j => ((partyAt S j).map Party.valid).getD []

/-- The gains of the possible splits of `A` leave no doubt about the choice: no gain is close
above the minimum, and splits of different parties do not have almost the same best gain (exactly
the same is no problem). -/
def Decisive (S : Setup K α) (A : List K) : Prop :=
  (∀ j f b l, OfferAt S A j f b l →
    gain S.cfg.regLambda (sumKeys S.gh A) l ≤ S.cfg.minImpurity ∨
    S.cfg.minImpurity + 5 / 10 ^ 6 < gain S.cfg.regLambda (sumKeys S.gh A) l) ∧
  ∀ j f b l j' f' b' l', OfferAt S A j f b l → OfferAt S A j' f' b' l' → j ≠ j' →
    (∀ j'' f'' b'' l'', OfferAt S A j'' f'' b'' l'' →
      gain S.cfg.regLambda (sumKeys S.gh A) l'' ≤ gain S.cfg.regLambda (sumKeys S.gh A) l) →
    gain S.cfg.regLambda (sumKeys S.gh A) l' = gain S.cfg.regLambda (sumKeys S.gh A) l ∨
    gain S.cfg.regLambda (sumKeys S.gh A) l' + 5 / 10 ^ 6 < gain S.cfg.regLambda (sumKeys S.gh A) l

/-- The choice is clear at every node of the tree. -/
def DecisiveTree (S : Setup K α) (F : Fitted K) (rows : Option Nat → DTable K (List Rat)) : Prop :=
  ∀ i < F.tree.length, ∀ A, (Lists A fun k => k ∈ S.gh.data.keys ∧ Reaches S F rows k i) → Decisive S A

/-- The two trees are the same: as many nodes, each with the same sums, weight and children; a
split of feature `f` of party `j` is a split of the column of this feature, with the same
threshold; the samples have the same weights. -/
structure SameTree (S : Setup K α) (F : Fitted K) (T : CFitted K) : Prop where
  length : F.tree.length = T.tree.length
  nodes : ∀ (i : Nat) n n', F.tree[i]? = some n → T.tree[i]? = some n' →
    n'.id = n.id ∧ n'.isLeaf = n.isLeaf ∧ n'.left = n.left ∧ n'.right = n.right ∧
    n'.sumGrad = n.sumGrad ∧ n'.sumHess = n.sumHess ∧ n'.weight = n.weight
  splits : ∀ (i : Nat) n n', F.tree[i]? = some n → T.tree[i]? = some n' → n.isLeaf = false →
    ∃ j f t, SplitAt S F i j f t ∧ n'.site = .guest ∧ n'.fid = some ((offset S j + f : Nat) : Int) ∧
      T.mask.get? i = some t
  weights : ∀ k, (T.weights.bind fun t => t.data.get? k) = trainedWeight F k

end Spec
end Verif
