import Verif.Lemmas.Chooses
import Verif.Lemmas.Sites

/-! # What is assumed about the choice of splits and about the sums of nodes, in general -/

set_option autoImplicit false

namespace Verif
namespace DTree

open Spec
open Quantile (floatZero)
open Binning (Cell SparseVec)

variable {K : Type} [DecidableEq K] {α : Type}

/-- How far a run may be from exact arithmetic: `near d A s` says that `s` may be recorded as the
sums of the samples `A` of a node of level `d`; `leaf A s`, that such a node may become a leaf before
the last level; `pick A s j f b l`, that it may be split at bin `b` of feature `f` of party `j` with
the left sums `l`; `gain site s l x`, that `x` may be recorded as the gain of a split. -/
structure Rules (K : Type) where
  near : Nat → List K → Rat × Rat → Prop
  leaf : List K → Rat × Rat → Prop
  pick : List K → Rat × Rat → Option Nat → Nat → Nat → Rat × Rat → Prop
  gain : Site → Rat × Rat → Rat × Rat → Rat → Prop

/-- The choice for the samples `A` with the recorded sums `s` follows the rules. -/
def Follows (S : Setup K α) (R : Rules K) (A : List K) (node : Rat × Rat) (bidAt : Nat → Option Int)
    (s : SplitInfo (Option Rat) Rat) : Prop :=
  (s.gain ≤ S.cfg.rnd (S.cfg.minImpurity + floatZero) → R.leaf A node) ∧
  (¬ s.gain ≤ S.cfg.rnd (S.cfg.minImpurity + floatZero) →
    ∃ j P f b l sp, partyAt S j = some P ∧ s.site = siteName P j ∧ s.fid = some ((f : Nat) : Int) ∧
      s.sumGrad = some l.1 ∧ s.sumHess = some l.2 ∧ (j = none → s.bid = some ((b : Nat) : Int)) ∧
      (∀ i, j = some i → bidAt i = some ((b : Nat) : Int)) ∧ P.splits[f]? = some sp ∧
      S.cfg.minLeaf ≤ (A.filter fun k => decide (binAt P f k ≤ (b : Rat))).length ∧
      S.cfg.minLeaf ≤ (A.filter fun k => decide ((b : Rat) < binAt P f k)).length ∧
      R.pick A node j f b l ∧ R.gain s.site node l s.gain)

/-- For any positions of the samples and any batch of nodes with sums near the right ones, the
choice of the parties follows the rules. -/
def ChoosesBy (S : Setup K α) (R : Rules K) : Prop :=
  ∀ (dep batch : Nat) (pos : DTable K (Nat × Nat)) (dataPos : DTable K (SparseVec Cell × Nat × Nat))
    (nodes : List Node) (masks : List (Dict Nat Int)), pos.WF →
    S.guest.data.join pos (fun v p => (v, p)) = .ok dataPos → nodes ≠ [] →
    (nodes.map Node.id).Nodup → S.hosts.length = masks.length → dep < S.maxDepth →
    (∀ n ∈ nodes, R.near dep (membersOf S.gh pos n.id) (n.sumGrad, n.sumHess)) →
    ∃ ss masks', batchSplits S dep batch dataPos pos nodes masks = .ok (ss, masks') ∧
      ss.length = nodes.length ∧
      ∀ (idx : Nat) n s, nodes[idx]? = some n → ss[idx]? = some s →
        Follows S R (membersOf S.gh pos n.id) (n.sumGrad, n.sumHess)
          (fun j => masks'[j]?.bind fun m => Dict.get? m n.id) s

/-- The sums that are recorded for nodes stay near the right ones, and give weights. -/
structure SteadyBy (S : Setup K α) (R : Rules K) : Prop where
  root : ∃ s, gradHessSum S.cfg.rnd S.gh = .ok s ∧ R.near 0 S.gh.data.keys s
  split : ∀ d A s j f b l P, d < S.maxDepth → (∀ k ∈ A, k ∈ S.gh.data.keys) → R.near d A s →
    partyAt S j = some P → R.pick A s j f b l →
    R.near (d + 1) (A.filter fun k => decide (binAt P f k ≤ (b : Rat))) l ∧
    R.near (d + 1) (A.filter fun k => decide ((b : Rat) < binAt P f k))
      (S.cfg.rnd (s.1 - l.1), S.cfg.rnd (s.2 - l.2))
  weight : ∀ d A s, d ≤ S.maxDepth → (∀ k ∈ A, k ∈ S.gh.data.keys) → A ≠ [] → R.near d A s →
    ∃ w, nodeWeight S.cfg.rnd S.cfg.regLambda s.1 s.2 = .ok w

end DTree
end Verif
