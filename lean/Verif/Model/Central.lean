import Verif.Model.Predict

/-!
# Training and prediction without federation

`xgboost/hetero_decision_tree_guest.py`, the program the README compares with: one party holds all
columns; the calls of the federated program that talk to hosts are empty (`sync_...` send nothing
and return `[]`).  Functions that are textually the same as in
`ml/tree/hetero_decision_tree_guest.py` (`update_tree_node_queue` 92-135, `dispatch_node` 310-327,
`convert_bin_to_real` 299-308, `traverse_tree` 538-553) are shared with the model of that file.
The encryption of the gradients (231-240, 369-372), whose result is not used, is not modelled.
-/

set_option autoImplicit false

namespace Verif
namespace DTree

open Histogram (Hist getHistograms floats)
open Binning (Cell SparseVec)

variable {K : Type} [DecidableEq K]

/-- Settings and inputs of a run. -/
structure Central (K : Type) where
  cfg : Config
  kind : ImpType
  maxDepth : Nat
  maxSplitNodes : Nat
  party : Party K
  gh : DTable K (Rat × Rat)

/-- `xgboost/hetero_decision_tree_guest.py` 440-457, one batch of nodes: the histograms and the
party's best splits.  There are no splits of hosts: `federated_find_split` (195-206) does nothing,
`sync_final_split_host` (208-216) returns `[]`, and `merge_splitinfo` (396-410) with
`find_best_split_guest_and_host` (374-394) returns the party's own splits. -/
def centralBatch (C : Central K) (dataPos : DTable K (SparseVec Cell × Nat × Nat))
    (nodes : List Node) : Except PyErr (List (SplitInfo (Option Rat) Rat)) := do
  let H ← getHistograms (floats C.cfg.rnd) C.party.splits C.party.sparse (some C.party.valid)
    (nodes.map Node.id) dataPos C.gh
  findSplit C.cfg C.party.valid H

/-- `xgboost/hetero_decision_tree_guest.py` 437-459: the batches of at most `maxSplitNodes` nodes
(`fuel` bounds the number of batches). -/
def centralBatches (C : Central K) (dataPos : DTable K (SparseVec Cell × Nat × Nat)) :
    Nat → List Node → Except PyErr (List (SplitInfo (Option Rat) Rat))
  | _, [] => .ok []
  | 0, _ :: _ => .ok []
  | fuel + 1, n :: ns => do
    let ss ← centralBatch C dataPos ((n :: ns).take C.maxSplitNodes)
    let rest ← centralBatches C dataPos fuel ((n :: ns).drop C.maxSplitNodes)
    pure (ss ++ rest)

/-- State of a run between two levels. -/
structure CState (K : Type) where
  grow : Grow
  disp : DTable K Disp
  weights : Option (DTable K Rat)

/-- `xgboost/hetero_decision_tree_guest.py` 329-367: new positions and leaf weights.  The results
of hosts are `[]`, so the positions are those the party itself has computed (364-365). -/
def centralRedispatch (C : Central K) (g : Grow)
    (dataPos : DTable K (SparseVec Cell × Nat × Nat)) (weights : Option (DTable K Rat)) :
    Except PyErr (DTable K Disp × Option (DTable K Rat)) := do
  let res ← dataPos.mapValuesM (dispatchNode g.tree g.mask C.party.sparse)
  let toHost ← res.filter (fun _ d => d.isAsk)
  let res ← res.subtractByKey toHost
  let leaf ← res.filter (fun _ d => d.isLeaf)
  let leafW ← leaf.mapValues Disp.weight
  let weights ← addWeights weights leafW
  let res ← res.subtractByKey leaf
  pure (res, some weights)

/-- One level (`xgboost/hetero_decision_tree_guest.py` 424-464).  `range` with step 0 raises. -/
def centralLevel (C : Central K) (reach : Bool) (st : CState K) : Except PyErr (CState K) := do
  let pos ← st.disp.mapValuesM unpackPos
  let dataPos ← C.party.data.join pos (fun v p => (v, p))
  if C.maxSplitNodes = 0 then .error .valueError
  else do
    let ss ← centralBatches C dataPos st.grow.queue.length st.grow.queue
    let g ← updateQueue C.cfg C.kind reach ss st.grow
    let (disp, weights) ← centralRedispatch C g dataPos st.weights
    pure ⟨g, disp, weights⟩

/-- `xgboost/hetero_decision_tree_guest.py` 424-464: the loop over the depths; the argument is the
number of levels that remain. -/
def centralLevels (C : Central K) : Nat → CState K → Except PyErr (CState K)
  | 0, st => .ok st
  | r + 1, st =>
    if st.grow.queue.isEmpty then .ok st
    else match centralLevel C (r = 0) st with
      | .error e => .error e
      | .ok st => centralLevels C r st

/-- `xgboost/hetero_decision_tree_guest.py` 417-422: root node, all samples at the root. -/
def centralInit (C : Central K) : Except PyErr (CState K) := do
  let (g, h) ← gradHessSum C.cfg.rnd C.gh
  let w ← nodeWeight C.cfg.rnd C.cfg.regLambda g h
  let disp ← C.party.data.mapValues (fun _ => Disp.at 1 0)
  pure ⟨⟨[], [Node.fresh 0 g h w], 0, [], []⟩, disp, none⟩

/-- A tree trained without federation. -/
structure CFitted (K : Type) where
  tree : List Node
  mask : Dict Nat Rat
  weights : Option (DTable K Rat)
  imps : Dict (Site × Option Int) Rat
deriving DecidableEq, Repr

/-- `xgboost/hetero_decision_tree_guest.py` 412-469 -/
def centralFit (C : Central K) : Except PyErr (CFitted K) := do
  let st ← centralInit C
  let st ← centralLevels C C.maxDepth st
  let m ← convert .guest C.party.splits st.grow.mask st.grow.tree []
  pure ⟨st.grow.tree, m, st.weights, st.grow.imps⟩

/-- `xgboost/hetero_decision_tree_guest.py` 556-595.  A sample that is not at a leaf after the walk
leads to the call of `sync_data_predicted_by_host`, a method that does not exist. -/
def centralPredict (tree : List Node) (mask : Dict Nat Rat) (rows : DTable K (SparseVec Rat))
    (fuel : Nat) : Except PyErr (DTable K Rat) := do
  let todo ← rows.mapValues (fun _ => PState.node 0 1)
  let moved ← todo.joinM rows (traverseGuest tree mask fuel)
  let leaf ← moved.filter (fun _ s => s.isWeight)
  let leafW ← leaf.mapValues PState.getWeight
  let todo ← moved.subtractByKey leaf
  if todo.count = 0 then pure leafW
  else .error .attributeError

/-- Prediction with one tree on raw rows (aligned by `boosting_tree.py` 69-79). -/
def centralPredictRows (F : CFitted K) (rows : DTable K (List Rat)) (fuel : Nat) :
    Except PyErr (DTable K Rat) := do
  let r ← alignRows rows
  centralPredict F.tree F.mask r fuel

end DTree
end Verif
