import Verif.Model.Fit

/-!
# Prediction with one tree

`ml/tree/hetero_decision_tree_guest.py` 587-644, `ml/tree/hetero_decision_tree_host.py` 251-267,
346-367.  Guest and hosts are composed into one function; a message is the value passed from one
party's part to the other's.  `while` loops carry the number of rounds they may still take; when
it is used up, the outcome is `unfinished`.
-/

set_option autoImplicit false

namespace Verif
namespace DTree

open Binning (SparseVec)

variable {K : Type} [DecidableEq K]

/-- The state of a sample: a node with the tag 1 (as left by the guest) or 0 (moved by a host), or
the weight of a leaf. -/
inductive PState where
  | node (nid tag : Nat)
  | weight (w : Rat)
deriving DecidableEq, Repr

/-- `features.get_data(fid, 0)`; a feature that is not stored reads as 0. -/
def getFeature (row : SparseVec Rat) (fid : Option Int) : Rat :=
  match fid with
  | some f => if f < 0 then 0 else row.getData f.toNat 0
  | none => 0

/-- The comparison of `hetero_decision_tree_guest.py` 595-598, `..._host.py` 259-262. -/
def threshTest (mask : Dict Nat Rat) (nid : Nat) (fid : Option Int) (row : SparseVec Rat) :
    Except PyErr Bool := do
  let bid ← decodeVal mask nid
  pure (decide (getFeature row fid ≤ bid))

/-- `hetero_decision_tree_guest.py` 591-603 -/
def walkGuest (tree : List Node) (mask : Dict Nat Rat) (row : SparseVec Rat) :
    Nat → Nat → Except PyErr PState
  | 0, _ => .error .unfinished
  | fuel + 1, nid =>
    match tree[nid]? with
    | none => .error .indexError
    | some n =>
      if n.site ≠ .guest then .ok (.node nid 1)
      else if n.isLeaf then .ok (.weight n.weight)
      else do
        let test ← threshTest mask nid n.fid row
        let (l, r) ← kids n
        walkGuest tree mask row fuel (if test then l else r)

/-- `hetero_decision_tree_guest.py` 587-603 (a weight cannot be unpacked into two values). -/
def traverseGuest (tree : List Node) (mask : Dict Nat Rat) (fuel : Nat) (s : PState)
    (row : SparseVec Rat) : Except PyErr PState :=
  match s with
  | .node nid _ => walkGuest tree mask row fuel nid
  | .weight _ => .error .typeError

/-- `hetero_decision_tree_host.py` 258-267 -/
def walkHost (tree : List Node) (mask : Dict Nat Rat) (site : Site) (row : SparseVec Rat) :
    Nat → Nat → Except PyErr PState
  | 0, _ => .error .unfinished
  | fuel + 1, nid =>
    match tree[nid]? with
    | none => .error .indexError
    | some n =>
      if n.site ≠ site then .ok (.node nid 0)
      else do
        let test ← threshTest mask nid n.fid row
        let (l, r) ← kids n
        walkHost tree mask site row fuel (if test then l else r)

/-- `hetero_decision_tree_host.py` 251-267 -/
def traverseHost (tree : List Node) (mask : Dict Nat Rat) (site : Site) (fuel : Nat) (s : PState)
    (row : SparseVec Rat) : Except PyErr PState :=
  match s with
  | .node nid tag =>
    match tree[nid]? with
    | none => .error .indexError
    | some n =>
      if n.site ≠ site then .ok (.node nid tag)
      else walkHost tree mask site row fuel nid
  | .weight _ => .error .typeError

/-- A host at prediction time: its `runtime_idx`, its thresholds and its rows. -/
structure PredHost (K : Type) where
  idx : Nat
  mask : Dict Nat Rat
  rows : DTable K (SparseVec Rat)

/-- `isinstance(value, tuple) is False` -/
def PState.isWeight : PState → Bool
  | .weight _ => true
  | .node .. => false

def PState.getWeight : PState → Rat
  | .weight w => w
  | .node .. => 0

/-- The function of `hetero_decision_tree_guest.py` 636-638. -/
def keepMoved (a b : PState) : PState :=
  match a with
  | .node _ 0 => a
  | _ => b

/-- `hetero_decision_tree_host.py` 356-363 for all hosts. -/
def hostWalks (tree : List Node) (fuel : Nat) (todo : DTable K PState) :
    List (PredHost K) → Except PyErr (List (DTable K PState))
  | [] => .ok []
  | H :: Hs => do
    let t ← todo.joinM H.rows (traverseHost tree H.mask (.host H.idx) fuel)
    let ts ← hostWalks tree fuel todo Hs
    pure (t :: ts)

/-- `hetero_decision_tree_guest.py` 634-638 -/
def mergeWalks : DTable K PState → List (DTable K PState) → Except PyErr (DTable K PState)
  | todo, [] => .ok todo
  | todo, t :: ts => do
    let todo ← todo.join t keepMoved
    mergeWalks todo ts

/-- `hetero_decision_tree_guest.py` 611-642: the loop; `fuel` bounds the rounds and the length of
a walk within a round. -/
def predictLoop (tree : List Node) (mask : Dict Nat Rat) (rows : DTable K (SparseVec Rat))
    (hosts : List (PredHost K)) (fuel : Nat) :
    Nat → DTable K PState → Option (DTable K Rat) → Except PyErr (DTable K Rat)
  | 0, _, _ => .error .unfinished
  | r + 1, todo, result => do
    let moved ← todo.joinM rows (traverseGuest tree mask fuel)
    let leaf ← moved.filter (fun _ s => s.isWeight)
    let leafW ← leaf.mapValues PState.getWeight
    let result ← addWeights result leafW
    let todo ← moved.subtractByKey leaf
    if todo.count = 0 then pure result
    else do
      let answers ← hostWalks tree fuel todo hosts
      let todo ← mergeWalks todo answers
      predictLoop tree mask rows hosts fuel r todo (some result)

/-- `hetero_decision_tree_guest.py` 605-644 -/
def predictTree (tree : List Node) (mask : Dict Nat Rat) (rows : DTable K (SparseVec Rat))
    (hosts : List (PredHost K)) (fuel : Nat) : Except PyErr (DTable K Rat) := do
  let todo ← rows.mapValues (fun _ => PState.node 0 1)
  predictLoop tree mask rows hosts fuel fuel todo none

/-- The parties of a run, with their thresholds and the rows to predict (aligned by
`boosting_tree.py` 69-79), `hetero_secureboosting_tree_guest.py` 305-312,
`hetero_secureboosting_tree_host.py` 121-131. -/
def predHosts : List (Party K) → List (Dict Nat Rat) → List (DTable K (SparseVec Rat)) →
    List (PredHost K)
  | H :: Hs, m :: ms, t :: ts => ⟨H.idx, m, t⟩ :: predHosts Hs ms ts
  | _, _, _ => []

/-- Rows of one party after `data_alignment` (`boosting_tree.py` 69-79). -/
def alignRows (rows : DTable K (List Rat)) : Except PyErr (DTable K (SparseVec Rat)) :=
  if rows.data.isEmpty then .error .valueError
  else rows.mapValues Binning.dataFormatTransform

/-- The rows of all hosts after `data_alignment`. -/
def alignAll : List (DTable K (List Rat)) → Except PyErr (List (DTable K (SparseVec Rat)))
  | [] => .ok []
  | t :: ts => do
    let a ← alignRows t
    let rest ← alignAll ts
    pure (a :: rest)

/-- Prediction with one tree on the raw rows of the guest and of the hosts. -/
def predictRows {α : Type} (S : Setup K α) (F : Fitted K) (guest : DTable K (List Rat))
    (hosts : List (DTable K (List Rat))) (fuel : Nat) : Except PyErr (DTable K Rat) := do
  let g ← alignRows guest
  let hs ← alignAll hosts
  predictTree F.tree F.guestMask g (predHosts S.hosts F.hostMasks hs) fuel

end DTree
end Verif
