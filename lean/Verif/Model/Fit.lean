import Verif.Model.Grow
import Verif.Model.DTableM

/-!
# Training one tree

`ml/tree/hetero_decision_tree_guest.py` 68-76, 139-146, 339-407, 449-507 together with
`ml/tree/hetero_decision_tree_host.py` 109-119, 183-248, 304-344.  Guest and hosts are composed
into one function; a message is the value passed from one party's part to the other's (their
order is the subject of C31, their content of C30).
-/

set_option autoImplicit false

namespace Verif
namespace DTree

open Histogram (HCell Hist Arith getHistograms floats)
open Binning (Cell SparseVec)

variable {K : Type} [DecidableEq K] {α : Type}

/-- The data a party trains on: binned rows, split points, bin of zero per feature, features
enabled for this tree (`decision_tree.py`, `set_input_data`, `set_valid_features`).  `idx` is the
`runtime_idx` of a host (not used for the guest). -/
structure Party (K : Type) where
  idx : Nat
  splits : List (List Rat)
  sparse : Dict Nat Nat
  valid : List Bool
  data : DTable K (SparseVec Cell)

/-- Settings and inputs of a run. -/
structure Setup (K α : Type) where
  cfg : Config
  kind : ImpType
  maxDepth : Nat
  maxSplitNodes : Nat
  arith : Arith α
  cipher : Nat → Nat → Cipher α
  guest : Party K
  hosts : List (Party K)
  gh : DTable K (Rat × Rat)
  encGh : DTable K (α × α)

/-- What the guest's dispatch returns for a sample (`hetero_decision_tree_guest.py` 351-367): a
position, a question to a host, or a leaf weight. -/
inductive Disp where
  | at (state nid : Nat)
  | ask (state : Nat) (fid bid : Option Int) (site : Site) (nid left right : Nat)
  | leaf (w : Rat)
deriving DecidableEq, Repr

/-- `decode("feature_val", ..)`, `hetero_decision_tree_guest.py` 169-173,
`hetero_decision_tree_host.py` 74-78. -/
def decodeVal {β : Type} (mask : Dict Nat β) (nid : Nat) : Except PyErr β :=
  match mask.get? nid with
  | some v => .ok v
  | none => .error .valueError

/-- `d[fid]` for a dict keyed by feature number. -/
def atFid {β : Type} (d : Dict Nat β) (fid : Option Int) : Except PyErr (Nat × β) :=
  match fid with
  | none => .error .keyError
  | some f =>
    if f < 0 then .error .keyError
    else match d.get? f.toNat with
      | some v => .ok (f.toNat, v)
      | none => .error .keyError

/-- `features.get_data(fid, bin_sparse_points[fid]) <= bid` -/
def binTest (mask : Dict Nat Int) (sparse : Dict Nat Nat) (nid : Nat) (fid : Option Int)
    (row : SparseVec Cell) : Except PyErr Bool := do
  let bid ← decodeVal mask nid
  let (f, z) ← atFid sparse fid
  pure (decide ((row.getData f (.bin z)).val ≤ bid))

/-- The children of a node.  (Only inner nodes are asked for their children; they always have
both.  Python would go on with `-1`.) -/
def kids (n : Node) : Except PyErr (Nat × Nat) :=
  match n.left, n.right with
  | some l, some r => .ok (l, r)
  | _, _ => .error .indexError

/-- `hetero_decision_tree_guest.py` 351-367 -/
def dispatchNode (tree : List Node) (mask : Dict Nat Int) (sparse : Dict Nat Nat)
    (v : SparseVec Cell × Nat × Nat) : Except PyErr Disp :=
  match tree[v.2.2]? with
  | none => .error .indexError
  | some n =>
    if n.isLeaf then .ok (.leaf n.weight)
    else match n.site with
      | .guest => do
        let test ← binTest mask sparse v.2.2 n.fid v.1
        let (l, r) ← kids n
        pure (if test then .at 1 l else .at 1 r)
      | .host j => do
        let (l, r) ← kids n
        pure (.ask 1 n.fid n.bid (.host j) v.2.2 l r)

/-- `hetero_decision_tree_host.py` 183-195.  (A record that is not a question cannot be unpacked
into seven values.) -/
def dispatchHost (site : Site) (mask : Dict Nat Int) (sparse : Dict Nat Nat) (d : Disp)
    (row : SparseVec Cell) : Except PyErr Disp :=
  match d with
  | .ask st fid bid nsite nid l r =>
    if nsite ≠ site then .ok (.ask st fid bid nsite nid l r)
    else do
      let test ← binTest mask sparse nid fid row
      pure (if test then .at st l else .at st r)
  | _ => .error .valueError

def Disp.isAsk : Disp → Bool
  | .ask .. => true
  | _ => false

def Disp.isLeaf : Disp → Bool
  | .leaf _ => true
  | _ => false

/-- `len(value) == 2` for a tuple. -/
def Disp.isAt : Disp → Bool
  | .at .. => true
  | _ => false

/-- The weight stored for a leaf. -/
def Disp.weight : Disp → Rat
  | .leaf w => w
  | _ => 0

/-- `hetero_decision_tree_guest.py` 394-402: the answers of the hosts, combined. -/
def combine : Option (DTable K Disp) → List (DTable K Disp) → Except PyErr (Option (DTable K Disp))
  | acc, [] => .ok acc
  | none, t :: ts => combine (some t) ts
  | some a, t :: ts =>
    match a.join t (fun x y => if x.isAt then x else y) with
    | .error e => .error e
    | .ok a => combine (some a) ts

/-- State of a run between two levels. -/
structure State (K : Type) where
  grow : Grow
  disp : DTable K Disp
  weights : Option (DTable K Rat)
  masks : List (Dict Nat Int)

/-- `hetero_decision_tree_host.py` 208-216 for all hosts. -/
def hostAnswers (toHost : DTable K Disp) :
    List (Party K) → List (Dict Nat Int) → Except PyErr (List (DTable K Disp))
  | H :: Hs, m :: ms => do
    let t ← toHost.joinM H.data (dispatchHost (.host H.idx) m H.sparse)
    let ts ← hostAnswers toHost Hs ms
    pure (t :: ts)
  | _, _ => .ok []

/-- `hetero_decision_tree_guest.py` 385-388: `predict_weights` with the new leaves. -/
def addWeights (weights : Option (DTable K Rat)) (leaf : DTable K Rat) : Except PyErr (DTable K Rat) :=
  match weights with
  | none => .ok leaf
  | some w => w.union leaf

/-- `hetero_decision_tree_guest.py` 404-407: the hosts' answers with the guest's. -/
def addPositions (answers : Option (DTable K Disp)) (res : DTable K Disp) :
    Except PyErr (DTable K Disp) :=
  match answers with
  | none => .ok res
  | some d => d.union res

/-- `hetero_decision_tree_guest.py` 369-407: new positions and leaf weights. -/
def redispatch (S : Setup K α) (g : Grow) (masks : List (Dict Nat Int))
    (dataPos : DTable K (SparseVec Cell × Nat × Nat)) (weights : Option (DTable K Rat)) :
    Except PyErr (DTable K Disp × Option (DTable K Rat)) := do
  let res ← dataPos.mapValuesM (dispatchNode g.tree g.mask S.guest.sparse)
  let toHost ← res.filter (fun _ d => d.isAsk)
  let res ← res.subtractByKey toHost
  let leaf ← res.filter (fun _ d => d.isLeaf)
  let leafW ← leaf.mapValues Disp.weight
  let weights ← addWeights weights leafW
  let res ← res.subtractByKey leaf
  let answers ← hostAnswers toHost S.hosts masks
  let fromHosts ← combine none answers
  let disp ← addPositions fromHosts res
  pure (disp, some weights)

/-- Unpacking a position into two values (`feateur_histogram.py`, `dispatch_node`). -/
def unpackPos : Disp → Except PyErr (Nat × Nat)
  | .at s n => .ok (s, n)
  | .ask .. => .error .valueError
  | .leaf _ => .error .typeError

/-- The hosts' histograms for one batch (`hetero_decision_tree_host.py` 317-329). -/
def hostSides (S : Setup K α) (pos : DTable K (Nat × Nat)) (ids : List Nat) :
    List (Party K) → List (Dict Nat Int) → Except PyErr (List (HostSide α))
  | H :: Hs, m :: ms => do
    let data ← H.data.join pos (fun v p => (v, p))
    let E ← getHistograms S.arith H.splits H.sparse (some H.valid) ids data S.encGh
    let rest ← hostSides S pos ids Hs ms
    pure (⟨H.idx, H.valid, E, m⟩ :: rest)
  | _, _ => .ok []

/-- One batch of nodes (`hetero_decision_tree_guest.py` 477-493). -/
def batchSplits (S : Setup K α) (dep batch : Nat) (dataPos : DTable K (SparseVec Cell × Nat × Nat))
    (pos : DTable K (Nat × Nat)) (nodes : List Node) (masks : List (Dict Nat Int)) :
    Except PyErr (List (SplitInfo (Option Rat) Rat) × List (Dict Nat Int)) := do
  let ids := nodes.map Node.id
  let H ← getHistograms (floats S.cfg.rnd) S.guest.splits S.guest.sparse (some S.guest.valid) ids dataPos S.gh
  let hosts ← hostSides S pos ids S.hosts masks
  splitBatch S.cfg (S.cipher dep batch) ids (nodes.map fun n => (n.sumGrad, n.sumHess))
    S.guest.valid H hosts

/-- `hetero_decision_tree_guest.py` 474-495: the batches of at most `maxSplitNodes` nodes
(`fuel` bounds the number of batches). -/
def batchLoop (S : Setup K α) (dep : Nat) (dataPos : DTable K (SparseVec Cell × Nat × Nat))
    (pos : DTable K (Nat × Nat)) : Nat → Nat → List Node → List (Dict Nat Int) →
    Except PyErr (List (SplitInfo (Option Rat) Rat) × List (Dict Nat Int))
  | _, _, [], masks => .ok ([], masks)
  | 0, _, _ :: _, masks => .ok ([], masks)
  | fuel + 1, batch, n :: ns, masks => do
    let (ss, masks) ← batchSplits S dep batch dataPos pos ((n :: ns).take S.maxSplitNodes) masks
    let (rest, masks) ← batchLoop S dep dataPos pos fuel (batch + 1) ((n :: ns).drop S.maxSplitNodes) masks
    pure (ss ++ rest, masks)

/-- One level (`hetero_decision_tree_guest.py` 467-500).  `range` with step 0 raises. -/
def level (S : Setup K α) (dep : Nat) (reach : Bool) (st : State K) : Except PyErr (State K) := do
  let pos ← st.disp.mapValuesM unpackPos
  let dataPos ← S.guest.data.join pos (fun v p => (v, p))
  if S.maxSplitNodes = 0 then .error .valueError
  else do
    let (ss, masks) ← batchLoop S dep dataPos pos st.grow.queue.length 0 st.grow.queue st.masks
    let g ← updateQueue S.cfg S.kind reach ss st.grow
    let (disp, weights) ← redispatch S g masks dataPos st.weights
    pure ⟨g, disp, weights, masks⟩

/-- `hetero_decision_tree_guest.py` 461-500: the loop over the depths; the argument is the number
of levels that remain. -/
def levels (S : Setup K α) : Nat → Nat → State K → Except PyErr (State K)
  | 0, _, st => .ok st
  | r + 1, dep, st =>
    if st.grow.queue.isEmpty then .ok st
    else match level S dep (r = 0) st with
      | .error e => .error e
      | .ok st => levels S r (dep + 1) st

/-- The function handed to `reduce`, `hetero_decision_tree_guest.py` 71. -/
def addGh (rnd : Rat → Rat) : Option (Rat × Rat) → Option (Rat × Rat) → Option (Rat × Rat)
  | some x, some y => some (rnd (x.1 + y.1), rnd (x.2 + y.2))
  | _, _ => none

/-- `hetero_decision_tree_guest.py` 68-72: the fold; `None` for an empty table. -/
def gradHessSum (rnd : Rat → Rat) (gh : DTable K (Rat × Rat)) : Except PyErr (Rat × Rat) :=
  match DTable.reduceLoop (addGh rnd) none (gh.data.values.map some) with
  | some s => .ok s
  | none => .error .typeError

/-- `hetero_decision_tree_guest.py` 454-460: root node, all samples at the root.
`tree_node_num` is 0 and the dictionaries are empty (`decision_tree.py` 28-49). -/
def initState (S : Setup K α) : Except PyErr (State K) := do
  let (g, h) ← gradHessSum S.cfg.rnd S.gh
  let w ← nodeWeight S.cfg.rnd S.cfg.regLambda g h
  let disp ← S.guest.data.mapValues (fun _ => Disp.at 1 0)
  pure ⟨⟨[], [Node.fresh 0 g h w], 0, [], []⟩, disp, none, S.hosts.map fun _ => []⟩

/-- `bin_split_points[fid][bid]` (numpy index errors; negative numbers do not occur). -/
def realValue (splits : List (List Rat)) (fid : Option Int) (bid : Int) : Except PyErr Rat :=
  match fid with
  | none => .error .indexError
  | some f =>
    if f < 0 ∨ bid < 0 then .error .indexError
    else match splits[f.toNat]? with
      | none => .error .indexError
      | some sp =>
        match sp[bid.toNat]? with
        | none => .error .indexError
        | some x => .ok x

/-- `convert_bin_to_real` (`hetero_decision_tree_guest.py` 339-348,
`hetero_decision_tree_host.py` 233-248): thresholds of the party's own inner nodes.  Entries of
a host's dictionary that belong to no such node are deleted (227-231). -/
def convert (site : Site) (splits : List (List Rat)) (mask : Dict Nat Int) :
    List Node → Dict Nat Rat → Except PyErr (Dict Nat Rat)
  | [], acc => .ok acc
  | n :: ns, acc =>
    if n.isLeaf then convert site splits mask ns acc
    else if n.site ≠ site then convert site splits mask ns acc
    else match decodeVal mask n.id with
      | .error e => .error e
      | .ok bid =>
        match realValue splits n.fid bid with
        | .error e => .error e
        | .ok x => convert site splits mask ns (acc.set n.id x)

def convertHosts (tree : List Node) : List (Party K) → List (Dict Nat Int) →
    Except PyErr (List (Dict Nat Rat))
  | H :: Hs, m :: ms => do
    let d ← convert (.host H.idx) H.splits m tree []
    let ds ← convertHosts tree Hs ms
    pure (d :: ds)
  | _, _ => .ok []

/-- A trained tree: the nodes every party knows, each party's thresholds, the weights of the
training samples, and the feature importances. -/
structure Fitted (K : Type) where
  tree : List Node
  guestMask : Dict Nat Rat
  hostMasks : List (Dict Nat Rat)
  weights : Option (DTable K Rat)
  imps : Dict (Site × Option Int) Rat
deriving DecidableEq, Repr

/-- `hetero_decision_tree_guest.py` 449-507 and `hetero_decision_tree_host.py` 304-344. -/
def fit (S : Setup K α) : Except PyErr (Fitted K) := do
  let st ← initState S
  let st ← levels S S.maxDepth 0 st
  let gm ← convert .guest S.guest.splits st.grow.mask st.grow.tree []
  let hm ← convertHosts st.grow.tree S.hosts st.masks
  pure ⟨st.grow.tree, gm, hm, st.weights, st.grow.imps⟩

end DTree
end Verif
