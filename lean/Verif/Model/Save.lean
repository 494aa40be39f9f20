import Verif.Model.Predict

/-!
# Saving and loading a tree

`get_model_param` / `set_model_param` of `ml/tree/hetero_decision_tree_guest.py` 527-541, 559-573
and `ml/tree/hetero_decision_tree_host.py` 385-399, 406-420, through the messages of
`arch/api/boosting_tree_model_param_pb2.py` (proto3).  A field that is `None` is not set and reads
as its default.
-/

set_option autoImplicit false

namespace Verif
namespace DTree

/-- `NodeParam`.  `bid` is a `double`; all values stored in it are whole numbers. -/
structure NodeParam where
  id : Int
  site : Site
  fid : Int
  bid : Int
  weight : Rat
  isLeaf : Bool
  left : Int
  right : Int
deriving DecidableEq, Repr

/-- A value assigned to an `int32` field. -/
def int32 (z : Int) : Except PyErr Int :=
  if -2147483648 ≤ z ∧ z ≤ 2147483647 then .ok z else .error .valueError

/-- The number stored for a child; `-1` for none. -/
def childId : Option Nat → Int
  | none => -1
  | some l => l

/-- `model_param.tree_.add(..)` -/
def saveNode (n : Node) : Except PyErr NodeParam := do
  let id ← int32 n.id
  let fid ← int32 (n.fid.getD 0)
  let l ← int32 (childId n.left)
  let r ← int32 (childId n.right)
  pure ⟨id, n.site, fid, n.bid.getD 0, n.weight, n.isLeaf, l, r⟩

/-- `model_param.split_maskdict.update(..)`: keys are `int32`. -/
def saveMask : Dict Nat Rat → Except PyErr (Dict Nat Rat)
  | [] => .ok []
  | (k, v) :: rest => do
    let _ ← int32 k
    let r ← saveMask rest
    pure ((k, v) :: r)

/-- A tree as the parties keep it: the nodes (the same at every party, `sync_tree`), and each
party's own thresholds. -/
structure Saved where
  nodes : List NodeParam
  guestMask : Dict Nat Rat
  hostMasks : List (Dict Nat Rat)
deriving DecidableEq, Repr

/-- `get_model_param` of every party. -/
def save {K : Type} (F : Fitted K) : Except PyErr Saved := do
  let nodes ← evalList saveNode F.tree
  let g ← saveMask F.guestMask
  let hs ← evalList saveMask F.hostMasks
  pure ⟨nodes, g, hs⟩

/-- `Node(id=node_param.id, ..)`; the sums are not stored (`None` in the code, never read by
prediction). -/
def loadNode (p : NodeParam) : Node :=
  ⟨p.id.toNat, p.site, some p.fid, some p.bid, p.weight, p.isLeaf, 0, 0,
    if p.left < 0 then none else some p.left.toNat,
    if p.right < 0 then none else some p.right.toNat⟩

/-- `set_model_param` of every party. -/
def load {K : Type} (P : Saved) : Fitted K :=
  ⟨P.nodes.map loadNode, P.guestMask, P.hostMasks, none, []⟩

end DTree
end Verif
