import Verif.Model.SplitChoice

/-!
# Growing a tree, level by level

`ml/tree/node.py` 31-44 and `ml/tree/hetero_decision_tree_guest.py` 78-137.
-/

set_option autoImplicit false

namespace Verif
namespace DTree

open Quantile (floatZero)

/-- `node.py` 31-44.  `left` and `right` are `none` for `-1`; the sums are numbers because the
guest always supplies them. -/
structure Node where
  id : Nat
  site : Site
  fid : Option Int
  bid : Option Int
  weight : Rat
  isLeaf : Bool
  sumGrad : Rat
  sumHess : Rat
  left : Option Nat
  right : Option Nat
deriving DecidableEq, Repr

/-- A node as created by the guest (`hetero_decision_tree_guest.py` 110-122, 455-456). -/
def Node.fresh (id : Nat) (g h w : Rat) : Node := ⟨id, .guest, none, none, w, false, g, h, none, none⟩

/-- `feature_importance_type` -/
inductive ImpType where
  | split
  | gain
  | other
deriving DecidableEq, Repr

/-- The part of the guest's state that `update_tree_node_queue` works on: `tree_`, the queue under
construction, `tree_node_num`, `split_maskdict` and `feature_importances_`. -/
structure Grow where
  tree : List Node
  queue : List Node
  num : Nat
  mask : Dict Nat Int
  imps : Dict (Site × Option Int) Rat
deriving DecidableEq, Repr

/-- `hetero_decision_tree_guest.py` 78-92 -/
def updateImportance (kind : ImpType) (s : SplitInfo (Option Rat) Rat)
    (imps : Dict (Site × Option Int) Rat) : Except PyErr (Dict (Site × Option Int) Rat) :=
  match kind with
  | .split => .ok (imps.set (s.site, s.fid) (((imps.get? (s.site, s.fid)).getD 0) + 1))
  | .gain => .ok (imps.set (s.site, s.fid) (((imps.get? (s.site, s.fid)).getD 0) + s.gain))
  | .other => .error .valueError

/-- `hetero_decision_tree_guest.py` 104-135 for a node that is split.  (Python would store a bin
`None` of a guest split in the mask dictionary; here it is an error at once.) -/
def splitNode (rnd : Rat → Rat) (lam : Rat) (kind : ImpType) (node : Node) (s : SplitInfo (Option Rat) Rat) (g : Grow) :
    Except PyErr Grow :=
  match s.sumGrad, s.sumHess with
  | some gl, some hl => do
    let wl ← nodeWeight rnd lam gl hl
    let wr ← nodeWeight rnd lam (rnd (node.sumGrad - gl)) (rnd (node.sumHess - hl))
    let left := Node.fresh (g.num + 1) gl hl wl
    let right := Node.fresh (g.num + 2) (rnd (node.sumGrad - gl)) (rnd (node.sumHess - hl)) wr
    let (bid, mask) ← match s.site, s.bid with
      | .guest, some b => .ok ((none : Option Int), g.mask.set node.id b)
      | .guest, none => .error .typeError
      | .host _, b => .ok (b, g.mask)
    let imps ← updateImportance kind s g.imps
    let node' := { node with left := some (g.num + 1), right := some (g.num + 2),
                             site := s.site, fid := s.fid, bid := bid }
    .ok ⟨g.tree ++ [node'], g.queue ++ [left, right], g.num + 2, mask, imps⟩
  | _, _ => .error .typeError

/-- `hetero_decision_tree_guest.py` 98-135: the loop over the queue. -/
def updateLoop (cfg : Config) (kind : ImpType) (reach : Bool) :
    List Node → List (SplitInfo (Option Rat) Rat) → Grow → Except PyErr Grow
  | [], _, g => .ok g
  | n :: ns, ss, g =>
    if reach then updateLoop cfg kind reach ns ss.tail { g with tree := g.tree ++ [{ n with isLeaf := true }] }
    else match ss with
      | [] => .error .indexError
      | s :: ss =>
        if s.gain ≤ cfg.rnd (cfg.minImpurity + floatZero) then
          updateLoop cfg kind reach ns ss { g with tree := g.tree ++ [{ n with isLeaf := true }] }
        else
          match splitNode cfg.rnd cfg.regLambda kind n s g with
          | .error e => .error e
          | .ok g => updateLoop cfg kind reach ns ss g

/-- `hetero_decision_tree_guest.py` 94-137 -/
def updateQueue (cfg : Config) (kind : ImpType) (reach : Bool) (ss : List (SplitInfo (Option Rat) Rat))
    (g : Grow) : Except PyErr Grow :=
  updateLoop cfg kind reach g.queue ss { g with queue := [] }

end DTree
end Verif
