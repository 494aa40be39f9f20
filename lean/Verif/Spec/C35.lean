import Verif.Model.Save
import Verif.Spec.C45

/-! # Specification vocabulary for feature importances -/

set_option autoImplicit false

namespace Verif
namespace Spec

open DTree

/-- The inner nodes of a tree that split on the given party's feature. -/
def splitsOn (tree : List Node) (key : Site × Option Int) : List Node :=
  tree.filter fun n => !n.isLeaf && decide ((n.site, n.fid) = key)

/-- The same for a tree as it is kept by the trainer. -/
def savedOn (P : Saved) (site : Site) (f : Int) : List NodeParam :=
  P.nodes.filter fun n => !n.isLeaf && decide (n.site = site ∧ n.fid = f)

/-- A total over the nodes `ns`; there is no entry if there is no node. -/
def total {N : Type} (ns : List N) (w : N → Rat) : Option Rat :=
  match ns with
  | [] => none
  | _ => some (ns.map w).sum

/-- The entry of a counter; there is no entry instead of 0. -/
def countEntry (n : Nat) : Option Rat := if n = 0 then none else some n

end Spec
end Verif
