import Verif.Model.Fit

/-! # Specification vocabulary for trees -/

set_option autoImplicit false

namespace Verif
namespace Spec

open DTree (Node)

/-- Node `c` is a child of the node at position `p`. -/
def ChildOf (tree : List Node) (p c : Nat) : Prop :=
  ∃ n, tree[p]? = some n ∧ (n.left = some c ∨ n.right = some c)

/-- A binary tree stored as a list: node `i` at position `i`, the root at position 0, every node a
leaf or an inner node with two different children further back, every node but the root the child
of exactly one node. -/
structure WellFormed (tree : List Node) : Prop where
  root : tree ≠ []
  number : ∀ (i : Nat) n, tree[i]? = some n → n.id = i
  shape : ∀ (i : Nat) n, tree[i]? = some n →
    (n.isLeaf = true ∧ n.left = none ∧ n.right = none) ∨
    (n.isLeaf = false ∧ ∃ l r, n.left = some l ∧ n.right = some r ∧ l ≠ r ∧ i < l ∧ i < r ∧
      l < tree.length ∧ r < tree.length)
  parent : ∀ c, 0 < c → c < tree.length → ∃! p, ChildOf tree p c

/-- `i` is reached from the root through `d` nodes, itself included. -/
inductive DepthAt (tree : List Node) : Nat → Nat → Prop
  | root : DepthAt tree 0 1
  | child {p c d : Nat} : DepthAt tree p d → ChildOf tree p c → DepthAt tree c (d + 1)

/-- The parties of a run: `none` is the guest, `some j` the host at position `j`. -/
def partyAt {K α : Type} (S : DTree.Setup K α) : Option Nat → Option (DTree.Party K)
  | none => some S.guest
  | some j => S.hosts[j]?

/-- The thresholds a party has kept. -/
def thresholds {K : Type} (F : DTree.Fitted K) : Option Nat → Option (Dict Nat Rat)
  | none => some F.guestMask
  | some j => F.hostMasks[j]?

/-- The name a party has in the tree. -/
def siteName {K : Type} (P : DTree.Party K) : Option Nat → DTree.Site
  | none => .guest
  | some _ => .host P.idx

/-- Node `i` is a split of party `j` on feature `f` with threshold `t`: the node carries the
party's name and the feature, and the party has kept the threshold. -/
def SplitAt {K α : Type} (S : DTree.Setup K α) (F : DTree.Fitted K) (i : Nat) (j : Option Nat)
    (f : Nat) (t : Rat) : Prop :=
  ∃ n P d, F.tree[i]? = some n ∧ n.isLeaf = false ∧ n.fid = some (f : Int) ∧
    partyAt S j = some P ∧ n.site = siteName P j ∧ thresholds F j = some d ∧ d.get? i = some t

end Spec
end Verif
