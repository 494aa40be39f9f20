import Verif.Spec.C28

/-! # Specification vocabulary for prediction -/

set_option autoImplicit false

namespace Verif
namespace Spec

open DTree

variable {K : Type} [DecidableEq K] {α : Type}

/-- A tree that can be used for prediction: a binary tree whose leaves carry the guest's name and
whose inner nodes are splits of a party that has kept the threshold; parties have different
names. -/
structure UsableTree (S : Setup K α) (F : Fitted K) : Prop where
  wf : WellFormed F.tree
  leaf : ∀ (i : Nat) n, F.tree[i]? = some n → n.isLeaf = true → n.site = .guest
  split : ∀ (i : Nat) n, F.tree[i]? = some n → n.isLeaf = false → ∃ j f t, SplitAt S F i j f t
  masks : F.hostMasks.length = S.hosts.length
  names : (S.hosts.map Party.idx).Nodup

/-- The parties have rows of the same samples, at least one. -/
structure SameSamples (S : Setup K α) (rows : Option Nat → DTable K (List Rat)) : Prop where
  wf : ∀ j P, partyAt S j = some P → (rows j).WF
  keys : ∀ j P, partyAt S j = some P → ∀ k, k ∈ (rows j).data.keys ↔ k ∈ (rows none).data.keys
  some : (rows none).data ≠ []

/-- The rows of the hosts, in order. -/
def hostRows (S : Setup K α) (rows : Option Nat → DTable K (List Rat)) : List (DTable K (List Rat)) :=
  (List.range S.hosts.length).map fun j => rows (Option.some j)

/-- The weight of a leaf the sample comes to. -/
def LeafWeight (S : Setup K α) (F : Fitted K) (rows : Option Nat → DTable K (List Rat)) (k : K)
    (w : Rat) : Prop :=
  ∃ i n, Reaches S F rows k i ∧ F.tree[i]? = some n ∧ n.isLeaf = true ∧ w = n.weight

end Spec
end Verif
