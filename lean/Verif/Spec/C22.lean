import Verif.Model.Histogram
import Mathlib.Algebra.BigOperators.Group.List.Basic
import Mathlib.Algebra.Order.Ring.Rat

/-!
# Specification vocabulary for histograms

A sample takes part in the histogram of a node if it occurs in both tables, is not at a leaf
and is assigned to the node.  The bin of a sample for a feature is the stored bin, or the bin
of zero if nothing is stored.
-/

set_option autoImplicit false

namespace Verif
namespace Spec

open Binning (Cell SparseVec)

/-- The bin number of a sample for feature `f`; entries that are not stored have the bin of
zero. -/
def binOf (sparse : Dict Nat Nat) (f : Nat) (v : SparseVec Cell) : Rat :=
  (v.getData f (.bin ((sparse.get? f).getD 0))).val

/-- The samples at a node, with gradient and hessian.  `data` gives for every sample its row
(of type `R`), a state that is 0 once it has reached a leaf, and the node it is at. -/
def atNode {K R : Type} [DecidableEq K] (data : DTable K (R × Nat × Nat))
    (gh : DTable K (Rat × Rat)) (node : Nat) : List (R × Rat × Rat) :=
  gh.data.filterMap fun p =>
    match data.data.get? p.1 with
    | some (v, state, nid) => if state ≠ 0 ∧ nid = node then some (v, p.2) else none
    | none => none

/-- Gradient sum, hessian sum and number of a list of samples. -/
def totals {R : Type} (l : List (R × Rat × Rat)) : Rat × Rat × Int :=
  ((l.map fun s => s.2.1).sum, (l.map fun s => s.2.2).sum, l.length)

/-- The samples in bin `b` or below for feature `f`. -/
def upToBin (sparse : Dict Nat Nat) (f : Nat) (b : Nat) (l : List (SparseVec Cell × Rat × Rat)) :
    List (SparseVec Cell × Rat × Rat) :=
  l.filter fun s => decide (binOf sparse f s.1 ≤ b)

/-- What binning leaves behind: every stored entry of a row is a bin number of its feature. -/
structure BinnedRow (splits : List (List Rat)) (v : SparseVec Cell) : Prop where
  wf : v.vec.WF
  bins : ∀ (f : Nat) (c : Cell), v.vec.get? f = some c →
    ∃ (b : Nat) (sp : List Rat), c = .bin b ∧ splits[f]? = some sp ∧ b ≤ sp.length

/-- The bin of zero is known for every feature. -/
def ZeroBins (splits : List (List Rat)) (sparse : Dict Nat Nat) : Prop :=
  ∀ (f : Nat) (sp : List Rat), splits[f]? = some sp → ∃ z, sparse.get? f = some z ∧ z ≤ sp.length

end Spec
end Verif
