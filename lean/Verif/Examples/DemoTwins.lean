import Verif.Examples.DemoClear

/-!
# Two columns that agree on the training samples

The guest has one of them and the host the other.  Which is which makes no difference for training, but
for a new sample, where they differ.
-/

set_option autoImplicit false

namespace Verif
namespace DemoTwins

open DTree Spec

def train : DTable Nat (List Rat) := ⟨[(0, [1]), (1, [1]), (2, [2]), (3, [2])]⟩

def labels : DTable Nat (Rat × Rat) := ⟨[(0, 3, 1), (1, 3, 1), (2, -4, 1), (3, -4, 1)]⟩

def small : DTable Nat (List Rat) := ⟨[(7, [1])]⟩
def large : DTable Nat (List Rat) := ⟨[(7, [2])]⟩

def guest : Party Nat := DemoRaw.party 0 ["a"] train
def host : Party Nat := DemoRaw.party 1 ["b"] train

/-- One round in the clear. -/
def run : Boost Nat Rat (Rat × Rat) where
  base :=
    { cfg := ⟨1/10, 1/1000, 2, 1, id⟩
      kind := .split
      maxDepth := 2
      maxSplitNodes := 1
      arith := Histogram.plain
      cipher := fun _ _ => Demo.clear
      guest := guest
      hosts := [host]
      gh := labels
      encGh := labels }
  valid := fun _ _ _ => [true]
  cipher := fun _ _ _ _ => Demo.clear
  enc := fun _ _ gh => .ok gh
  gradHess := DemoMovedBoost.gradHess
  loss := DemoMovedBoost.loss
  rounds := 1
  dim := 1
  rate := ⟨1 / 2, id⟩
  early := false
  tol := 1 / 10

def rows : Option Nat → DTable Nat (List Rat) := fun _ => train

/-- The guest's column is small, the host's is large, … -/
def new : Option Nat → DTable Nat (List Rat)
  | none => small
  | some _ => large

/-- … and the other way round. -/
def swapped : Option Nat → DTable Nat (List Rat)
  | none => large
  | some _ => small

/-- The trained model. -/
def final : BoostState Nat :=
  match boost run [0] labels with
  | .ok st => st
  | .error _ => ⟨⟨[]⟩, [], [], [], none, []⟩

theorem final_ok : boost run [0] labels = .ok final := by
  have : (boost run [0] labels).toOption.isSome = true := by decide +kernel
  unfold final
  cases h : boost run [0] labels with
  | ok s => rfl
  | error e => rw [h] at this; cases this

theorem parties {j : Option Nat} {P : Party Nat} (h : partyAt run.base j = some P) :
    (j = none ∧ P = guest) ∨ (j = some 0 ∧ P = host) := by
  match j with
  | none => cases h; exact .inl ⟨rfl, rfl⟩
  | some 0 => cases h; exact .inr ⟨rfl, rfl⟩
  | some (j + 1) => simp [partyAt, run] at h

/-- Every party binned the rows. -/
theorem prepared {j : Option Nat} {P : Party Nat} (h : partyAt run.base j = some P) :
    ∃ header, Binning.prepare DemoRaw.qcfg 4 header (rows j) = .ok (P.data, P.splits, P.sparse) := by
  rcases parties h with ⟨rfl, rfl⟩ | ⟨rfl, rfl⟩
  · exact ⟨["a"], by decide +kernel⟩
  · exact ⟨["b"], by decide +kernel⟩

theorem columns : ColumnsWith labels.data.keys run rows swapped run rows new := by
  intro j P hP f hf
  rcases parties hP with ⟨rfl, rfl⟩ | ⟨rfl, rfl⟩
  · have hl : guest.splits.length = 1 := by decide +kernel
    obtain rfl : f = 0 := by omega
    refine ⟨some 0, host, 0, rfl, by decide +kernel, fun _ _ => rfl, fun k _ row row' e e' => ?_, fun k row row' e e' => ?_⟩
    · rw [show rows none = rows (some 0) from rfl, e'] at e
      cases e; rfl
    · rw [show swapped none = new (some 0) from rfl, e'] at e
      cases e; rfl
  · have hl : host.splits.length = 1 := by decide +kernel
    obtain rfl : f = 0 := by omega
    refine ⟨none, guest, 0, rfl, by decide +kernel, fun _ _ => rfl, fun k _ row row' e e' => ?_, fun k row row' e e' => ?_⟩
    · rw [show rows (some 0) = rows none from rfl, e'] at e
      cases e; rfl
    · rw [show swapped (some 0) = new none from rfl, e'] at e
      cases e; rfl

theorem same (a b : DTable Nat (List Rat)) (ha : a.data.keys = [7]) (hb : b.data.keys = [7]) :
    SameSamples run.base fun j => match j with | none => a | some _ => b := by
  refine ⟨fun j P _ => ?_, fun j P _ k => ?_, ?_⟩
  · unfold DTable.WF Dict.WF
    cases j
    · show a.data.keys.Nodup; rw [ha]; decide
    · show b.data.keys.Nodup; rw [hb]; decide
  · cases j
    · exact Iff.rfl
    · show k ∈ b.data.keys ↔ k ∈ a.data.keys
      rw [ha, hb]
  · intro h
    have h : a.data = [] := h
    rw [h] at ha; cases ha

theorem plain_clear : ∀ B ∈ [0, 1, 2, 3].sublists, ClearSides run.base.cfg.minImpurity (5 / 10 ^ 6) (sideList run.base B) := by
  decide +kernel

theorem clear (init : List Rat) (fits : List (Fitted Nat)) : ClearRun run labels init (5 / 10 ^ 6) rows fits := by
  intro n F gh egh _ hg i d _ _ A hA
  have hk : labels.data.keys = [0, 1, 2, 3] := by decide
  have hsub : ∀ k ∈ A, k ∈ [0, 1, 2, 3] := fun k hk' => by
    have := (hg.2.1 k).mp ((hA.2 k).mp hk').1
    rwa [hk] at this
  refine DemoClear.clear_congr (S := run.base) rfl (fun j => ?_) (DemoClear.sums_labels rfl hg)
    (clear_of_sublists (by decide) hA.1 hsub plain_clear)
  rw [treeSetup_party]
  match j with
  | none => exact congrArg some (DemoClear.party_valid (P := guest) (by show _ = [true]; decide +kernel))
  | some 0 => exact congrArg some (DemoClear.party_valid (P := host) (by show _ = [true]; decide +kernel))
  | some (j + 1) => rfl

/-- The scores of the new sample. -/
def score (new : Option Nat → DTable Nat (List Rat)) : Option (List Rat) :=
  (predictScores run.base.hosts run.rate run.dim [0] final.trees (new none) (hostRows run.base new) 3).toOption.bind
    fun T => T.data.get? 7

theorem scores {new : Option Nat → DTable Nat (List Rat)} {x : List Rat} (h : score new = some x) :
    ∃ T, predictScores run.base.hosts run.rate run.dim [0] final.trees (new none) (hostRows run.base new) 3 = .ok T ∧
      T.data.get? 7 = some x := by
  unfold score at h
  cases hp : predictScores run.base.hosts run.rate run.dim [0] final.trees (new none) (hostRows run.base new) 3 with
  | ok T => rw [hp] at h; exact ⟨T, rfl, h⟩
  | error e => rw [hp] at h; cases h

end DemoTwins
end Verif
