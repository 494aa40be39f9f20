import Verif.Examples.Demo
import Verif.Model.Binning

/-!
# A training run from raw rows

The same samples as in `Demo`, starting from dense rows that are prepared by each party.
-/

set_option autoImplicit false

namespace Verif
namespace DemoRaw

open DTree

def qcfg : Quantile.Config := ⟨10000, 10000, 1 / 1000, []⟩

def guestRows : DTable Nat (List Rat) :=
  ⟨[(0, [0, 4]), (1, [1, 0]), (2, [2, 4]), (3, [3, 0]), (4, [5 / 2, 0]), (5, [0, 1 / 10 ^ 7])]⟩

def hostRows1 : DTable Nat (List Rat) :=
  ⟨[(5, [1]), (4, [7]), (3, [0]), (2, [8]), (1, [5]), (0, [2])]⟩

def hostRows2 : DTable Nat (List Rat) :=
  ⟨[(0, [-2]), (1, [-1 / 2]), (2, [-1]), (3, [-2]), (4, [0]), (5, [-1])]⟩

/-- The rows of the parties. -/
def rows : Option Nat → DTable Nat (List Rat)
  | none => guestRows
  | some 0 => hostRows1
  | some _ => hostRows2

/-- A party after preparation. -/
def party (idx : Nat) (header : List String) (rows : DTable Nat (List Rat)) : Party Nat :=
  match Binning.prepare qcfg 4 header rows with
  | .ok (data, splits, sparse) => ⟨idx, splits, sparse, header.map fun _ => true, data⟩
  | .error _ => ⟨idx, [], [], [], ⟨[]⟩⟩

def setup : Setup Nat Rat where
  cfg := ⟨1/10, 1/1000, 2, 1, id⟩
  kind := .split
  maxDepth := 4
  maxSplitNodes := 1
  arith := Histogram.plain
  cipher := fun _ _ => Demo.clear
  guest := party 0 ["a", "b"] guestRows
  hosts := [party 1 ["c"] hostRows1, party 2 ["d"] hostRows2]
  gh := Demo.gh
  encGh := Demo.gh

/-- The result of the run. -/
def fitted : Fitted Nat :=
  match fit setup with
  | .ok F => F
  | .error _ => ⟨[], [], [], none, []⟩

theorem fit_ok : fit setup = .ok fitted := by decide +kernel

end DemoRaw
end Verif
