import Verif.Model.Fit

/-!
# A small training run

Six samples, guest with two features, two hosts with one feature each; used to show that the
hypotheses of the theorems about training can be met.
-/

set_option autoImplicit false

namespace Verif
namespace Demo

open DTree
open Binning (Cell SparseVec)

/-- Numbers "encrypted" as themselves (`FakeEncrypt`). -/
def clear : Cipher Rat := ⟨0, fun _ x => .ok x, fun x => .ok x⟩

def row (l : List (Nat × Nat)) (shape : Nat) : SparseVec Cell := ⟨l.map fun p => (p.1, .bin p.2), shape⟩

def guest : Party Nat where
  idx := 0
  splits := [[1, 2], [4]]
  sparse := [(0, 0), (1, 0)]
  valid := [true, true]
  data := ⟨[(0, row [(1, 1)] 2), (1, row [(0, 0)] 2), (2, row [(0, 0), (1, 1)] 2),
    (3, row [(0, 2)] 2), (4, row [(0, 1)] 2), (5, row [] 2)]⟩

def host1 : Party Nat where
  idx := 1
  splits := [[5]]
  sparse := [(0, 0)]
  valid := [true]
  data := ⟨[(5, row [] 1), (4, row [(0, 1)] 1), (3, row [] 1), (2, row [(0, 1)] 1),
    (1, row [(0, 1)] 1), (0, row [] 1)]⟩

def host2 : Party Nat where
  idx := 2
  splits := [[-1, 3]]
  sparse := [(0, 1)]
  valid := [true]
  data := ⟨[(0, row [(0, 0)] 1), (1, row [(0, 2)] 1), (2, row [] 1), (3, row [(0, 0)] 1),
    (4, row [(0, 2)] 1), (5, row [] 1)]⟩

def gh : DTable Nat (Rat × Rat) :=
  ⟨[(0, (1, 1)), (1, (-8, 1)), (2, (-2, 1)), (3, (5, 1)), (4, (-8, 1)), (5, (1, 1))]⟩

def setup : Setup Nat Rat where
  cfg := ⟨1/10, 1/1000, 2, 1, id⟩
  kind := .split
  maxDepth := 4
  maxSplitNodes := 1
  arith := Histogram.plain
  cipher := fun _ _ => clear
  guest := guest
  hosts := [host1, host2]
  gh := gh
  encGh := gh

/-- The result of the run. -/
def fitted : Fitted Nat :=
  match fit setup with
  | .ok F => F
  | .error _ => ⟨[], [], [], none, []⟩

theorem fit_ok : fit setup = .ok fitted := by decide +kernel

end Demo
end Verif
