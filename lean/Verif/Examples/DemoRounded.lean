import Verif.Examples.DemoPaillier
import Verif.Spec.C69
import Mathlib.Tactic.Linarith
import Mathlib.Algebra.Order.Floor.Ring

/-!
# A training run with rounded floats

The run of `DemoPaillier`, with results of float operations rounded.
-/

set_option autoImplicit false

namespace Verif
namespace DemoRounded

open DTree Spec

/-- Rounding down to a multiple of 2⁻⁶⁰. -/
def fine (x : Rat) : Rat := (x * 2 ^ 60).floor / 2 ^ 60

theorem fine_accurate (M : Rat) : RoundsWithin fine M (1 / 2 ^ 60) := by
  intro x _
  unfold fine
  have h1 := Int.floor_le (x * 2 ^ 60)
  have h2 := Int.lt_floor_add_one (x * 2 ^ 60)
  rw [abs_le]
  have e : ((x * 2 ^ 60).floor : Rat) = (⌊x * 2 ^ 60⌋ : Rat) := rfl
  rw [e]
  generalize (⌊x * 2 ^ 60⌋ : Rat) = z at h1 h2
  rw [show (2 : Rat) ^ 60 = 1152921504606846976 by norm_num] at *
  constructor <;> linarith

/-- The run of `DemoPaillier` with rounded floats; a node with less than `least` samples is not split. -/
def setup (sk : Paillier.PrivKey) (rnd : Rat → Rat) (least : Int) (kind : ImpType) (batch : Nat) :
    Setup Nat Histogram.Num :=
  { DemoPaillier.setup sk with
    cfg := ⟨1/10, 1/1000, least, 1, rnd⟩
    kind := kind
    maxSplitNodes := batch
    cipher := fun _ _ => roundCipher rnd (paillierCipher sk fun _ => 1) }

theorem depth (sk : Paillier.PrivKey) (rnd : Rat → Rat) (least : Int) (kind : ImpType) (batch : Nat) :
    (((setup sk rnd least kind batch).maxDepth : Nat) : Rat) = 4 := by
  show ((4 : Nat) : Rat) = 4
  norm_num

theorem sum_error (sk : Paillier.PrivKey) (rnd : Rat → Rat) (least : Int) (kind : ImpType) (batch : Nat) :
    sumError (setup sk rnd least kind batch) 4 (1 / 2 ^ 60) 0 = 25 / 2 ^ 60 := by
  show ((6 : Nat) : Rat) * 0 + (3 * ((6 : Nat) : Rat) + ((4 : Nat) : Rat) + 3) * (1 / 2 ^ 60) = _
  norm_num

theorem grad_range (sk : Paillier.PrivKey) (rnd : Rat → Rat) (least : Int) (kind : ImpType) (batch : Nat) :
    gradRange (setup sk rnd least kind batch) 4 (1 / 2 ^ 60) 0 = 25 + 5 * (25 / 2 ^ 60) := by
  unfold gradRange
  rw [sum_error, depth]
  have : ((setup sk rnd least kind batch).gh.data.map fun x => |x.2.1|).sum = 25 := by
    show (Demo.gh.data.map fun x => |x.2.1|).sum = 25
    decide +kernel
  rw [this]
  norm_num

theorem hess_range (sk : Paillier.PrivKey) (rnd : Rat → Rat) (least : Int) (kind : ImpType) (batch : Nat) :
    hessRange (setup sk rnd least kind batch) 4 (1 / 2 ^ 60) 0 = 61 / 10 + 5 * (25 / 2 ^ 60) := by
  unfold hessRange
  rw [sum_error, depth]
  have : ((setup sk rnd least kind batch).gh.data.map fun x => |x.2.2|).sum = 6 := by
    show (Demo.gh.data.map fun x => |x.2.2|).sum = 6
    decide +kernel
  have e : (setup sk rnd least kind batch).cfg.regLambda = 1 / 10 := rfl
  rw [this, e]
  norm_num

theorem gain_range (sk : Paillier.PrivKey) (rnd : Rat → Rat) (least : Int) (kind : ImpType) (batch : Nat) :
    gainRange (setup sk rnd least kind batch) 4 (11 / 10) (1 / 2 ^ 60) 0 ≤ 4000 := by
  unfold gainRange
  rw [grad_range]
  have e : (setup sk rnd least kind batch).cfg.minImpurity = 1 / 1000 := rfl
  rw [e]
  apply max_le
  · norm_num
  · rw [abs_of_nonneg (by norm_num)]; norm_num

theorem run {sk : Paillier.PrivKey} (hk : KeyPair (2 ^ 31 - 1) (2 ^ 61 - 1) sk)
    (hn : sk.pk.n = (2 ^ 31 - 1) * (2 ^ 61 - 1)) {rnd : Rat → Rat} (hrnd : RoundsWithin rnd 10000 (1 / 2 ^ 60))
    (least : Int) (kind : ImpType) (batch : Nat) :
    RoundedRun (2 ^ 31 - 1) (2 ^ 61 - 1) sk 12 13 (11 / 10) 0 0 4 10000 (1 / 2 ^ 60) (setup sk rnd least kind batch) := by
  have h := DemoPaillier.run hk hn
  have hR := gain_range sk rnd least kind batch
  refine ⟨h.key, h.hi0, h.gap, h.big, ⟨fun _ _ _ => 1, fun _ _ _ => isCoprime_one_left, fun _ _ => rfl⟩, rfl,
    h.errors, h.enc, h.windowG, h.windowH, by norm_num, hrnd, ?_, ?_, ?_, ?_, ?_, ?_, ?_⟩
  · show ∀ sp ∈ DemoRaw.setup.guest.splits, sp.length ≤ 4
    decide +kernel
  · rw [sum_error, depth]; norm_num
  · rw [grad_range, hess_range]; norm_num
  · rw [grad_range]; norm_num
  · rw [grad_range]; norm_num
  · linarith
  · have ht : FP.tiny ≤ 1 / 10 ^ 8 := by decide +kernel
    unfold roundedError
    have : gainRange (setup sk rnd least kind batch) 4 (11 / 10) (1 / 2 ^ 60) 0 / 2 ^ 50 ≤ 4000 / 2 ^ 50 :=
      div_le_div_of_nonneg_right hR (by norm_num)
    norm_num at *
    linarith

theorem raw (sk : Paillier.PrivKey) (rnd : Rat → Rat) (least : Int) (kind : ImpType) (batch : Nat) :
    RawRun (setup sk rnd least kind batch) DemoRaw.rows := by
  have h := DemoPaillier.raw sk
  exact ⟨h.1, h.2, h.3⟩

theorem usual (sk : Paillier.PrivKey) (rnd : Rat → Rat) (least : Int) {kind : ImpType} {batch : Nat}
    (hk : kind ≠ .other) (hb : batch ≠ 0) : Usual (setup sk rnd least kind batch) (11 / 10) := by
  have h := DemoPaillier.usual sk
  exact ⟨h.depth, hb, hk, h.hosts, h.leaf, h.lam, h.hess⟩

theorem increasing (sk : Paillier.PrivKey) (rnd : Rat → Rat) (least : Int) (kind : ImpType) (batch : Nat) :
    ∀ j P, partyAt (setup sk rnd least kind batch) j = some P → ∀ sp ∈ P.splits, sp.Pairwise (· < ·) := by
  intro j P hP
  match j with
  | none => cases hP; show ∀ sp ∈ DemoRaw.setup.guest.splits, _; decide +kernel
  | some 0 =>
    cases hP
    show ∀ sp ∈ (DemoRaw.party 1 ["c"] DemoRaw.hostRows1).splits, _
    decide +kernel
  | some 1 =>
    cases hP
    show ∀ sp ∈ (DemoRaw.party 2 ["d"] DemoRaw.hostRows2).splits, _
    decide +kernel
  | some (j + 2) => simp [partyAt, setup, DemoPaillier.setup, DemoRaw.setup] at hP

end DemoRounded
end Verif
