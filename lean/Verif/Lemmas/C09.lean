import Verif.Lemmas.FixedPoint
import Verif.Spec.C09

set_option autoImplicit false

namespace Verif
open FP Spec

theorem aux09_fits {m e : Int} (h : Fits (m * (16 : Rat) ^ (-e)) e) : |m| ≤ Q / 3 - 1 := by
  unfold Fits at h
  have hp : (0 : Rat) < (16 : Rat) ^ (-e) := zpow_pos (by norm_num) _
  rw [abs_mul, abs_of_pos hp, mul_assoc, ← zpow_add₀ (by norm_num)] at h
  simp only [neg_add_cancel, zpow_zero, mul_one] at h
  exact_mod_cast h

theorem aux09_decodes {x : Num} {a : Rat} (h : DecodesTo x a) :
    ∃ m, mantissa x = .ok m ∧ a = m * (16 : Rat) ^ (-x.exponent) := by
  obtain ⟨t, ht, rfl⟩ := h
  obtain ⟨m, hm, rfl⟩ := (decode_ok_iff x t).mp ht
  exact ⟨m, hm, scale_val m _⟩

theorem aux09_sum {x y : Num} {mx my : Int} {a b : Rat}
    (hmx : a = mx * (16 : Rat) ^ (-x.exponent)) (hmy : b = my * (16 : Rat) ^ (-y.exponent)) :
    ((mx * 16 ^ (max x.exponent y.exponent - x.exponent).toNat
      + my * 16 ^ (max x.exponent y.exponent - y.exponent).toNat : Int) : Rat)
      * (16 : Rat) ^ (-(max x.exponent y.exponent)) = a + b := by
  have h1 := shift_val mx x.exponent (max x.exponent y.exponent) (le_max_left _ _)
  have h2 := shift_val my y.exponent (max x.exponent y.exponent) (le_max_right _ _)
  rw [Int.cast_add, add_mul, h1, h2, hmx, hmy]


end Verif
