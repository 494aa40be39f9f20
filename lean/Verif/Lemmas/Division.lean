import Verif.Model.Division
import Verif.Spec.C76
import Verif.Lemmas.C09
import Verif.Lemmas.C11
import Verif.Props.C08
import Verif.Props.C09
import Mathlib.Tactic.Linarith
import Mathlib.Tactic.Positivity
import Mathlib.Tactic.NormNum

/-! # Division: errors and sizes -/

set_option autoImplicit false

namespace Verif
open FP Spec

theorem Spec.Close.trans {u v x y z : Rat} (hu : 0 ≤ u) (h1 : Close u x y) (h2 : Close v y z) :
    Close (u + v + u * v) x z := by
  unfold Close at *
  have h3 : |y| ≤ (1 + v) * |z| := by
    have := abs_sub_abs_le_abs_sub y z
    linarith
  have h4 := abs_sub_le x y z
  have h5 : u * |y| ≤ u * ((1 + v) * |z|) := mul_le_mul_of_nonneg_left h3 hu
  nlinarith

theorem Spec.Close.mono {u v x y : Rat} (h : Close u x y) (huv : u ≤ v) : Close v x y :=
  le_trans h (mul_le_mul_of_nonneg_right huv (abs_nonneg _))

theorem Spec.Close.mul_left {u x y : Rat} (h : Close u x y) (a : Rat) : Close u (a * x) (a * y) := by
  unfold Close at *
  rw [← mul_sub, abs_mul, abs_mul]
  nlinarith [abs_nonneg a]

theorem Spec.Close.abs_ge {u x y : Rat} (h : Close u x y) : (1 - u) * |y| ≤ |x| := by
  unfold Close at h
  have := abs_sub_abs_le_abs_sub y x
  rw [abs_sub_comm] at this
  linarith

theorem Spec.Close.abs_le {u x y : Rat} (h : Close u x y) : |x| ≤ (1 + u) * |y| := by
  unfold Close at h
  have := abs_sub_abs_le_abs_sub x y
  linarith

theorem Spec.Close.inv {u x y : Rat} (h : Close u x y) (hy : y ≠ 0) (hu : u ≤ 1 / 2) :
    x ≠ 0 ∧ Close (2 * u) (1 / x) (1 / y) := by
  have h1 := h.abs_ge
  have hy' : 0 < |y| := abs_pos.mpr hy
  have hx' : |y| / 2 ≤ |x| := by nlinarith
  have hx : x ≠ 0 := by
    rintro rfl
    rw [abs_zero] at hx'
    linarith
  refine ⟨hx, ?_⟩
  have hxp : 0 < |x| := abs_pos.mpr hx
  unfold Close at *
  have e : 1 / x - 1 / y = (y - x) / (x * y) := by field_simp
  rw [e, abs_div, abs_mul, abs_sub_comm, abs_div, abs_one, div_le_iff₀ (by positivity)]
  have e2 : 2 * u * (1 / |y|) * (|x| * |y|) = 2 * u * |x| := by field_simp
  rw [e2]
  have hu0 : 0 ≤ u := by
    by_contra hn
    rw [not_le] at hn
    have := le_trans (abs_nonneg _) h
    nlinarith
  nlinarith

/-- Floats that are not tiny are encoded with at most 53 bits and a relative error of `2^-50`. -/
theorem encode_float_ok (x : Rat) (n M : Int) (hM : 2 * M < n) (h53 : 2 ^ 53 ≤ M)
    (hx : tiny ≤ |x|) :
    ∃ f i, encode (.float x) n M none = .ok f ∧ f.n = n ∧ f.maxInt = M ∧ mantissa f = .ok i ∧
      |i| ≤ 2 ^ 53 ∧ Close (1 / 2 ^ 50) (i * (16 : Rat) ^ (-f.exponent)) x := by
  have h0 : x ≠ 0 := by
    rintro rfl; rw [abs_zero] at hx; exact absurd tiny_pos (not_lt.mpr hx)
  obtain ⟨e, he⟩ : ∃ e, e = (53 - frexpExp x) / 4 := ⟨_, rfl⟩
  have hlt : |x * (16 : Rat) ^ e| < 2 ^ 53 := by
    obtain ⟨_, hb2⟩ := frexp_bounds x h0
    have hp : (0 : Rat) < (16 : Rat) ^ e := zpow_pos (by norm_num) _
    rw [abs_mul, abs_of_pos hp]
    have h2 := mul_lt_mul_of_pos_right hb2 hp
    refine lt_of_lt_of_le h2 ?_
    rw [show (16 : Rat) = (2 : Rat) ^ (4 : Int) by norm_num, ← zpow_mul,
      ← zpow_add₀ (by norm_num), ← zpow_natCast]
    apply zpow_le_zpow_right₀ (by norm_num)
    push_cast; omega
  have hi : |roundEven (x * (16 : Rat) ^ e)| ≤ 2 ^ 53 := by
    have h1 := roundEven_err (x * (16 : Rat) ^ e)
    have h2 : |(roundEven (x * (16 : Rat) ^ e) : Rat)| < 2 ^ 53 + 1 := by
      have := abs_sub_abs_le_abs_sub (roundEven (x * (16 : Rat) ^ e) : Rat) (x * (16 : Rat) ^ e)
      linarith
    have h3 : |roundEven (x * (16 : Rat) ^ e)| < 2 ^ 53 + 1 := by exact_mod_cast h2
    omega
  have henc : encode (.float x) n M none = .ok ⟨roundEven (x * (16 : Rat) ^ e) % n, e, n, M⟩ := by
    rw [encode_ok_iff]
    refine ⟨e, ?_, ?_, ?_⟩
    · rw [flush_float x hx]; simp [chooseExp, he]
    · rw [flush_float x hx]; exact le_trans hi h53
    · rw [flush_float x hx]; rfl
  have hm := mantissa_mod (roundEven (x * (16 : Rat) ^ e)) n M e hM (le_trans hi h53)
  refine ⟨_, _, henc, rfl, rfl, hm, hi, ?_⟩
  have := scale_round_err x e
  rw [scale_val] at this
  have hg := grid_rel x h0 e (le_of_eq he.symm)
  unfold Close
  show |(roundEven (x * (16 : Rat) ^ e) : Rat) * (16 : Rat) ^ (-e) - x| ≤ _
  linarith [le_trans this hg]

/-- Every float is encoded over the default modulus. -/
theorem encodeQ_float_ok (x : Rat) : ∃ f, encodeQ (.float x) none = .ok f := by
  by_cases hx : tiny ≤ |x|
  · obtain ⟨f, _, h, _⟩ := encode_float_ok x Q (Q / 3 - 1) (by decide) (by decide) hx
    exact ⟨f, h⟩
  · rw [not_le] at hx
    have hfl : encodeQ (.float x) none = encodeQ (.int 0) none := by
      unfold encodeQ encode
      rw [flush_int, flush_of_tiny (.float x) (by simp) (by simpa [Scalar.val] using hx)]
    rw [hfl]
    obtain ⟨f, hf, _⟩ := C08_int_roundtrip 0 Q (Q / 3 - 1) (by decide) (by decide)
    exact ⟨f, hf⟩

/-- Scalars up to `2^125` are encoded over the default modulus. -/
theorem encodeQ_ok (s : Scalar) (hs : s ≠ .other) (hb : |s.val| ≤ 2 ^ 125) :
    ∃ f, encodeQ s none = .ok f := by
  cases s with
  | int z =>
    have : |z| ≤ 2 ^ 125 := by
      simp only [Scalar.val] at hb
      exact_mod_cast hb
    obtain ⟨f, hf, _⟩ := C08_int_roundtrip z Q (Q / 3 - 1) (by decide)
      (le_trans this (by decide))
    exact ⟨f, hf⟩
  | float x => exact encodeQ_float_ok x
  | other => exact absurd rfl hs

theorem decode_ne_other {x : Num} {t : Scalar} (h : decode x = .ok t) : t ≠ .other := by
  obtain ⟨m, _, rfl⟩ := (decode_ok_iff x t).mp h
  unfold scale
  split <;> simp

theorem recip_ok (rnd : Rat → Rat) (s : Scalar) (hs : s ≠ .other) (h0 : s.val ≠ 0) :
    recip rnd s = .ok (.float (rnd (1 / s.val))) := by
  cases s with
  | other => exact absurd rfl hs
  | int z => simp only [recip]; rw [if_neg h0]
  | float x => simp only [recip]; rw [if_neg h0]

end Verif
