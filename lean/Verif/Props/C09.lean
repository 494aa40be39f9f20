import Verif.Lemmas.C09
import Verif.Props.C08

/-!
# C09 – fixed-point arithmetic agrees with exact arithmetic

The numbers considered are those over the default modulus of the class that decode without
error; every number produced by the default `encode` is one (`C09_encode_overQ`).
-/

set_option autoImplicit false

namespace Verif
open FP Spec

/-- Everything the default encoder returns is a valid number over the default modulus. -/
theorem C09_encode_overQ (s : Scalar) (me : Option Int) (f : Num) (h : encodeQ s me = .ok f) :
    OverQ f ∧ ∃ a, DecodesTo f a := by
  obtain ⟨e, i, _, _, _, _, hn, hM, _, _, hd⟩ :=
    encode_decode s Q (Q / 3 - 1) (by decide) me f h
  exact ⟨⟨hn, hM⟩, _, _, hd, rfl⟩

/-- **Addition is exact when the sum fits** at the larger of the two exponents. -/
theorem C09_add_exact (x y : Num) (a b : Rat) (hx : OverQ x) (hy : OverQ y)
    (ha : DecodesTo x a) (hb : DecodesTo y b)
    (hfit : Fits (a + b) (max x.exponent y.exponent)) :
    ∃ z, addFix x y = .ok z ∧ OverQ z ∧ DecodesTo z (a + b) := by
  obtain ⟨mx, hmx, hax⟩ := aux09_decodes ha
  obtain ⟨my, hmy, hby⟩ := aux09_decodes hb
  have hsum := aux09_sum hax hby
  refine ⟨_, addFix_ok x y hx.1 hy.1 hmx hmy, ⟨rfl, rfl⟩, ?_⟩
  rw [← hsum] at hfit
  refine ⟨_, (decode_ok_iff _ _).mpr ⟨_, mantissa_mod _ Q (Q / 3 - 1) _ (by decide)
    (aux09_fits hfit), rfl⟩, ?_⟩
  rw [scale_val, ← hsum]; rfl

/-- **Overflow is reported**: if each operand is representable at the common exponent but
their sum is not, decoding the result raises `OverflowError`. -/
theorem C09_add_overflow_partial (x y : Num) (a b : Rat) (hx : OverQ x) (hy : OverQ y)
    (ha : DecodesTo x a) (hb : DecodesTo y b)
    (hfa : Fits a (max x.exponent y.exponent)) (hfb : Fits b (max x.exponent y.exponent))
    (hno : ¬ Fits (a + b) (max x.exponent y.exponent)) :
    ∃ z, addFix x y = .ok z ∧ decode z = .error .overflow := by
  obtain ⟨mx, hmx, hax⟩ := aux09_decodes ha
  obtain ⟨my, hmy, hby⟩ := aux09_decodes hb
  have hsum := aux09_sum hax hby
  refine ⟨_, addFix_ok x y hx.1 hy.1 hmx hmy, ?_⟩
  have h1 := shift_val mx x.exponent (max x.exponent y.exponent) (le_max_left _ _)
  have h2 := shift_val my y.exponent (max x.exponent y.exponent) (le_max_right _ _)
  rw [← hax] at h1
  rw [← hby] at h2
  rw [← h1] at hfa
  rw [← h2] at hfb
  have b1 := aux09_fits hfa
  have b2 := aux09_fits hfb
  have b3 := abs_add_le (mx * 16 ^ (max x.exponent y.exponent - x.exponent).toNat)
    (my * 16 ^ (max x.exponent y.exponent - y.exponent).toNat)
  have hov := mantissa_mod_overflow
    (mx * 16 ^ (max x.exponent y.exponent - x.exponent).toNat
      + my * 16 ^ (max x.exponent y.exponent - y.exponent).toNat)
    Q (Q / 3 - 1) (max x.exponent y.exponent) (by decide)
    (by
      by_contra hcon
      apply hno
      rw [not_lt] at hcon
      unfold Fits
      have hp : (0 : Rat) < (16 : Rat) ^ (-(max x.exponent y.exponent)) := zpow_pos (by norm_num) _
      rw [← hsum, abs_mul, abs_of_pos hp, mul_assoc, ← zpow_add₀ (by norm_num)]
      simp only [neg_add_cancel, zpow_zero, mul_one]
      exact_mod_cast hcon)
    (by omega)
  unfold decode
  unfold mkQ
  rw [hov]; rfl

/-- Without the hypothesis that the operands fit at the common exponent, overflow can go
unnoticed: `10^37 + 2^-60`, both in range, decodes without error to a number below `2000`
(the integer wraps around while its exponent is increased). -/
theorem C09_add_overflow_refuted :
    ∃ x y z c, encodeQ (.int (10 ^ 37)) none = .ok x ∧ decode x = .ok (.int (10 ^ 37)) ∧
      encodeQ (.float (1 / 2 ^ 60)) none = .ok y ∧ decode y = .ok (.float (1 / 2 ^ 60)) ∧
      addFix x y = .ok z ∧ decode z = .ok (.float c) ∧ 0 < c ∧ c < 2000 :=
  ⟨mkQ (10 ^ 37) 0, mkQ 4503599627370496 28, mkQ ((10 ^ 37 * 16 ^ 28 + 4503599627370496) % Q) 28,
    4395610081615214463456817723037873647 / 2596148429267413814265248164610048,
    by decide +kernel, by decide +kernel, by decide +kernel, by decide +kernel, by decide +kernel,
    by decide +kernel, by decide +kernel, by decide +kernel⟩

/-- Over another modulus than the class default, addition is wrong: with `n = 100`,
`3 + (-1)` decodes to `102`. -/
theorem C09_add_other_modulus_refuted :
    ∃ x y z, encode (.int 3) 100 32 none = .ok x ∧ encode (.int (-1)) 100 32 none = .ok y ∧
      addFix x y = .ok z ∧ decode z = .ok (.int 102) :=
  ⟨⟨3, 0, 100, 32⟩, ⟨99, 0, 100, 32⟩, mkQ 102 0, by decide +kernel, by decide +kernel,
    by decide +kernel, by decide +kernel⟩

/-- Comparisons order the decoded values. -/
theorem C09_compare (rel : Rat → Rat → Bool) (x y : Num) (a b : Rat)
    (ha : DecodesTo x a) (hb : DecodesTo y b) : compareNum rel x y = .ok (rel a b) := by
  obtain ⟨t, ht, rfl⟩ := ha
  obtain ⟨u, hu, rfl⟩ := hb
  simp [compareNum, ht, hu, bind, Except.bind]

/-- **Subtraction is exact** when the difference fits at the exponent of the result, for
a subtrahend with at most 53 significant bits at its own exponent (every number encoded
from a float or small integer) that is not a nonzero number below `1e-200`. -/
theorem C09_sub_exact (x y : Num) (a b : Rat) (hx : OverQ x)
    (ha : DecodesTo x a) (hb : DecodesTo y b)
    (hbits : |b| * (16 : Rat) ^ y.exponent < 2 ^ 53) (htiny : b = 0 ∨ tiny ≤ |b|)
    (hrange : Fits b 0) :
    ∃ z, subFix x y = .ok z ∧ OverQ z ∧
      (Fits (a - b) z.exponent → DecodesTo z (a - b)) := by
  obtain ⟨t, ht, htb⟩ := hb
  obtain ⟨m, hm, rfl⟩ := (decode_ok_iff y t).mp ht
  have hm53 : |m| < 2 ^ 53 := by
    rw [← htb, scale_val] at hbits
    have hp : (0 : Rat) < (16 : Rat) ^ (-y.exponent) := zpow_pos (by norm_num) _
    rw [abs_mul, abs_of_pos hp, mul_assoc, ← zpow_add₀ (by norm_num)] at hbits
    simp only [neg_add_cancel, zpow_zero, mul_one] at hbits
    exact_mod_cast hbits
  have hnv : (scale (-m) y.exponent).val = -b := by
    rw [scale_val, ← htb, scale_val]; push_cast; ring
  obtain ⟨f, i, hf, hfn, hfM, hmi, hiv⟩ := encodeQ_scale_exact (-m) y.exponent
    (by rw [abs_neg]; exact hm53)
    (by rw [hnv, abs_neg]; rcases htiny with h | h
        · left; rw [h]; simp
        · right; exact h)
    (by rw [hnv, abs_neg]; simpa [Fits] using hrange)
  have hfd : DecodesTo f (-b) :=
    ⟨_, (decode_ok_iff _ _).mpr ⟨i, hmi, rfl⟩, by rw [scale_val, hiv, hnv]⟩
  have hsub : subFix x y = addFix x f := by
    unfold subFix addScalar
    rw [ht]
    simp only [bind, Except.bind]
    rw [scale_neg, hf]
  obtain ⟨mx, hmx, hax⟩ := aux09_decodes ha
  rw [hsub]
  refine ⟨_, addFix_ok x f hx.1 hfn hmx hmi, ⟨rfl, rfl⟩, ?_⟩
  intro hfit
  obtain ⟨z, hz, _, hzd⟩ := C09_add_exact x f a (-b) hx ⟨hfn, hfM⟩ ha hfd
    (by rw [← sub_eq_add_neg]; exact hfit)
  rw [addFix_ok x f hx.1 hfn hmx hmi] at hz
  cases hz
  rw [sub_eq_add_neg a b]; exact hzd

/-- **Products**: if the exact product of the mantissas fits, the product decodes to the
exact product up to relative error `2^-50` (and to 0 if it is below `1e-200`). -/
theorem C09_mul (x y z : Num) (a b : Rat) (hx : OverQ x) (hy : OverQ y)
    (ha : DecodesTo x a) (hb : DecodesTo y b) (hfit : Fits (a * b) (x.exponent + y.exponent))
    (h : mulFix x y = .ok z) :
    OverQ z ∧ ∃ c, DecodesTo z c ∧ (tiny ≤ |a * b| → |c - a * b| ≤ |a * b| / 2 ^ 50) ∧
      (|a * b| < tiny → c = 0) := by
  obtain ⟨mx, hmx, hax⟩ := aux09_decodes ha
  obtain ⟨my, hmy, hby⟩ := aux09_decodes hb
  have hab : ((mx * my : Int) : Rat) * (16 : Rat) ^ (-(x.exponent + y.exponent)) = a * b := by
    rw [hax, hby, neg_add, zpow_add₀ (by norm_num)]; push_cast; ring
  rw [← hab] at hfit
  have hle := aux09_fits hfit
  have henc : x.encoding * y.encoding % Q = mx * my % Q := by
    have h1 := mantissa_modEq hmx
    have h2 := mantissa_modEq hmy
    rw [hx.1] at h1; rw [hy.1] at h2
    exact h1.mul h2
  unfold mulFix truncate at h
  rw [henc] at h
  have hdec : decode (mkQ (mx * my % Q) (x.exponent + y.exponent))
      = .ok (scale (mx * my) (x.exponent + y.exponent)) :=
    (decode_ok_iff _ _).mpr ⟨_, mantissa_mod _ Q _ _ (by decide) hle, rfl⟩
  rw [hdec] at h
  simp only [bind, Except.bind] at h
  refine ⟨(C09_encode_overQ _ _ _ h).1, ?_⟩
  obtain ⟨t, ht, h1, h2⟩ := C08_roundtrip _ Q (Q / 3 - 1) (by decide) none z h
  have hv : (scale (mx * my) (x.exponent + y.exponent)).val = a * b := by rw [scale_val, hab]
  refine ⟨t.val, ⟨t, ht, rfl⟩, ?_, ?_⟩
  · intro hl
    rw [hv] at h1
    by_cases he : x.exponent + y.exponent ≤ 0
    · have hs : scale (mx * my) (x.exponent + y.exponent)
          = .int (mx * my * 16 ^ (-(x.exponent + y.exponent)).toNat) := by
        unfold scale; rw [if_pos he]
      rw [hs] at h
      obtain ⟨t', ht', hval⟩ := C08_int_exact_at_any_exponent _ Q (Q / 3 - 1) (by decide) none z h
      rw [ht] at ht'; cases ht'
      rw [← hv, hs, hval]
      simp only [Scalar.val, sub_self, abs_zero]
      positivity
    · have hs : scale (mx * my) (x.exponent + y.exponent) = .float (a * b) := by
        rw [← hab]; unfold scale; rw [if_neg he]
      rw [hs] at h
      obtain ⟨t', ht', hval⟩ :=
        C08_float_relative_error (a * b) Q (Q / 3 - 1) (by decide) none z hl h
      rw [ht] at ht'; cases ht'
      exact hval
  · intro hl
    rw [hv] at h2
    exact h2 hl

/-! Concrete cases meeting the hypotheses: `2.5 + (-0.75)`, `2.5 - 0.75`, `2.5 * (-0.75)`. -/

example : ∃ x y z, encodeQ (.float (5 / 2)) none = .ok x ∧ encodeQ (.float (-3 / 4)) none = .ok y ∧
    addFix x y = .ok z ∧ decode z = .ok (.float (7 / 4)) :=
  ⟨mkQ (5 * 2 ^ 47) 12, mkQ ((-3 * 2 ^ 50) % Q) 13, mkQ (7 * 2 ^ 50) 13, by decide +kernel,
    by decide +kernel, by decide +kernel, by decide +kernel⟩

example : ∃ x y z, encodeQ (.float (5 / 2)) none = .ok x ∧ encodeQ (.float (3 / 4)) none = .ok y ∧
    subFix x y = .ok z ∧ decode z = .ok (.float (7 / 4)) :=
  ⟨mkQ (5 * 2 ^ 47) 12, mkQ (3 * 2 ^ 50) 13, mkQ (7 * 2 ^ 50) 13, by decide +kernel,
    by decide +kernel, by decide +kernel, by decide +kernel⟩

example : ∃ x y z, encodeQ (.float (5 / 2)) none = .ok x ∧ encodeQ (.float (-3 / 4)) none = .ok y ∧
    mulFix x y = .ok z ∧ decode z = .ok (.float (-15 / 8)) :=
  ⟨mkQ (5 * 2 ^ 47) 12, mkQ ((-3 * 2 ^ 50) % Q) 13, mkQ ((-15 * 2 ^ 49) % Q) 13, by decide +kernel,
    by decide +kernel, by decide +kernel, by decide +kernel⟩

/-- Overflow of two in-range integers is reported. -/
example : ∃ x z, encodeQ (.int (9 * 10 ^ 37)) none = .ok x ∧ addFix x x = .ok z ∧
    decode z = .error .overflow :=
  ⟨mkQ (9 * 10 ^ 37) 0, mkQ (18 * 10 ^ 37) 0, by decide +kernel, by decide +kernel,
    by decide +kernel⟩

end Verif
