import Verif.Lemmas.Division
import Verif.Props.C10
import Verif.Props.C11
import Mathlib.Tactic.NormNum.Prime
import Mathlib.NumberTheory.LucasLehmer

/-!
# C76 – division and reversed subtraction

Quotients are computed as products with a rounded reciprocal, for fixed-point numbers and for
ciphertexts.
-/

set_option autoImplicit false

namespace Verif
open FP Spec

private theorem tiny_big : (1 : Rat) ≤ 1 / tiny := by
  rw [le_div_iff₀ tiny_pos, one_mul]; exact tiny_le_one

private theorem near_quot {a b r r' c u : Rat} (hu0 : 0 ≤ u) (hu : u ≤ 1 / 2)
    (h1 : Close u r (1 / b)) (h2 : Close (1 / 2 ^ 50) r' r) (h3 : Close (1 / 2 ^ 50) c (a * r')) :
    Close (2 * u + 1 / 2 ^ 48) c (a / b) := by
  have h4 := Close.trans (by norm_num) h3 ((Close.trans (by norm_num) h2 h1).mul_left a)
  rw [mul_one_div] at h4
  refine h4.mono ?_
  nlinarith

private theorem mant_bound {x : Num} {a : Rat} {m : Int} {k : Nat}
    (ha : a = m * (16 : Rat) ^ (-x.exponent)) (h : |a| * (16 : Rat) ^ x.exponent ≤ 2 ^ k) :
    |m| ≤ 2 ^ k := by
  have hp : (0 : Rat) < (16 : Rat) ^ (-x.exponent) := zpow_pos (by norm_num) _
  rw [ha, abs_mul, abs_of_pos hp, mul_assoc, ← zpow_add₀ (by norm_num)] at h
  simp only [neg_add_cancel, zpow_zero, mul_one] at h
  exact_mod_cast h

/-- **Dividing a fixed-point number by a plain number** succeeds and gives the quotient up to the
relative error `2u + 2^-48`: for a dividend of at most 70 bits, a divisor of moderate size, and a
quotient that is 0 or of moderate size. -/
theorem C76_div (rnd : Rat → Rat) (u : Rat) (hr : RoundsTo rnd u) (hu0 : 0 ≤ u) (hu : u ≤ 1 / 2)
    (x : Num) (a : Rat) (hx : OverQ x) (ha : DecodesTo x a)
    (hbits : |a| * (16 : Rat) ^ x.exponent ≤ 2 ^ 70)
    (s : Scalar) (hs : s ≠ .other) (h0 : s.val ≠ 0)
    (hlo : 2 * tiny ≤ |1 / s.val|) (hhi : |1 / s.val| ≤ 1 / tiny)
    (hq : a = 0 ∨ 4 * tiny ≤ |a / s.val|) (hQ : |a / s.val| ≤ 2 ^ 120) :
    ∃ z c, FP.divScalar rnd x s = .ok z ∧ OverQ z ∧ DecodesTo z c ∧
      Close (2 * u + 1 / 2 ^ 48) c (a / s.val) := by
  have tp := tiny_pos
  have hrr := hr (1 / s.val) (by linarith) hhi
  obtain ⟨r, hrdef⟩ : ∃ r, r = rnd (1 / s.val) := ⟨_, rfl⟩
  rw [← hrdef] at hrr
  have hrt : tiny ≤ |r| := by
    have := hrr.abs_ge
    nlinarith [abs_nonneg (1 / s.val)]
  obtain ⟨y, my, hy, hyn, hyM, hmy, hmy53, hyc⟩ :=
    encode_float_ok r Q (Q / 3 - 1) (by decide) (by decide) hrt
  obtain ⟨r', hr'⟩ : ∃ r', r' = (my : Rat) * (16 : Rat) ^ (-y.exponent) := ⟨_, rfl⟩
  rw [← hr'] at hyc
  obtain ⟨mx, hmx, hax⟩ := aux09_decodes ha
  have hmx70 : |mx| ≤ 2 ^ 70 := mant_bound hax hbits
  have hyd : DecodesTo y r' := ⟨_, (decode_ok_iff _ _).mpr ⟨my, hmy, rfl⟩, by rw [scale_val, hr']⟩
  have hab : ((mx * my : Int) : Rat) * (16 : Rat) ^ (-(x.exponent + y.exponent)) = a * r' := by
    rw [hax, hr', neg_add, zpow_add₀ (by norm_num)]; push_cast; ring
  have hprod : |mx * my| ≤ Q / 3 - 1 := by
    rw [abs_mul]
    calc |mx| * |my| ≤ 2 ^ 70 * 2 ^ 53 := mul_le_mul hmx70 hmy53 (abs_nonneg _) (by norm_num)
      _ ≤ Q / 3 - 1 := by decide
  have hfit : Fits (a * r') (x.exponent + y.exponent) := by
    unfold Fits
    have hp : (0 : Rat) < (16 : Rat) ^ (-(x.exponent + y.exponent)) := zpow_pos (by norm_num) _
    rw [← hab, abs_mul, abs_of_pos hp, mul_assoc, ← zpow_add₀ (by norm_num)]
    simp only [neg_add_cancel, zpow_zero, mul_one]
    exact_mod_cast hprod
  -- the product of the mantissas
  have henc : x.encoding * y.encoding % Q = mx * my % Q := by
    have h1 := mantissa_modEq hmx
    have h2 := mantissa_modEq hmy
    rw [hx.1] at h1; rw [hyn] at h2
    exact h1.mul h2
  have hdec : decode (mkQ (mx * my % Q) (x.exponent + y.exponent))
      = .ok (scale (mx * my) (x.exponent + y.exponent)) :=
    (decode_ok_iff _ _).mpr ⟨_, mantissa_mod _ Q _ _ (by decide) hprod, rfl⟩
  have hclose : Close (2 * u + 1 / 2 ^ 48) (a * r') (a / s.val) := by
    have h4 := (Close.trans (by norm_num) hyc hrr).mul_left a
    rw [mul_one_div] at h4
    refine h4.mono ?_
    nlinarith
  obtain ⟨z, hz⟩ : ∃ z, encodeQ (scale (mx * my) (x.exponent + y.exponent)) none = .ok z := by
    apply encodeQ_ok _ (decode_ne_other hdec)
    rw [scale_val, hab]
    have := hclose.abs_le
    nlinarith [abs_nonneg (a / s.val)]
  have hmul : mulFix x y = .ok z := by
    unfold mulFix truncate
    rw [henc, hdec]
    exact hz
  have hdiv : FP.divScalar rnd x s = .ok z := by
    unfold FP.divScalar mulScalar
    rw [recip_ok rnd s hs h0, ← hrdef]
    simp only [bind, Except.bind]
    unfold encodeQ
    rw [hy]
    exact hmul
  obtain ⟨hzQ, c, hzc, hc1, hc2⟩ := C09_mul x y z a r' hx ⟨hyn, hyM⟩ ha hyd hfit hmul
  refine ⟨z, c, hdiv, hzQ, hzc, ?_⟩
  rcases hq with rfl | hq
  · rw [zero_mul, abs_zero] at hc2
    rw [hc2 tp, zero_div]
    unfold Close; simp
  · refine near_quot hu0 hu hrr hyc ?_
    unfold Close
    have hge : tiny ≤ |a * r'| := by
      have h1 := ((hrr.mul_left a).abs_ge)
      rw [mul_one_div] at h1
      have h2 := ((hyc.mul_left a).abs_ge)
      nlinarith [abs_nonneg (a / s.val), abs_nonneg (a * r)]
    have := hc1 hge
    linarith

/-- Dividing by a fixed-point number is dividing by what it decodes to. -/
theorem C76_div_fixed (rnd : Rat → Rat) (x y : Num) (t : Scalar) (h : decode y = .ok t) :
    divFix rnd x y = FP.divScalar rnd x t := by
  unfold divFix
  rw [h]; rfl

/-- **A plain number divided by a fixed-point number**: for a quotient of moderate size the result
is right up to the relative error `8u + 2^-45`. -/
theorem C76_rdiv (rnd : Rat → Rat) (u : Rat) (hr : RoundsTo rnd u) (hu0 : 0 ≤ u) (hu : u ≤ 1 / 16)
    (x : Num) (a : Rat) (hx : OverQ x) (ha : DecodesTo x a)
    (hbits : |a| * (16 : Rat) ^ x.exponent ≤ 2 ^ 70)
    (s : Scalar) (hs : s ≠ .other) (h0 : s.val ≠ 0) (ha0 : a ≠ 0)
    (hlo : 2 * tiny ≤ |1 / s.val|) (hhi : |1 / s.val| ≤ 1 / tiny)
    (hq : 4 * tiny ≤ |a / s.val|) (hQ : |a / s.val| ≤ 2 ^ 120) :
    ∃ z c, rdivScalar rnd s x = .ok z ∧ OverQ z ∧ DecodesTo z c ∧
      Close (8 * u + 1 / 2 ^ 45) c (s.val / a) := by
  have tp := tiny_pos
  obtain ⟨d, c, hd, hdQ, ⟨t, ht, htc⟩, hc⟩ := C76_div rnd u hr hu0 (by linarith) x a hx ha hbits s hs
    h0 hlo hhi (Or.inr hq) hQ
  have hne : a / s.val ≠ 0 := div_ne_zero ha0 h0
  obtain ⟨hc0, hinv⟩ := hc.inv hne (by norm_num; linarith)
  have hqp : 0 < |a / s.val| := abs_pos.mpr hne
  -- the size of the reciprocal
  have hc1 := hc.abs_ge
  have hc2 := hc.abs_le
  have hclo : 2 * tiny ≤ |c| := by nlinarith
  have hchi : |c| ≤ 2 ^ 121 := by nlinarith
  have htiny : tiny ≤ 1 / 2 ^ 123 := by unfold tiny; norm_num
  have hr1 : 2 * tiny ≤ |1 / c| := by
    rw [abs_div, abs_one, le_div_iff₀ (by linarith)]
    calc 2 * tiny * |c| ≤ 2 * (1 / 2 ^ 123) * 2 ^ 121 := by
          apply mul_le_mul _ hchi (abs_nonneg _) (by norm_num)
          linarith
      _ ≤ 1 := by norm_num
  have hr2 : |1 / c| ≤ 1 / tiny := by
    rw [abs_div, abs_one]
    exact one_div_le_one_div_of_le tp (by linarith)
  have hrr := hr (1 / c) (by linarith) hr2
  have hrt : tiny ≤ |rnd (1 / c)| := by
    have := hrr.abs_ge
    nlinarith [abs_nonneg (1 / c)]
  obtain ⟨z, mz, hz, hzn, hzM, hmz, _, hzc⟩ :=
    encode_float_ok (rnd (1 / c)) Q (Q / 3 - 1) (by decide) (by decide) hrt
  refine ⟨z, _, ?_, ⟨hzn, hzM⟩, ⟨_, (decode_ok_iff _ _).mpr ⟨mz, hmz, rfl⟩, scale_val _ _⟩, ?_⟩
  · unfold rdivScalar
    rw [hd]
    simp only [bind, Except.bind]
    rw [ht]
    simp only
    rw [recip_ok rnd t (decode_ne_other ht) (by rw [htc]; exact hc0), htc]
    exact hz
  · have h5 := Close.trans (by norm_num) hzc (Close.trans hu0 hrr hinv)
    rw [one_div_div] at h5
    refine h5.mono ?_
    nlinarith

/-- **Division by zero** raises `ZeroDivisionError`. -/
theorem C76_by_zero (rnd : Rat → Rat) (x : Num) (X : Paillier.EncNum) (s : Scalar) (hs : s ≠ .other)
    (h0 : s.val = 0) :
    FP.divScalar rnd x s = .error .zeroDivision ∧
    Paillier.divScalar rnd X s = .error .zeroDivision := by
  have h : recip rnd s = .error .zeroDivision := by
    cases s with
    | other => exact absurd rfl hs
    | int z => simp only [recip]; rw [if_pos h0]
    | float x => simp only [recip]; rw [if_pos h0]
  unfold FP.divScalar Paillier.divScalar
  rw [h]
  exact ⟨rfl, rfl⟩

/-- Zero divided by a fixed-point number is not zero: it raises `ZeroDivisionError` too, whatever
the divisor. -/
theorem C76_zero_numerator_refuted (rnd : Rat → Rat) (x : Num) (s : Scalar) (hs : s ≠ .other)
    (h0 : s.val = 0) : rdivScalar rnd s x = .error .zeroDivision := by
  unfold rdivScalar
  rw [(C76_by_zero rnd x ⟨⟨0⟩, 0, 0, false⟩ s hs h0).1]
  rfl

/-- Quotients of integers that are integers are not exact: `6 / 3`, with the reciprocal rounded to
the nearest float, decodes to `2 - 2^-51`. -/
theorem C76_exact_refuted (rnd : Rat → Rat) (hr : rnd (1 / 3) = 6004799503160661 / 2 ^ 54) :
    ∃ x z, encodeQ (.int 6) none = .ok x ∧ FP.divScalar rnd x (.int 3) = .ok z ∧
      decode z = .ok (.float (2 - 1 / 2 ^ 51)) := by
  refine ⟨mkQ 6 0, mkQ (2 ^ 53 - 2) 13, by decide +kernel, ?_, by decide +kernel⟩
  have h : recip rnd (.int 3) = .ok (.float (6004799503160661 / 2 ^ 54)) := by
    rw [recip_ok rnd _ (by simp) (by simp [Scalar.val])]
    simp only [Scalar.val]
    push_cast
    rw [hr]
  unfold FP.divScalar
  rw [h]
  show mulScalar _ _ = _
  decide +kernel

/-- What a scalar is encoded to. -/
private theorem enc_near (s : Scalar) (y : Num) (hy : encodeQ s none = .ok y) :
    ∃ b, DecodesTo y b ∧ |b - s.val| ≤ |s.val| / 2 ^ 50 + tiny ∧ |b - s.val| ≤ |s.val| := by
  have tp := tiny_pos
  have q0 : 0 ≤ |s.val| / 2 ^ 50 := by positivity
  have q1 : |s.val| / 2 ^ 50 ≤ |s.val| := div_le_self (abs_nonneg _) (by norm_num)
  unfold encodeQ at hy
  obtain ⟨t, ht, _, h2⟩ := C08_roundtrip s Q (Q / 3 - 1) (by decide) none y hy
  refine ⟨t.val, ⟨t, ht, rfl⟩, ?_⟩
  by_cases hl : |s.val| < tiny
  · rw [h2 hl, zero_sub, abs_neg]
    exact ⟨by linarith, le_refl _⟩
  · rw [not_lt] at hl
    have key : |t.val - s.val| ≤ |s.val| / 2 ^ 50 := by
      cases s with
      | other =>
        rw [C08_other_type Q (Q / 3 - 1) none] at hy
        cases hy
      | int z =>
        obtain ⟨t', ht', hv⟩ := C08_int_exact_at_any_exponent z Q (Q / 3 - 1) (by decide) none y hy
        rw [ht] at ht'; cases ht'
        rw [hv]
        simp only [Scalar.val, sub_self, abs_zero]
        positivity
      | float v =>
        obtain ⟨t', ht', hv⟩ := C08_float_relative_error v Q (Q / 3 - 1) (by decide) none y
          (by simpa [Scalar.val] using hl) hy
        rw [ht] at ht'; cases ht'
        exact hv
    exact ⟨by linarith, by linarith⟩

/-- **A plain number minus a fixed-point number**: right up to `2^-49` of the operands' size, and
`1e-199`. -/
theorem C76_rsub (x : Num) (a : Rat) (hx : OverQ x) (ha : DecodesTo x a)
    (s : Scalar) (y : Num) (hy : encodeQ s.neg none = .ok y)
    (hfit : Fits (|a| + 2 * |s.val|) (max x.exponent y.exponent))
    (hsize : |a| + 2 * |s.val| ≤ 2 ^ 120) :
    ∃ z c, FP.rsubScalar s x = .ok z ∧ OverQ z ∧ DecodesTo z c ∧
      |c - (s.val - a)| ≤ (|s.val - a| + |s.val|) / 2 ^ 49 + 3 * tiny := by
  have tp := tiny_pos
  have hneg : s.neg.val = -s.val := by cases s <;> simp [Scalar.neg, Scalar.val]
  obtain ⟨b, hyb, hb, hb'⟩ := enc_near _ _ hy
  rw [hneg, sub_neg_eq_add, abs_neg] at hb hb'
  have hyQ := (C09_encode_overQ _ _ _ hy).1
  have hab : |a + b| ≤ |a| + 2 * |s.val| := by
    have h1 := abs_add_le a b
    have h2 := abs_sub_le b (-s.val) 0
    rw [sub_neg_eq_add, sub_zero, sub_zero, abs_neg] at h2
    linarith
  obtain ⟨w, hw, hwQ, t, ht, htv⟩ := C09_add_exact x y a b hx hyQ ha hyb (by
    unfold Fits at hfit ⊢
    refine le_trans ?_ hfit
    rw [abs_of_nonneg (by positivity : 0 ≤ |a| + 2 * |s.val|)]
    exact mul_le_mul_of_nonneg_right hab (le_of_lt (zpow_pos (by norm_num) _)))
  have hne : t.neg ≠ .other := by
    have := decode_ne_other ht
    cases t <;> simp [Scalar.neg] at this ⊢
  have htn : t.neg.val = -(a + b) := by
    rw [← htv]; cases t <;> simp [Scalar.neg, Scalar.val]
  obtain ⟨z, hz⟩ := encodeQ_ok t.neg hne (by
    rw [htn, abs_neg]
    refine le_trans hab (le_trans hsize (by norm_num)))
  obtain ⟨c, hzc, hc, _⟩ := enc_near _ _ hz
  rw [htn, abs_neg] at hc
  refine ⟨z, c, ?_, (C09_encode_overQ _ _ _ hz).1, hzc, ?_⟩
  · unfold FP.rsubScalar subScalar addScalar
    rw [hy]
    simp only [bind, Except.bind]
    rw [hw]
    simp only
    rw [ht]
    exact hz
  · have h1 : |a + b| ≤ |s.val - a| + |b + s.val| := by
      have := abs_sub_le (a + b) (a - s.val) 0
      rw [sub_zero, sub_zero, abs_sub_comm a] at this
      have e : a + b - (a - s.val) = b + s.val := by ring
      rw [e] at this
      linarith
    have h2 : |c - (s.val - a)| ≤ |c - -(a + b)| + |b + s.val| := by
      have := abs_sub_le c (-(a + b)) (s.val - a)
      have e : -(a + b) - (s.val - a) = -(b + s.val) := by ring
      rw [e, abs_neg] at this
      exact this
    have h3 : |a + b| / 2 ^ 50 ≤ (|s.val - a| + |s.val|) / 2 ^ 50 := by
      apply div_le_div_of_nonneg_right _ (by norm_num)
      linarith
    have e : (|s.val - a| + |s.val|) / 2 ^ 49
        = (|s.val - a| + |s.val|) / 2 ^ 50 + |s.val - a| / 2 ^ 50 + |s.val| / 2 ^ 50 := by ring
    have q : 0 ≤ |s.val - a| / 2 ^ 50 := by positivity
    linarith

/-- **Dividing a ciphertext**: what an expression over ciphertexts stands for, divided by a plain
number of moderate size, is decrypted to the quotient up to the relative error `2u + 2^-48`, if the
key has room for 53 more bits. -/
theorem C76_cipher (rnd : Rat → Rat) (u : Rat) (hr : RoundsTo rnd u) (hu0 : 0 ≤ u) (hu : u ≤ 1 / 2)
    (p q : Nat) (sk : Paillier.PrivKey) (hk : KeyPair p q sk) (e : Expr) (hus : e.Usable sk.pk.n)
    (v : Rat) (ex : Int) (hp : e.plain sk.pk.n = some (v, ex))
    (h53 : 2 ^ 53 ≤ sk.pk.n / 3 - 1)
    (hroom : |v| * (16 : Rat) ^ ex * 2 ^ 53 ≤ ((sk.pk.n / 3 - 1 : Int) : Rat))
    (s : Scalar) (hs : s ≠ .other) (h0 : s.val ≠ 0)
    (hlo : 2 * tiny ≤ |1 / s.val|) (hhi : |1 / s.val| ≤ 1 / tiny) :
    ∃ X Z t, e.run sk.pk = .ok X ∧ Paillier.divScalar rnd X s = .ok Z ∧
      Paillier.decrypt sk Z = .ok t ∧ Close (2 * u + 1 / 2 ^ 48) t.val (v / s.val) := by
  have tp := tiny_pos
  have hrr := hr (1 / s.val) (by linarith) hhi
  obtain ⟨r, hrdef⟩ : ∃ r, r = rnd (1 / s.val) := ⟨_, rfl⟩
  rw [← hrdef] at hrr
  have hrt : tiny ≤ |r| := by
    have := hrr.abs_ge
    nlinarith [abs_nonneg (1 / s.val)]
  obtain ⟨y, my, hy, hyn, hyM, hmy, hmy53, hyc⟩ :=
    encode_float_ok r sk.pk.n (sk.pk.n / 3 - 1) (by omega) h53 hrt
  have hpl : (Expr.mulScalar e (.float r)).plain sk.pk.n
      = some (v * (my * (16 : Rat) ^ (-y.exponent)), ex + y.exponent) := by
    simp only [Expr.plain, hp, Option.bind_eq_bind, Option.bind_some]
    rw [aux11_encoded_some hy hmy]
    rfl
  have hC := C11_homomorphic_partial p q sk hk (Expr.mulScalar e (.float r)) hus
  rw [hpl] at hC
  obtain ⟨Z, hZ, _, hdec⟩ := hC
  have hE := C11_homomorphic_partial p q sk hk e hus
  rw [hp] at hE
  obtain ⟨X, hX, _, _⟩ := hE
  have hpow : (0 : Rat) < (16 : Rat) ^ (-y.exponent) := zpow_pos (by norm_num) _
  obtain ⟨t, ht, htv⟩ := hdec (by
    refine le_trans (le_of_eq ?_) (le_trans (mul_le_mul_of_nonneg_left
      (by exact_mod_cast hmy53 : |(my : Rat)| ≤ 2 ^ 53)
      (mul_nonneg (abs_nonneg v) (le_of_lt (zpow_pos (by norm_num : (0:Rat) < 16) ex)))) hroom)
    rw [abs_mul, abs_mul, abs_of_pos hpow, zpow_add₀ (by norm_num)]
    have : (16 : Rat) ^ (-y.exponent) * (16 : Rat) ^ y.exponent = 1 := by
      rw [← zpow_add₀ (by norm_num)]; simp
    linear_combination (|v| * |(my : Rat)| * (16 : Rat) ^ ex) * this)
  refine ⟨X, Z, t, hX, ?_, ht, ?_⟩
  · simp only [Expr.run, hX, bind, Except.bind] at hZ
    unfold Paillier.divScalar
    rw [recip_ok rnd s hs h0, ← hrdef]
    exact hZ
  · rw [htv]
    have h4 := (Close.trans (by norm_num) hyc hrr).mul_left v
    rw [mul_one_div] at h4
    refine h4.mono ?_
    nlinarith

/-! Concrete cases: exact rounding meets the hypothesis; `6 / 4`, `6` divided by the number `4` and
`1 - 0.75`. -/

example : RoundsTo id 0 := by
  intro x _ _
  simp [Close]

example : ∃ x z, encodeQ (.int 6) none = .ok x ∧ FP.divScalar id x (.int 4) = .ok z ∧
    decode z = .ok (.float (3 / 2)) :=
  ⟨mkQ 6 0, mkQ (3 * 2 ^ 51) 13, by decide +kernel, by decide +kernel, by decide +kernel⟩

example : ∃ x z, encodeQ (.int 4) none = .ok x ∧ rdivScalar id (.int 8) x = .ok z ∧
    decode z = .ok (.float 2) :=
  ⟨mkQ 4 0, mkQ (2 * 16 ^ 12) 12, by decide +kernel, by decide +kernel, by decide +kernel⟩

example : ∃ x z, encodeQ (.float (3 / 4)) none = .ok x ∧ FP.rsubScalar (.int 1) x = .ok z ∧
    decode z = .ok (.float (1 / 4)) :=
  ⟨mkQ (3 * 2 ^ 50) 13, mkQ (2 ^ 50) 13, by decide +kernel, by decide +kernel, by decide +kernel⟩

/-- `C76_cipher` applies to a key of 63 bits and the encryption of 6 divided by 4. -/
example : ∃ (sk : Paillier.PrivKey) (e : Expr) (X Z : Paillier.EncNum) (t : Scalar),
    KeyPair 3 2305843009213693951 sk ∧ e.plain sk.pk.n = some (6, 0) ∧
    e.run sk.pk = .ok X ∧ Paillier.divScalar id X (.int 4) = .ok Z ∧
    Paillier.decrypt sk Z = .ok t ∧ Close (2 * 0 + 1 / 2 ^ 48) t.val (6 / 4) := by
  have hp : Nat.Prime 3 := by norm_num
  have hq : Nat.Prime 2305843009213693951 := by
    have : (mersenne 61).Prime := lucas_lehmer_sufficiency _ (by norm_num) (by norm_num)
    simpa [mersenne] using this
  obtain ⟨sk, hk, hn⟩ : ∃ sk, KeyPair 3 2305843009213693951 sk ∧
      sk.pk.n = 3 * 2305843009213693951 := by
    obtain ⟨sk, hk, hn⟩ := C10_key_constructed _ _ hp hq (by norm_num)
    exact ⟨sk, hk, by rw [hn]; norm_num⟩
  have hpl : (Expr.enc (.int 6) (some 1) 1).plain sk.pk.n = some (6, 0) := by
    have := C11_encoded_int sk.pk.n 6 (by rw [hn]; norm_num) (by rw [hn]; decide)
    simpa [Expr.plain] using this
  have ht : (tiny : Rat) ≤ 1 / 100 := by unfold tiny; norm_num
  have ht' : (100 : Rat) ≤ tiny⁻¹ := by
    rw [← one_div, le_div_iff₀ tiny_pos]; linarith
  obtain ⟨X, Z, t, h1, h2, h3, h4⟩ := C76_cipher id 0 (fun x _ _ => by simp [Close]) (le_refl _)
    (by norm_num) _ _ sk hk (.enc (.int 6) (some 1) 1)
    ⟨isCoprime_one_left, fun r h _ => by cases h; exact isCoprime_one_left⟩ 6 0 hpl
    (by rw [hn]; decide) (by rw [hn]; norm_num) (.int 4) (by simp) (by simp [Scalar.val])
    (by simp only [Scalar.val]; norm_num; linarith) (by simp only [Scalar.val]; norm_num; linarith)
  exact ⟨sk, _, X, Z, t, hk, hpl, h1, h2, h3, by simpa [Scalar.val] using h4⟩

end Verif
