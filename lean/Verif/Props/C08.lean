import Verif.Lemmas.FixedPoint

/-!
# C08 – fixed-point encoding round-trips

Throughout, `n` is the modulus and `M` the largest mantissa; the code always uses
`M = n // 3 - 1`, of which only `2 * M < n` is needed.
-/

set_option autoImplicit false

namespace Verif
open FP

/-- The constants used by the code satisfy the window hypothesis. -/
theorem C08_window (n : Int) (hn : 0 < n) : 2 * (n / 3 - 1) < n ∧ 3 * (n / 3 - 1) < n := by omega

/-- Integers in range round-trip exactly, as integers. -/
theorem C08_int_roundtrip (z n M : Int) (hM : 2 * M < n) (hz : |z| ≤ M) :
    ∃ f, encode (.int z) n M none = .ok f ∧ f.exponent = 0 ∧ decode f = .ok (.int z) := by
  have hval : roundEven ((flush (.int z)).val * (16 : Rat) ^ (0 : Int)) = z := by
    rw [flush_int]; simp only [Scalar.val, zpow_zero, mul_one]; exact roundEven_intCast z
  have h : encode (.int z) n M none = .ok ⟨z % n, 0, n, M⟩ := by
    rw [encode_ok_iff]
    refine ⟨0, ?_, ?_, ?_⟩
    · rw [flush_int]; rfl
    · rw [hval]; exact hz
    · rw [hval]
  refine ⟨_, h, rfl, ?_⟩
  rw [decode_ok_iff]
  exact ⟨z, mantissa_mod z n M 0 hM hz, by simp [scale]⟩

example : ∃ f, encode (.int (-7)) 100 32 none = .ok f ∧ f.exponent = 0 ∧ decode f = .ok (.int (-7)) :=
  C08_int_roundtrip (-7) 100 32 (by norm_num) (by norm_num)

/-- Integers out of range are rejected. -/
theorem C08_int_rejected (z n M : Int) (hz : M < |z|) :
    encode (.int z) n M none = .error .valueError := by
  have hval : roundEven ((flush (.int z)).val * (16 : Rat) ^ (0 : Int)) = z := by
    rw [flush_int]; simp only [Scalar.val, zpow_zero, mul_one]; exact roundEven_intCast z
  unfold encode
  simp only [bind, Except.bind]
  have : chooseExp (flush (.int z)) none = .ok 0 := by rw [flush_int]; rfl
  rw [this]
  simp only [hval]
  rw [if_pos hz]

example : encode (.int 33) 100 32 none = .error .valueError :=
  C08_int_rejected 33 100 32 (by norm_num)

/-- **Main round trip.**  Whatever number is encoded, under whatever modulus and whatever
minimal exponent is requested, if the encoder returns an encoding then decoding succeeds
and the result is within half a unit of the fixed-point grid `16^(-exponent)` of the
original, except that numbers below `1e-200` become exactly 0. -/
theorem C08_roundtrip (s : Scalar) (n M : Int) (hM : 2 * M < n) (me : Option Int) (f : Num)
    (h : encode s n M me = .ok f) :
    ∃ t, decode f = .ok t ∧
      (tiny ≤ |s.val| → |t.val - s.val| ≤ (16 : Rat) ^ (-f.exponent) / 2) ∧
      (|s.val| < tiny → t.val = 0) := by
  obtain ⟨e, i, he, hi, hle, hfe, hn, hmx, henc, hm, hd⟩ := encode_decode s n M hM me f h
  refine ⟨_, hd, ?_, ?_⟩
  · intro hl
    rw [hi, hfe, flush_of_large s hl]
    exact scale_round_err s.val e
  · intro hl
    have hs : s ≠ .other := by
      rintro rfl
      simp [flush, chooseExp] at he
    rw [flush_of_tiny s hs hl] at hi
    rw [hi, scale_val]
    simp [Scalar.val, roundEven]

/-- A float is recovered with relative error at most `2^-50`. -/
theorem C08_float_relative_error (x : Rat) (n M : Int) (hM : 2 * M < n) (me : Option Int) (f : Num)
    (hx : tiny ≤ |x|) (h : encode (.float x) n M me = .ok f) :
    ∃ t, decode f = .ok t ∧ |t.val - x| ≤ |x| / 2 ^ 50 := by
  have hx0 : x ≠ 0 := by
    rintro rfl; rw [abs_zero] at hx; exact absurd tiny_pos (not_lt.mpr hx)
  obtain ⟨t, ht, h1, _⟩ := C08_roundtrip (.float x) n M hM me f h
  simp only [Scalar.val] at h1
  refine ⟨t, ht, le_trans (h1 hx) (grid_rel x hx0 _ ?_)⟩
  obtain ⟨e, i, he, _, _, hfe, _⟩ := encode_decode _ n M hM me f h
  rw [flush_float x hx] at he
  rw [hfe]; exact chooseExp_float_ge he

/-- An integer is recovered exactly also when a larger exponent is requested. -/
theorem C08_int_exact_at_any_exponent (z n M : Int) (hM : 2 * M < n) (me : Option Int) (f : Num)
    (h : encode (.int z) n M me = .ok f) : ∃ t, decode f = .ok t ∧ t.val = z := by
  obtain ⟨e, i, he, hi, hle, hfe, hn, hmx, henc, hm, hd⟩ := encode_decode _ n M hM me f h
  rw [flush_int] at he hi
  refine ⟨_, hd, ?_⟩
  have he0 := chooseExp_int_ge he
  have : (Scalar.int z).val * (16 : Rat) ^ e = ((z * 16 ^ e.toNat : Int) : Rat) := by
    simp only [Scalar.val]; push_cast; rw [← zpow_natCast, Int.toNat_of_nonneg he0]
  rw [this, roundEven_intCast] at hi
  rw [scale_val, hi]
  have := shift_val z 0 e he0
  simpa using this

/-- A numeric argument is either encoded (and then round-trips, above) or rejected with
`ValueError`; it is accepted exactly when the scaled value rounds into the window. -/
theorem C08_accept_or_reject (s : Scalar) (hs : s ≠ .other) (n M : Int) (me : Option Int) :
    (∃ f, encode s n M me = .ok f) ∨ encode s n M me = .error .valueError := by
  unfold encode
  simp only [bind, Except.bind]
  have := chooseExp_ok _ (flush_ne_other s hs) me
  obtain ⟨e, he⟩ := this
  rw [he]
  simp only
  split
  · exact Or.inr rfl
  · exact Or.inl ⟨_, rfl⟩

/-- A float whose scaled value exceeds the window by more than the rounding is rejected. -/
theorem C08_float_rejected (x : Rat) (n M : Int) (me : Option Int) (e : Int)
    (hx : tiny ≤ |x|) (he : chooseExp (.float x) me = .ok e)
    (hbig : (M : Rat) + 1 / 2 < |x| * (16 : Rat) ^ e) :
    encode (.float x) n M me = .error .valueError := by
  rcases C08_accept_or_reject (.float x) (by simp) n M me with ⟨f, hf⟩ | h
  · exfalso
    obtain ⟨e', he', hle, _⟩ := (encode_ok_iff _ _ _ _ _).mp hf
    rw [flush_float x hx] at he' hle
    rw [he] at he'; cases he'
    simp only [Scalar.val] at hle
    have h1 := roundEven_err (x * (16 : Rat) ^ e)
    have hle' : |(roundEven (x * (16 : Rat) ^ e) : Rat)| ≤ M := by exact_mod_cast hle
    have hp : (0 : Rat) < (16 : Rat) ^ e := zpow_pos (by norm_num) _
    have h2 : |x * (16 : Rat) ^ e| = |x| * (16 : Rat) ^ e := by rw [abs_mul, abs_of_pos hp]
    have h3 := abs_sub_abs_le_abs_sub (x * (16 : Rat) ^ e) (roundEven (x * (16 : Rat) ^ e) : Rat)
    rw [abs_sub_comm] at h3
    rw [h2] at h3
    linarith
  · exact h

/-- Values of other types raise `TypeError`. -/
theorem C08_other_type (n M : Int) (me : Option Int) :
    encode .other n M me = .error .typeError := by
  cases me <;> rfl

/-- A float is not always recovered exactly: `2 + 2^-51` (a float with 53 significant
bits) decodes to `2`. -/
theorem C08_float_exact_refuted :
    ∃ f, encodeQ (.float (2 + 1 / 2 ^ 51)) none = .ok f ∧ decode f = .ok (.float 2) :=
  ⟨mkQ (2 * 16 ^ 12) 12, by decide +kernel, by decide +kernel⟩

/-- The hypotheses of `C08_float_relative_error` are met by a concrete negative float. -/
example : ∃ f, encode (.float (-3 / 4)) Q (Q / 3 - 1) (some 20) = .ok f ∧
    decode f = .ok (.float (-3 / 4)) ∧ f.exponent = 20 :=
  ⟨⟨(-3 * 4 ^ 39) % Q, 20, Q, Q / 3 - 1⟩, by decide +kernel, by decide +kernel, rfl⟩

/-- A float too large for the modulus is rejected. -/
example : encodeQ (.float (10 ^ 30)) (some 20) = .error .valueError := by decide +kernel

end Verif
