import Verif.Lemmas.C11
import Mathlib.Tactic.NormNum.Prime

/-!
# C12 – ciphertexts of different keys are never mixed; sums are exact or reported
-/

set_option autoImplicit false

namespace Verif
open Paillier Spec

/-- Adding (or subtracting) encrypted numbers of different keys is an error. -/
theorem C12_add_other_key (X Y : EncNum) (h : X.pk.n ≠ Y.pk.n) :
    Paillier.add X Y = .error .valueError := by
  unfold Paillier.add
  rw [if_pos]
  intro he; exact h (by rw [he])

/-- Subtracting encrypted numbers of different keys is an error (whatever error). -/
theorem C12_sub_other_key (X Y : EncNum) (h : X.pk.n ≠ Y.pk.n) :
    ∃ err, Paillier.sub X Y = .error err := by
  unfold Paillier.sub
  cases hm : mul Y (.int (-1)) with
  | error e => exact ⟨e, rfl⟩
  | ok Z =>
    refine ⟨.valueError, C12_add_other_key X Z ?_⟩
    have : Z.pk = Y.pk := by
      unfold mul at hm
      simp only [bind, Except.bind] at hm
      split at hm
      · cases hm
      · split at hm
        · cases hm
        · split at hm
          · split at hm
            · cases hm
            · cases hm; rfl
          · cases hm; rfl
    rw [this]; exact h

/-- Decrypting with another key's private key is an error. -/
theorem C12_decrypt_other_key (sk : PrivKey) (X : EncNum) (h : sk.pk.n ≠ X.pk.n) :
    decrypt sk X = .error .valueError := by
  unfold decrypt
  rw [if_pos]
  intro he; exact h (by rw [he])

example : decrypt ⟨⟨35⟩, 5, 7, 3, 2, 4⟩ ⟨⟨77⟩, 1, 0, true⟩ = .error .valueError :=
  C12_decrypt_other_key _ _ (by norm_num)

/-- **Two-term sums are never silently wrong** (partial: the operands must be representable
at the larger exponent, which is automatic when both carry the same exponent): the sum of
two encryptions decrypts to the exact sum, or decryption reports overflow. -/
theorem C12_two_sum_partial (p q : Nat) (sk : PrivKey) (hk : KeyPair p q sk)
    (s1 s2 : FP.Scalar) (rv1 rv2 : Option Int) (d1 d2 : Int)
    (hu1 : (Expr.enc s1 rv1 d1).Usable sk.pk.n) (hu2 : (Expr.enc s2 rv2 d2).Usable sk.pk.n)
    (a b : Rat) (ea eb : Int)
    (ha : encoded sk.pk.n s1 none = some (a, ea)) (hb : encoded sk.pk.n s2 none = some (b, eb))
    (hal : canAlign sk.pk.n ea eb = true)
    (hfa : |a| * (16 : Rat) ^ (max ea eb) ≤ ((sk.pk.n / 3 - 1 : Int) : Rat))
    (hfb : |b| * (16 : Rat) ^ (max ea eb) ≤ ((sk.pk.n / 3 - 1 : Int) : Rat)) :
    ∃ X Y Z, encrypt sk.pk s1 rv1 d1 = .ok X ∧ encrypt sk.pk s2 rv2 d2 = .ok Y ∧
      Paillier.add X Y = .ok Z ∧
      ((∃ t, decrypt sk Z = .ok t ∧ t.val = a + b) ∨ decrypt sk Z = .error .overflow) := by
  obtain ⟨_, h6, p', q', hg⟩ := aux10_good hk
  have hs1 := aux11_sim sk.pk h6 (.enc s1 rv1 d1) hu1
  have hs2 := aux11_sim sk.pk h6 (.enc s2 rv2 d2) hu2
  unfold Expr.run Expr.plain at hs1 hs2
  rw [ha] at hs1
  rw [hb] at hs2
  cases h1 : encrypt sk.pk s1 rv1 d1 with
  | error e => rw [h1] at hs1; exact hs1.elim
  | ok X =>
  cases h2 : encrypt sk.pk s2 rv2 d2 with
  | error e => rw [h2] at hs2; exact hs2.elim
  | ok Y =>
  rw [h1] at hs1
  rw [h2] at hs2
  obtain ⟨rfl, hX⟩ := hs1
  obtain ⟨rfl, hY⟩ := hs2
  have hs := aux11_add sk.pk (by omega) X Y a b hX hY
  unfold plainAdd at hs
  rw [if_pos hal] at hs
  cases h3 : Paillier.add X Y with
  | error e => rw [h3] at hs; exact hs.elim
  | ok Z =>
  rw [h3] at hs
  obtain ⟨hexp, hpk, m, hm, hv⟩ := hs
  refine ⟨X, Y, Z, rfl, rfl, h3, ?_⟩
  have hmv : |(m : Rat)| = |a + b| * (16 : Rat) ^ (max X.exponent Y.exponent) := by
    have hp : (0 : Rat) < (16 : Rat) ^ (-Z.exponent) := zpow_pos (by norm_num) _
    rw [hv, abs_mul, abs_of_pos hp, mul_assoc, ← hexp, ← zpow_add₀ (by norm_num)]
    simp
  have hp2 : (0 : Rat) < (16 : Rat) ^ (max X.exponent Y.exponent) := zpow_pos (by norm_num) _
  have hm2 : |m| ≤ 2 * (sk.pk.n / 3 - 1) := by
    have : |(m : Rat)| ≤ 2 * ((sk.pk.n / 3 - 1 : Int) : Rat) := by
      rw [hmv]
      have := mul_le_mul_of_nonneg_right (abs_add_le a b) hp2.le
      linarith
    exact_mod_cast this
  rcases le_or_gt |m| (sk.pk.n / 3 - 1) with hle | hgt
  · left
    exact ⟨_, decrypt_isEnc hg Z hpk (by rw [hpk]; exact hm) (by rw [hpk]; exact hle),
      by rw [FP.scale_val, hv]⟩
  · right
    exact decrypt_overflow hg Z hpk (by rw [hpk]; exact hm) (by rw [hpk]; exact hgt)
      (by rw [hpk]; exact hm2)

/-- Key `5 * 7` (largest plaintext 10): `9 + 8` is reported as overflow, `9 + (-8)` is 1. -/
example : ∃ sk X Y Z Y' Z', KeyPair 5 7 sk ∧ encrypt sk.pk (.int 9) none 2 = .ok X ∧
    encrypt sk.pk (.int 8) none 3 = .ok Y ∧ Paillier.add X Y = .ok Z ∧
    decrypt sk Z = .error .overflow ∧
    encrypt sk.pk (.int (-8)) none 3 = .ok Y' ∧ Paillier.add X Y' = .ok Z' ∧
    decrypt sk Z' = .ok (.int 1) := by
  refine ⟨⟨⟨35⟩, 5, 7, 3, 2, 4⟩, ⟨⟨35⟩, ((35 * 9 + 1) * 2 ^ 35) % 1225, 0, true⟩,
    ⟨⟨35⟩, ((35 * 8 + 1) * 3 ^ 35) % 1225, 0, true⟩,
    ⟨⟨35⟩, ((35 * 17 + 1) * 6 ^ 35) % 1225, 0, false⟩,
    ⟨⟨35⟩, ((35 * 27 + 1) * 3 ^ 35) % 1225, 0, true⟩,
    ⟨⟨35⟩, ((35 * 1 + 1) * 6 ^ 35) % 1225, 0, false⟩,
    ⟨by norm_num, by norm_num, by norm_num, ?_⟩, ?_, ?_, ?_, ?_, ?_, ?_, ?_⟩ <;> decide +kernel

/-- The representability hypothesis is needed: under *every* sufficiently large key there is
an in-range integer `a ≥ 2` such that `Enc(a) + Enc(0.5)` decrypts, without any error, to a
number below 2 (raising the exponent of `Enc(a)` wraps around). -/
theorem C12_mixed_exponents_refuted (p q : Nat) (sk : PrivKey) (hk : KeyPair p q sk)
    (hbig : (16 : Int) ^ 15 ≤ sk.pk.n) :
    ∃ (a : Int) (X Y Z : EncNum) (t : FP.Scalar), 2 ≤ a ∧
      encrypt sk.pk (.int a) none 1 = .ok X ∧ decrypt sk X = .ok (.int a) ∧
      encrypt sk.pk (.float (1 / 2)) none 1 = .ok Y ∧ decrypt sk Y = .ok (.float (1 / 2)) ∧
      Paillier.add X Y = .ok Z ∧ decrypt sk Z = .ok t ∧ t.val < 2 := by
  obtain ⟨_, h6, p', q', hg⟩ := aux10_good hk
  obtain ⟨n, hn⟩ : ∃ n, n = sk.pk.n := ⟨_, rfl⟩
  have hmax : sk.pk.maxInt = n / 3 - 1 := by rw [hn]; rfl
  have h15 : (16 : Int) ^ 15 = 16 ^ 13 * 256 := by norm_num
  rw [← hn] at hbig h6
  obtain ⟨B, hB⟩ : ∃ B : Int, B = 16 ^ 13 := ⟨_, rfl⟩
  have hBval : B = 4503599627370496 := by rw [hB]; norm_num
  rw [h15, ← hB] at hbig
  -- a = n / 16^13 + 1
  obtain ⟨a, ha⟩ : ∃ a : Int, a = n / B + 1 := ⟨_, rfl⟩
  have hdiv := Int.mul_ediv_add_emod n B
  have hm0 := Int.emod_nonneg n (show B ≠ 0 by omega)
  have hm1 := Int.emod_lt_of_pos n (show 0 < B by omega)
  obtain ⟨Q0, hQ0⟩ : ∃ Q0, Q0 = n / B := ⟨_, rfl⟩
  rw [← hQ0] at ha hdiv
  have hQ256 : 256 ≤ Q0 := by
    rw [hQ0]; exact (Int.le_ediv_iff_mul_le (by omega)).mpr (by linarith)
  have haM : |a| ≤ sk.pk.maxInt := by
    rw [abs_of_pos (by omega), hmax]
    have : 16 * Q0 ≤ B * Q0 := by
      apply mul_le_mul_of_nonneg_right (by omega) (by omega)
    omega
  have hfa := encode_int_ok a sk.pk.n sk.pk.maxInt haM
  have hchoose : FP.chooseExp (.float (1 / 2)) none = .ok 13 := by decide +kernel
  have hfl : FP.flush (.float (1 / 2)) = .float (1 / 2) := by decide +kernel
  have hround : FP.roundEven ((1 / 2 : Rat) * (16 : Rat) ^ (13 : Int)) = 2251799813685248 := by
    decide +kernel
  have hfb : FP.encode (.float (1 / 2)) sk.pk.n sk.pk.maxInt none
      = .ok ⟨2251799813685248 % sk.pk.n, 13, sk.pk.n, sk.pk.maxInt⟩ := by
    rw [FP.encode_ok_iff]
    refine ⟨13, by rw [hfl, hchoose], ?_, ?_⟩
    · rw [hfl]; simp only [FP.Scalar.val]; rw [hround, hmax, abs_of_pos (by norm_num)]
      omega
    · rw [hfl]; simp only [FP.Scalar.val]; rw [hround]
  obtain ⟨X, hX, hXpk, hXe, i, hi, hXenc⟩ := encrypt_isEnc sk.pk (by omega) (.int a) none 1
    isCoprime_one_left (by simp) hfa
  rw [FP.mantissa_mod a _ sk.pk.maxInt 0 (by rw [hmax, ← hn]; omega) haM] at hi
  cases hi
  obtain ⟨Y, hY, hYpk, hYe, j, hj, hYenc⟩ := encrypt_isEnc sk.pk (by omega) (.float (1 / 2)) none 1
    isCoprime_one_left (by simp) hfb
  have hjM : |(2251799813685248 : Int)| ≤ sk.pk.maxInt := by
    rw [hmax, abs_of_pos (by norm_num)]; omega
  rw [FP.mantissa_mod 2251799813685248 _ sk.pk.maxInt 13 (by rw [hmax, ← hn]; omega) hjM] at hj
  cases hj
  simp only at hXe hYe
  have hgap : GapOk X.pk.n X.exponent Y.exponent := by
    right
    rw [hXe, hYe, hXpk, ← hn]
    have : (16 : Int) ^ (max (0 : Int) 13 - min 0 13).toNat = B := by rw [hB]; rfl
    rw [this]; omega
  obtain ⟨Z, hZ, hZpk, hZe, hZenc⟩ := add_isEnc X Y (by rw [hXpk, hYpk]) (by rw [hXpk]; omega)
    (by rw [hXpk]; exact hXenc) (by rw [hYpk]; exact hYenc) hgap
  have e1 : (max X.exponent Y.exponent - X.exponent).toNat = 13 := by rw [hXe, hYe]; rfl
  have e2 : (max X.exponent Y.exponent - Y.exponent).toNat = 0 := by rw [hXe, hYe]; rfl
  rw [e1, e2, ← hB, hXpk] at hZenc
  have hZ13 : Z.exponent = 13 := by rw [hZe, hXe, hYe]; rfl
  -- the wrapped mantissa
  obtain ⟨w, hw⟩ : ∃ w : Int, w = B - n % B + 2251799813685248 := ⟨_, rfl⟩
  have hcongr : a * B + 2251799813685248 * 16 ^ 0 ≡ w [ZMOD sk.pk.n] := by
    rw [← hn]
    refine Int.modEq_iff_dvd.mpr ⟨-1, ?_⟩
    rw [hw, ha]
    linarith
  have hZenc' := hZenc.congr hcongr
  refine ⟨a, X, Y, Z, _, by omega, hX, ?_, hY, ?_, hZ,
    decrypt_isEnc hg Z (by rw [hZpk, hXpk]) (m := w) (by rw [hZpk, hXpk]; exact hZenc')
      (by rw [hZpk, hXpk, hmax, abs_of_pos (by omega)]; omega), ?_⟩
  · rw [decrypt_isEnc hg X hXpk (by rw [hXpk]; exact hXenc) (by rw [hXpk]; exact haM), hXe]
    simp [FP.scale]
  · rw [decrypt_isEnc hg Y hYpk (by rw [hYpk]; exact hYenc) (by rw [hYpk]; exact hjM), hYe]
    decide +kernel
  · rw [FP.scale_val, hZ13]
    have hwlt : w < 2 * 4503599627370496 := by omega
    have hwq : (w : Rat) < 2 * 4503599627370496 := by exact_mod_cast hwlt
    have : (16 : Rat) ^ (-13 : Int) = 1 / 4503599627370496 := by norm_num
    rw [this]
    linarith

/-- Sums of *three* in-range numbers can wrap around silently, under every key with
`n ≥ 18`: three times the largest plaintext decrypts to a negative number. -/
theorem C12_three_sum_refuted (p q : Nat) (sk : PrivKey) (hk : KeyPair p q sk)
    (hbig : 18 ≤ sk.pk.n) :
    ∃ X Y Z t, encrypt sk.pk (.int sk.pk.maxInt) none 1 = .ok X ∧
      Paillier.add X X = .ok Y ∧ Paillier.add Y X = .ok Z ∧ decrypt sk Z = .ok (.int t) ∧
      t < 0 := by
  obtain ⟨_, h6, p', q', hg⟩ := aux10_good hk
  obtain ⟨M, hM⟩ : ∃ M, M = sk.pk.maxInt := ⟨_, rfl⟩
  have hMv : M = sk.pk.n / 3 - 1 := hM
  have haM : |M| ≤ sk.pk.maxInt := by rw [abs_of_pos (by omega), hM]
  rw [← hM]
  have hfa := encode_int_ok M sk.pk.n sk.pk.maxInt haM
  obtain ⟨X, hX, hXpk, hXe, i, hi, hXenc⟩ := encrypt_isEnc sk.pk (by omega) (.int M) none 1
    isCoprime_one_left (by simp) hfa
  rw [FP.mantissa_mod M _ sk.pk.maxInt 0 (by rw [← hM]; omega) haM] at hi
  cases hi
  simp only at hXe
  have hXenc' : IsEnc X.pk.n M X.cipher := by rw [hXpk]; exact hXenc
  obtain ⟨Y, hY, hYpk, hYe, hYenc⟩ := add_isEnc X X rfl (by rw [hXpk]; omega) hXenc' hXenc'
    (Or.inl rfl)
  simp only [max_self, sub_self, Int.toNat_zero, pow_zero, mul_one] at hYe hYenc
  obtain ⟨Z, hZ, hZpk, hZe, hZenc⟩ := add_isEnc Y X hYpk (by rw [hYpk, hXpk]; omega)
    (by rw [hYpk]; exact hYenc) hXenc' (Or.inl hYe)
  rw [hYe] at hZe hZenc
  simp only [max_self, sub_self, Int.toNat_zero, pow_zero, mul_one] at hZe hZenc
  have hpk : Z.pk = sk.pk := by rw [hZpk, hYpk, hXpk]
  have hc : M + M + M ≡ M + M + M - sk.pk.n [ZMOD sk.pk.n] :=
    Int.modEq_iff_dvd.mpr ⟨-1, by ring⟩
  have hz : IsEnc Z.pk.n (M + M + M - sk.pk.n) Z.cipher := by
    rw [hZpk, hYpk, hXpk]
    rw [hYpk, hXpk] at hZenc
    exact hZenc.congr hc
  refine ⟨X, Y, Z, M + M + M - sk.pk.n, hX, hY, hZ, ?_, ?_⟩
  · rw [decrypt_isEnc hg Z hpk hz]
    · rw [hZe, hXe]; simp [FP.scale]
    · rw [hpk, ← hM, abs_of_neg (by omega)]; omega
  · omega

end Verif
