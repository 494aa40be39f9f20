import Verif.Model.SplitChoice
import Verif.Spec.C25
import Verif.Props.C10
import Verif.Props.C08

/-! # The Paillier encrypter returns gains up to a small error -/

set_option autoImplicit false

namespace Verif
namespace DTree
open Spec

/-- Every float is encodable if the window holds 53-bit numbers. -/
theorem encode_float_ok (x : Rat) (n M : Int) (hM : 2 ^ 53 ≤ M) :
    ∃ f, FP.encode (.float x) n M none = .ok f := by
  have key : ∃ e, FP.chooseExp (FP.flush (.float x)) none = .ok e ∧
      |FP.roundEven ((FP.flush (.float x)).val * (16 : Rat) ^ e)| ≤ M := by
    by_cases hx : FP.tiny ≤ |x|
    · rw [FP.flush_float x hx]
      refine ⟨_, rfl, ?_⟩
      have hx0 : x ≠ 0 := by
        rintro rfl; rw [abs_zero] at hx; exact absurd FP.tiny_pos (not_lt.mpr hx)
      obtain ⟨_, h2⟩ := FP.frexp_bounds x hx0
      set E := FP.frexpExp x
      set e := (53 - E) / 4 with he
      have h16 : (16 : Rat) ^ e ≤ (2 : Rat) ^ (53 - E) := by
        rw [show (16 : Rat) = (2 : Rat) ^ (4 : Int) by norm_num, ← zpow_mul]
        apply zpow_le_zpow_right₀ (by norm_num)
        omega
      have hp : (0 : Rat) < (16 : Rat) ^ e := zpow_pos (by norm_num) _
      have hprod : |x * (16 : Rat) ^ e| < 2 ^ 53 := by
        rw [abs_mul, abs_of_pos hp]
        calc |x| * (16 : Rat) ^ e < (2 : Rat) ^ E * (16 : Rat) ^ e := by
              exact mul_lt_mul_of_pos_right h2 hp
          _ ≤ (2 : Rat) ^ E * (2 : Rat) ^ (53 - E) := by
              exact mul_le_mul_of_nonneg_left h16 (le_of_lt (zpow_pos (by norm_num) _))
          _ = 2 ^ 53 := by
              rw [← zpow_add₀ (by norm_num), show E + (53 - E) = (53 : Int) by ring]; norm_num
      have herr := FP.roundEven_err (x * (16 : Rat) ^ e)
      have hlt : |(FP.roundEven (x * (16 : Rat) ^ e) : Rat)| < 2 ^ 53 + 1 := by
        have h3 := abs_sub_abs_le_abs_sub (FP.roundEven (x * (16 : Rat) ^ e) : Rat) (x * (16 : Rat) ^ e)
        linarith
      have hlt' : |FP.roundEven (x * (16 : Rat) ^ e)| < 2 ^ 53 + 1 := by exact_mod_cast hlt
      simp only [FP.Scalar.val]
      omega
    · rw [FP.flush_of_tiny (.float x) (by simp) (not_le.mp hx)]
      refine ⟨0, rfl, ?_⟩
      have : (FP.Scalar.int 0).val * (16 : Rat) ^ (0 : Int) = ((0 : Int) : Rat) := by simp [FP.Scalar.val]
      rw [this, FP.roundEven_intCast]
      simp
      omega
  obtain ⟨e, h1, h2⟩ := key
  refine ⟨⟨FP.roundEven ((FP.flush (.float x)).val * (16 : Rat) ^ e) % n, e, n, M⟩, ?_⟩
  rw [FP.encode_ok_iff]
  exact ⟨e, h1, h2, rfl⟩

/-- **Accuracy of the encrypter.** -/
theorem paillier_faithful (p q : Nat) (sk : Paillier.PrivKey) (hk : KeyPair p q sk)
    (hbig : 2 ^ 53 ≤ sk.pk.n / 3 - 1) (draw : Nat × Nat → Int) (hd : ∀ l, Usable sk (draw l))
    (B : Rat) : Faithful (paillierCipher sk draw) (B / 2 ^ 50 + FP.tiny) B := by
  have key : ∀ x, |x| ≤ B → ∃ y, |y - x| ≤ B / 2 ^ 50 + FP.tiny ∧ ∀ label, ∃ c,
      (paillierCipher sk draw).enc label x = .ok c ∧ (paillierCipher sk draw).dec c = .ok y := by
    intro x hx
    have hM : 2 * (sk.pk.n / 3 - 1) < sk.pk.n := by omega
    obtain ⟨f, hf⟩ := encode_float_ok x sk.pk.n (sk.pk.n / 3 - 1) hbig
    have hmi : sk.pk.maxInt = sk.pk.n / 3 - 1 := rfl
    have hB : 0 ≤ B := le_trans (abs_nonneg x) hx
    have hdec : ∀ t, FP.decode f = .ok t → ∀ label, ∃ c,
        (paillierCipher sk draw).enc label x = .ok c ∧
        (paillierCipher sk draw).dec c = .ok (FP.Scalar.val t) := by
      intro t t1 label
      have h := C10_decrypt_encrypt_partial p q sk hk (.float x) none (draw label) (hd label) (by simp)
      rw [hmi, hf] at h
      obtain ⟨X, h1, _, h3⟩ := h
      refine ⟨.enc X, ?_, ?_⟩
      · simp only [paillierCipher]; rw [h1]; rfl
      · simp only [paillierCipher]; rw [h3, t1]; rfl
    by_cases ht : FP.tiny ≤ |x|
    · obtain ⟨t, t1, t2⟩ := C08_float_relative_error x sk.pk.n (sk.pk.n / 3 - 1) hM none f ht hf
      refine ⟨t.val, le_trans t2 ?_, hdec t t1⟩
      have : |x| / 2 ^ 50 ≤ B / 2 ^ 50 := div_le_div_of_nonneg_right hx (by norm_num)
      linarith [FP.tiny_pos]
    · obtain ⟨t, t1, _, t3⟩ := C08_roundtrip (.float x) sk.pk.n (sk.pk.n / 3 - 1) hM none f hf
      refine ⟨t.val, ?_, hdec t t1⟩
      have ht' := not_le.mp ht
      rw [t3 ht', zero_sub, abs_neg]
      have : 0 ≤ B / 2 ^ 50 := by positivity
      linarith
  choose! rd h1 h2 using key
  refine ⟨rd, fun label x hx => ?_⟩
  obtain ⟨c, c1, c2⟩ := h2 x hx label
  exact ⟨c, c1, c2, h1 x hx⟩

end DTree
end Verif
