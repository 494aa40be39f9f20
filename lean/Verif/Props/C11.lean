import Verif.Lemmas.C11
import Mathlib.Tactic.NormNum.Prime

/-!
# C11 – arithmetic on ciphertexts is arithmetic on plaintexts

Expression trees over the public operations (`Expr`), evaluated once on ciphertexts with
the modelled library (`Expr.run`) and once in exact rational arithmetic (`Expr.plain`).
The plain evaluation uses the library only to fix what number a *scalar* is encoded to
(`encoded`: the value `FixedPointNumber.encode(s, …).decode()`, see C08) and the exponent
attribute the result carries.
-/

set_option autoImplicit false

namespace Verif
open Paillier Spec

/-- **Homomorphism.**  For every key, every expression tree and all usable randomness: the
library evaluates the tree exactly when the exact evaluation is defined, the result
carries the same exponent, and if the exact value is within the plaintext range it
decrypts to exactly that value. -/
theorem C11_homomorphic_partial (p q : Nat) (sk : PrivKey) (hk : KeyPair p q sk) (e : Expr)
    (hu : e.Usable sk.pk.n) :
    match e.plain sk.pk.n with
    | none => ∃ err, e.run sk.pk = .error err
    | some (v, ex) => ∃ X, e.run sk.pk = .ok X ∧ X.exponent = ex ∧
        (|v| * (16 : Rat) ^ ex ≤ ((sk.pk.n / 3 - 1 : Int) : Rat) →
          ∃ t, decrypt sk X = .ok t ∧ t.val = v) := by
  obtain ⟨_, h6, p', q', hg⟩ := aux10_good hk
  have := aux11_sim sk.pk h6 e hu
  cases hp : e.plain sk.pk.n with
  | none =>
    rw [hp] at this
    cases hr : e.run sk.pk with
    | error err => exact ⟨err, rfl⟩
    | ok X => rw [hr] at this; exact this.elim
  | some w =>
    obtain ⟨v, ex⟩ := w
    rw [hp] at this
    cases hr : e.run sk.pk with
    | error err => rw [hr] at this; exact this.elim
    | ok X =>
      rw [hr] at this
      obtain ⟨rfl, hpk, m, hm, hv⟩ := this
      refine ⟨X, rfl, rfl, ?_⟩
      intro hfit
      have hmle : |m| ≤ sk.pk.n / 3 - 1 := by
        have hp : (0 : Rat) < (16 : Rat) ^ (-X.exponent) := zpow_pos (by norm_num) _
        rw [hv, abs_mul, abs_of_pos hp, mul_assoc, ← zpow_add₀ (by norm_num)] at hfit
        simp only [neg_add_cancel, zpow_zero, mul_one] at hfit
        exact_mod_cast hfit
      refine ⟨_, decrypt_isEnc hg X hpk (by rw [hpk]; exact hm) (by rw [hpk]; exact hmle), ?_⟩
      rw [FP.scale_val, hv]

/-- For integer scalars the encoded value is the scalar itself, so on trees of integers the
plain evaluation is ordinary integer arithmetic. -/
theorem C11_encoded_int (n z : Int) (hn : 0 < n) (hz : |z| ≤ n / 3 - 1) :
    encoded n (.int z) none = some ((z : Rat), 0) := by
  have hf := encode_int_ok z n (n / 3 - 1) hz
  rw [aux11_encoded_some hf (FP.mantissa_mod z _ _ 0 (window n hn) hz)]
  simp

/-- A concrete tree: `(2 - Enc(3)) * (-2) + Enc(1)` under the key `5 * 7`. -/
example : ∃ sk X, KeyPair 5 7 sk ∧
    (Expr.add (.mulScalar (.rsubScalar (.int 2) (.enc (.int 3) none 4)) (.int (-2)))
      (.enc (.int 1) (some 2) 1)).run sk.pk = .ok X ∧
    decrypt sk X = .ok (.int 3) ∧
    (Expr.add (.mulScalar (.rsubScalar (.int 2) (.enc (.int 3) none 4)) (.int (-2)))
      (.enc (.int 1) (some 2) 1)).plain sk.pk.n = some (3, 0) := by
  refine ⟨⟨⟨35⟩, 5, 7, 3, 2, 4⟩, ⟨⟨35⟩, 583, 0, false⟩,
    ⟨by norm_num, by norm_num, by norm_num, ?_⟩, ?_, ?_, ?_⟩ <;> decide +kernel

/-- **Exponents too far apart**: if the factor that aligns two encrypted numbers cannot itself be
encoded, their sum is an error, whatever the numbers are. -/
theorem C11_gap (X Y : EncNum) (hk : X.pk = Y.pk)
    (h : X.pk.n / 3 - 1 < 16 ^ (max X.exponent Y.exponent - min X.exponent Y.exponent).toNat)
    (hne : X.exponent ≠ Y.exponent) : add X Y = .error .valueError := by
  have key : ∀ (Z : EncNum) (e : Int), Z.exponent < e → Z.pk.n / 3 - 1 < 16 ^ (e - Z.exponent).toNat →
      increaseExponentTo Z e = .error .valueError := by
    intro Z e hlt hbig
    unfold increaseExponentTo mul
    rw [if_neg (by omega), encode_int_error _ _ _ (by
      show Z.pk.n / 3 - 1 < |(16 : Int) ^ (e - Z.exponent).toNat|
      rwa [abs_of_pos (by positivity)])]
    rfl
  unfold add
  rw [if_neg (by simp [hk])]
  unfold align
  rcases lt_or_gt_of_ne hne with hlt | hlt
  · rw [if_pos hlt, key X _ hlt (by rwa [max_eq_right hlt.le, min_eq_left hlt.le] at h)]
    rfl
  · rw [if_neg (by omega), if_pos hlt, key Y _ hlt (by
      rw [max_eq_left hlt.le, min_eq_right hlt.le, hk] at h; exact h)]
    rfl

/-- **A random number that shares a factor with the modulus spoils a sum.**  The library draws from
all numbers below the modulus. -/
theorem C11_draw_refuted : ∃ sk X, KeyPair 5 7 sk ∧
    (Expr.add (.enc (.int 1) none 5) (.enc (.int 4) none 4)).run sk.pk = .ok X ∧
    decrypt sk X = .ok (.int (-2)) := by
  refine ⟨⟨⟨35⟩, 5, 7, 3, 2, 4⟩, ⟨⟨35⟩, 36 * 5 ^ 35 % 1225 * (141 * 4 ^ 35 % 1225) % 1225, 0, false⟩,
    ⟨by norm_num, by norm_num, by norm_num, ?_⟩, ?_, ?_⟩ <;> decide +kernel

end Verif
