import Verif.Model.Rsa
import Verif.Lemmas.GmpyMath
import Mathlib.FieldTheory.Finite.Basic
import Mathlib.RingTheory.Int.Basic
import Mathlib.Tactic.NormNum.Prime

/-!
# C13 – RSA decryption inverts encryption
-/

set_option autoImplicit false

namespace Verif
open Gmpy Rsa

namespace Spec
/-- Matching exponents for the modulus `p * q`. -/
def RsaKeys (p q e d : Nat) : Prop :=
  p.Prime ∧ q.Prime ∧ p ≠ q ∧ 1 ≤ e * d ∧ e * d % (p - 1) = 1 % (p - 1) ∧ e * d % (q - 1) = 1 % (q - 1)
end Spec
open Spec

private theorem pow_modEq_self {p : Nat} (hp : p.Prime) (m : Int) (k : Nat) (hk : 1 ≤ k)
    (h : k % (p - 1) = 1 % (p - 1)) : m ^ k ≡ m [ZMOD p] := by
  by_cases hd : (p : Int) ∣ m
  · have h1 : m ≡ 0 [ZMOD p] := Int.modEq_zero_iff_dvd.mpr hd
    have h2 : m ^ k ≡ 0 [ZMOD p] := Int.modEq_zero_iff_dvd.mpr (dvd_pow hd (by omega))
    exact h2.trans h1.symm
  · have hc : IsCoprime m (p : Int) := by
      rw [isCoprime_comm]
      exact (Int.prime_iff_natAbs_prime.mpr (by simpa using hp)).coprime_iff_not_dvd.mpr hd
    have hf := Int.ModEq.pow_card_sub_one_eq_one hp hc
    have hkk : ∃ j, k = (p - 1) * j + 1 := by
      rcases Nat.lt_or_ge 1 (p - 1) with h1 | h1
      · rw [Nat.mod_eq_of_lt h1] at h
        exact ⟨k / (p - 1), by have := Nat.div_add_mod k (p - 1); omega⟩
      · have : p - 1 = 1 := by have := hp.two_le; omega
        exact ⟨k - 1, by rw [this]; omega⟩
    obtain ⟨j, hj⟩ := hkk
    rw [hj, pow_succ, pow_mul]
    simpa using (hf.pow j).mul_right m

/-- **Round trip**: an object that was given the public key, and one that was given the
private key, invert each other on every residue, whatever else they hold. -/
theorem C13_roundtrip (p q e d : Nat) (hk : RsaKeys p q e d) (s t : State)
    (m : Int) (h0 : 0 ≤ m) (hm : m < (p : Int) * q) :
    ∃ c, (s.setPublic e (p * q)).encrypt m = some c ∧
      (t.setPrivate d (p * q)).decrypt c = some m := by
  obtain ⟨hp, hq, hpq, h1, he, hd⟩ := hk
  refine ⟨powmod m e (p * q), rfl, ?_⟩
  have hn : (1 : Int) < (p : Int) * q := by
    have := hp.two_le; have := hq.two_le
    have : 2 * 2 ≤ p * q := Nat.mul_le_mul (by assumption) (by assumption)
    exact_mod_cast (by omega : 1 < p * q)
  show some (powmod (powmod m e (p * q)) d (p * q)) = some m
  congr 1
  have hcong : powmod (powmod m e (p * q)) d (p * q) ≡ m [ZMOD (p : Int) * q] := by
    refine (powmod_modEq _ _ _).trans ?_
    refine ((powmod_modEq m e _).pow d).trans ?_
    rw [← pow_mul]
    apply (Int.modEq_and_modEq_iff_modEq_mul ?_).mp
    · exact ⟨pow_modEq_self hp m _ h1 he, pow_modEq_self hq m _ h1 hd⟩
    · simpa using (Nat.coprime_primes hp hq).mpr hpq
  obtain ⟨r1, r2⟩ := powmod_range (powmod m e (p * q)) d ((p : Int) * q) hn
  unfold Int.ModEq at hcong
  rwa [Int.emod_eq_of_lt r1 r2, Int.emod_eq_of_lt h0 hm] at hcong

example : RsaKeys 11 17 7 23 := ⟨by norm_num, by norm_num, by norm_num, by norm_num, by norm_num, by norm_num⟩
example : ∃ c, (State.init.setPublic 7 187).encrypt 88 = some c ∧
    (State.init.setPrivate 23 187).decrypt c = some 88 := ⟨11, by decide +kernel, by decide +kernel⟩

/-- Without a public key, encryption returns `None`; without a private key, decryption does;
with the key a value is always returned. -/
theorem C13_missing_key (s : State) (v : Int) :
    (s.encrypt v = none ↔ s.e = none ∨ s.n = none) ∧
    (s.decrypt v = none ↔ s.d = none ∨ s.n = none) := by
  obtain ⟨e, d, n⟩ := s
  cases e <;> cases d <;> cases n <;> simp [State.encrypt, State.decrypt]

/-- A public-key holder cannot decrypt: the object stays without a private exponent. -/
theorem C13_public_only (e : Nat) (n v : Int) :
    (State.init.setPublic e n).decrypt v = none := rfl

/-- A new object has no key, so it neither encrypts nor decrypts; with only the private key it does
not encrypt. -/
theorem C13_new (d : Nat) (n v : Int) :
    State.init.encrypt v = none ∧ State.init.decrypt v = none ∧ (State.init.setPrivate d n).encrypt v = none :=
  ⟨rfl, rfl, rfl⟩

end Verif
