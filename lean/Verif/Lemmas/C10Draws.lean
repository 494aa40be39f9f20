import Verif.Lemmas.C10
import Verif.Props.C08
import Mathlib.Data.Nat.Totient

/-!
# Which random draws make an encryption undecryptable
-/

set_option autoImplicit false

namespace Verif
namespace Draws
open Paillier Spec Gmpy

/-- The two halves of the decryption. -/
theorem raw_halves {sk : PrivKey} {p q : Nat} (hg : Good sk p q) (c : Int) :
    rawDecrypt sk c ≡ lFunc (powmod c (p - 1) ((p : Int) * p)) p * sk.hp [ZMOD p] ∧
    rawDecrypt sk c ≡ lFunc (powmod c (q - 1) ((q : Int) * q)) q * sk.hq [ZMOD q] := by
  have hp0 : (0 : Int) < p := by exact_mod_cast hg.hp.pos
  have hq0 : (0 : Int) < q := by exact_mod_cast hg.hq.pos
  unfold rawDecrypt crt
  rw [hg.ep, hg.eq]
  rw [show ((p : Int) - 1).toNat = p - 1 by omega, show ((q : Int) - 1).toNat = q - 1 by omega]
  simp only
  generalize lFunc (powmod c (p - 1) ((p : Int) * p)) p * sk.hp = a
  generalize lFunc (powmod c (q - 1) ((q : Int) * q)) q * sk.hq = b
  have hmod : ∀ z : Int, z % sk.pk.n ≡ z [ZMOD (p : Int) * q] := fun z => by
    rw [hg.en]; exact Int.mod_modEq _ _
  constructor
  · refine ((hmod _).of_dvd (Dvd.intro _ rfl)).trans ?_
    have a1 : (a % p - b % q) * sk.qInverse % p * q ≡ (a % p - b % q) * sk.qInverse * q [ZMOD p] :=
      (Int.mod_modEq _ _).mul_right _
    have a2 : (a % p - b % q) * sk.qInverse * q ≡ (a % p - b % q) * 1 [ZMOD p] := by
      rw [mul_assoc]
      apply Int.ModEq.mul_left
      have := hg.einv
      rw [hg.eq] at this
      rwa [mul_comm]
    have a3 := (a1.trans a2).add_left (b % q)
    rw [show b % q + (a % p - b % q) * 1 = a % p by ring] at a3
    exact a3.trans (Int.mod_modEq _ _)
  · refine ((hmod _).of_dvd (Dvd.intro_left _ rfl)).trans ?_
    refine Int.ModEq.trans ?_ (Int.mod_modEq b q)
    exact Int.modEq_iff_dvd.mpr ⟨-((a % p - b % q) * sk.qInverse % p), by ring⟩

/-- Every power of a ciphertext randomised with a multiple of `p` is zero modulo `p²`. -/
theorem killed {p : Nat} (hp : p.Prime) {n c r : Int} (hn : (p : Int) ∣ n) (hn2 : 2 ≤ n)
    (hr : (p : Int) ∣ r) :
    powmod (c * powmod r n.toNat (n * n) % (n * n)) (p - 1) ((p : Int) * p) = 0 := by
  have hp1 : (1 : Int) < p := by exact_mod_cast hp.one_lt
  have hpp : (1 : Int) < (p : Int) * p := by nlinarith
  have hdvd : ((p : Int) * p) ∣ n * n := mul_dvd_mul hn hn
  have h2 : ((p : Int) * p) ∣ r ^ n.toNat := by
    have : r ^ n.toNat = r * r * r ^ (n.toNat - 2) := by
      rw [← pow_two, ← pow_add]; congr 1; omega
    rw [this]
    exact Dvd.dvd.mul_right (mul_dvd_mul hr hr) _
  have h1 : c * powmod r n.toNat (n * n) % (n * n) ≡ c * r ^ n.toNat [ZMOD (p : Int) * p] :=
    ((Int.mod_modEq _ _).trans ((powmod_modEq _ _ _).mul_left c)).of_dvd hdvd
  have h0 : c * powmod r n.toNat (n * n) % (n * n) ≡ 0 [ZMOD (p : Int) * p] :=
    h1.trans (Int.modEq_zero_iff_dvd.mpr (Dvd.dvd.mul_left h2 _))
  have h3 := (powmod_modEq (c * powmod r n.toNat (n * n) % (n * n)) (p - 1) ((p : Int) * p)).trans
    (h0.pow (p - 1))
  rw [zero_pow (by have := hp.two_le; omega)] at h3
  obtain ⟨g1, g2⟩ := powmod_range (c * powmod r n.toNat (n * n) % (n * n)) (p - 1)
    ((p : Int) * p) hpp
  unfold Int.ModEq at h3
  rwa [Int.emod_eq_of_lt g1 g2, Int.zero_emod] at h3

/-- A draw that is a multiple of one prime makes the decryptions of all ciphertexts agree
modulo that prime. -/
theorem raw_lost {sk : PrivKey} {p q : Nat} (hg : Good sk p q) (h2 : 2 ≤ sk.pk.n)
    (c c' r : Int) {s : Nat} (hs : s = p ∨ s = q) (hr : (s : Int) ∣ r) :
    rawDecrypt sk (applyObfuscator sk.pk c none r) ≡
      rawDecrypt sk (applyObfuscator sk.pk c' none r) [ZMOD s] := by
  obtain ⟨h1, h1'⟩ := raw_halves hg (applyObfuscator sk.pk c none r)
  obtain ⟨k1, k1'⟩ := raw_halves hg (applyObfuscator sk.pk c' none r)
  rcases hs with rfl | rfl
  · refine h1.trans (Int.ModEq.trans ?_ k1.symm)
    unfold applyObfuscator PubKey.nsquare
    simp only
    have hd : (s : Int) ∣ sk.pk.n := by rw [hg.en]; exact Dvd.intro _ rfl
    rw [killed hg.hp hd h2 hr, killed hg.hp hd h2 hr]
  · refine h1'.trans (Int.ModEq.trans ?_ k1'.symm)
    unfold applyObfuscator PubKey.nsquare
    simp only
    have hd : (s : Int) ∣ sk.pk.n := by rw [hg.en]; exact Dvd.intro_left _ rfl
    rw [killed hg.hq hd h2 hr, killed hg.hq hd h2 hr]

/-- What a decoded integer says about the encoding. -/
theorem decode_int {x : FP.Num} (he : x.exponent = 0) {z : Int}
    (h : FP.decode x = .ok (.int z)) : x.encoding ≡ z [ZMOD x.n] := by
  unfold FP.decode at h
  simp only [bind, Except.bind] at h
  cases hm : FP.mantissa x with
  | error e => rw [hm] at h; simp at h
  | ok m =>
    rw [hm] at h
    simp only [FP.scale, he, le_refl, if_true, Except.ok.injEq, FP.Scalar.int.injEq, neg_zero,
      Int.toNat_zero, pow_zero, mul_one] at h
    subst h
    unfold FP.mantissa at hm
    split_ifs at hm
    · cases hm; rfl
    · cases hm; exact Int.modEq_iff_dvd.mpr ⟨-1, by ring⟩

/-- The encrypted number made of an integer and a draw. -/
theorem encrypt_shape {k : PubKey} {z r : Int} {X : EncNum}
    (h : encrypt k (.int z) none r = .ok X) :
    X.pk = k ∧ X.exponent = 0 ∧ ∃ c, X.cipher = applyObfuscator k c none r := by
  unfold encrypt at h
  simp only [bind, Except.bind] at h
  cases hf : FP.encode (.int z) k.n k.maxInt none with
  | error e => rw [hf] at h; simp at h
  | ok f =>
    rw [hf] at h
    simp only at h
    cases hc : rawEncrypt k f.encoding (some 1) r with
    | error e => rw [hc] at h; simp at h
    | ok c =>
      rw [hc] at h
      simp only [Except.ok.injEq] at h
      subst h
      refine ⟨rfl, ?_, c, rfl⟩
      simp only [EncNum.obfuscate]
      obtain ⟨e, he, _, hf'⟩ := (FP.encode_ok_iff ..).mp hf
      subst hf'
      rw [FP.flush_int] at he
      cases he
      rfl

/-- Coprimality with a product of two primes. -/
theorem not_usable {sk : PrivKey} {p q : Nat} (hg : Good sk p q) {r : Int}
    (h : ¬ Usable sk r) : ∃ s : Nat, (s = p ∨ s = q) ∧ s.Prime ∧ (s : Int) ∣ r := by
  by_contra hno
  push Not at hno
  apply h
  unfold Usable
  rw [hg.en]
  have hcop : ∀ s : Nat, s.Prime → ¬ (s : Int) ∣ r → IsCoprime r (s : Int) := fun s hs hd =>
    ((Nat.prime_iff_prime_int.mp hs).coprime_iff_not_dvd.mpr hd).symm
  exact (hcop p hg.hp (hno p (.inl rfl) hg.hp)).mul_right
    (hcop q hg.hq (hno q (.inr rfl) hg.hq))

end Draws
end Verif
