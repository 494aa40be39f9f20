import Verif.Lemmas.C10Draws
import Mathlib.Tactic.NormNum.Prime

/-!
# C10 – Paillier decryption inverts encryption

`KeyPair p q sk`: `sk` is the private key the constructor returns for the primes `p`, `q`.
-/

set_option autoImplicit false

namespace Verif
open Paillier Spec

/-- The key constructor succeeds for every pair of distinct primes, in either order. -/
theorem C10_key_constructed (p q : Nat) (hp : p.Prime) (hq : q.Prime) (hpq : p ≠ q) :
    ∃ sk, KeyPair p q sk ∧ sk.pk.n = p * q := by
  obtain ⟨sk, h1, h2, _⟩ := new_ok hp hq hpq
  exact ⟨sk, ⟨hp, hq, hpq, h1⟩, h2⟩

/-- It rejects equal primes and mismatched moduli. -/
theorem C10_key_rejected (n p q : Int) (h : p * q ≠ n ∨ p = q) :
    PrivKey.new ⟨n⟩ p q = .error .valueError := by
  unfold PrivKey.new
  by_cases h1 : p * q = n
  · rw [if_neg (by simpa using h1), if_pos (h.resolve_left (by simpa using h1))]
  · rw [if_pos h1]

/-- **Raw round trip**: every residue, every usable random value. -/
theorem C10_raw_roundtrip_partial (p q : Nat) (sk : PrivKey) (hk : KeyPair p q sk)
    (m r : Int) (hm0 : 0 ≤ m) (hmn : m < sk.pk.n) (hr0 : r ≠ 0) (hr : Usable sk r) :
    ∃ c, rawEncrypt sk.pk m (some r) 1 = .ok c ∧ rawDecrypt sk c = m := by
  obtain ⟨_, h6, p', q', hg⟩ := aux10_good hk
  obtain ⟨c, hc, henc⟩ := rawEncrypt_isEnc sk.pk (by omega) m (some r) 1
    (by simp only; rw [if_neg hr0]; exact hr)
  exact ⟨c, hc, by rw [rawDecrypt_isEnc hg henc]; exact Int.emod_eq_of_lt hm0 hmn⟩

/-- **`decrypt(encrypt(v))` is the encoded number**: encryption succeeds exactly when the
fixed-point encoder accepts the value, and decryption then returns what decoding the
encoding returns (see C08 for how close that is to `v`); the random value is either drawn
or supplied by the caller. -/
theorem C10_decrypt_encrypt_partial (p q : Nat) (sk : PrivKey) (hk : KeyPair p q sk)
    (v : FP.Scalar) (rv : Option Int) (draw : Int) (hd : Usable sk draw)
    (hrv : ∀ r, rv = some r → r ≠ 0 → Usable sk r) :
    match FP.encode v sk.pk.n sk.pk.maxInt none with
    | .ok f => ∃ X, encrypt sk.pk v rv draw = .ok X ∧ X.exponent = f.exponent ∧
        decrypt sk X = FP.decode f
    | .error e => encrypt sk.pk v rv draw = .error e := by
  obtain ⟨_, h6, p', q', hg⟩ := aux10_good hk
  cases hf : FP.encode v sk.pk.n sk.pk.maxInt none with
  | error e => simp only; unfold encrypt; rw [hf]; rfl
  | ok f =>
    simp only
    obtain ⟨X, hX, hpk, hexp, i, hi, henc⟩ :=
      encrypt_isEnc sk.pk (by omega) v rv draw hd hrv hf
    refine ⟨X, hX, hexp, ?_⟩
    obtain ⟨e, i', _, _, hle, hfe, _, _, _, hm, hd'⟩ :=
      FP.encode_decode v sk.pk.n sk.pk.maxInt (window _ (by omega)) none f hf
    rw [hi] at hm; cases hm
    rw [hd', ← hfe, ← hexp]
    exact decrypt_isEnc hg X hpk (by rw [hpk]; exact henc) (by rw [hpk]; exact hle)

/-- Re-randomising an encrypted number any number of times, with any usable random values,
never changes what is decrypted – whatever the ciphertext is. -/
theorem C10_obfuscate_partial (p q : Nat) (sk : PrivKey) (hk : KeyPair p q sk) (X : EncNum)
    (draws : List Int) (hd : ∀ r ∈ draws, IsCoprime r X.pk.n) :
    decrypt sk (draws.foldl EncNum.obfuscate X) = decrypt sk X := by
  obtain ⟨_, h6, p', q', hg⟩ := aux10_good hk
  induction draws generalizing X with
  | nil => rfl
  | cons r rs ih =>
    rw [List.foldl_cons, ih (X.obfuscate r) (fun r' h => hd r' (by simp [h]))]
    unfold decrypt
    by_cases hpk : sk.pk = X.pk
    · rw [if_neg (by simp [hpk, EncNum.obfuscate]), if_neg (by simp [hpk])]
      simp only [EncNum.ciphertext, Bool.false_and, Bool.false_eq_true, if_false]
      have hdraw : IsCoprime r sk.pk.n := by rw [hpk]; exact hd r (by simp)
      have : rawDecrypt sk (X.obfuscate r).cipher = rawDecrypt sk X.cipher := by
        unfold EncNum.obfuscate
        simp only
        rw [← hpk]
        exact rawDecrypt_obfuscate hg X.cipher r hdraw
      rw [this]
      rfl
    · rw [if_pos (by simpa [EncNum.obfuscate] using hpk), if_pos hpk]

/-- A random value sharing a factor with the modulus may be drawn (the code draws from
`[1, n)` without a check) and then decryption is wrong: key `5 * 7`, plaintext 4, draw 5. -/
theorem C10_all_draws_refuted :
    ∃ sk X, KeyPair 5 7 sk ∧ encrypt sk.pk (.int 4) none 5 = .ok X ∧
      decrypt sk X ≠ .ok (.int 4) := by
  refine ⟨⟨⟨35⟩, 5, 7, 3, 2, 4⟩, ⟨⟨35⟩, (141 * 5 ^ 35) % 1225, 0, true⟩, ⟨by norm_num, by norm_num, by norm_num, ?_⟩,
    ?_, ?_⟩ <;> decide +kernel

/-- **Which draws are harmless**: for every key, a draw lets every representable integer
be decrypted back if and only if it has no common factor with the modulus. -/
theorem C10_draws_iff (p q : Nat) (sk : PrivKey) (hk : KeyPair p q sk) (r : Int) :
    RoundTrips sk r ↔ Usable sk r := by
  obtain ⟨_, h6, p', q', hg⟩ := aux10_good hk
  have hM : 1 ≤ sk.pk.maxInt := by unfold PubKey.maxInt; omega
  constructor
  · intro h
    by_contra hu
    obtain ⟨s, hs, hsp, hd⟩ := Draws.not_usable hg hu
    obtain ⟨X, hX, hX'⟩ := h 0 (by simp; omega)
    obtain ⟨Y, hY, hY'⟩ := h 1 (by simpa using hM)
    obtain ⟨e1, e2, c, hc⟩ := Draws.encrypt_shape hX
    obtain ⟨k1, k2, c', hc'⟩ := Draws.encrypt_shape hY
    unfold decrypt at hX' hY'
    rw [if_neg (by simp [e1])] at hX'
    rw [if_neg (by simp [k1])] at hY'
    have a := Draws.decode_int e2 hX'
    have b := Draws.decode_int k2 hY'
    simp only [EncNum.ciphertext, Bool.false_and, Bool.false_eq_true, if_false] at a b
    rw [hc] at a
    rw [hc'] at b
    have hsn : (s : Int) ∣ sk.pk.n := by
      rw [hg.en]
      rcases hs with rfl | rfl
      · exact Dvd.intro _ rfl
      · exact Dvd.intro_left _ rfl
    have := ((a.of_dvd hsn).symm.trans (Draws.raw_lost hg (by omega) c c' r hs hd)).trans
      (b.of_dvd hsn)
    have h01 := (Int.modEq_iff_dvd.mp this)
    have h2 : (2 : Int) ≤ s := by exact_mod_cast hsp.two_le
    have := Int.le_of_dvd (by norm_num) h01
    omega
  · intro hu z hz
    obtain ⟨f, hf, _, hdec⟩ := C08_int_roundtrip z sk.pk.n sk.pk.maxInt
      (window _ (by omega)) hz
    have := C10_decrypt_encrypt_partial p q sk hk (.int z) none r hu (by simp)
    rw [hf] at this
    obtain ⟨X, hX, _, hX'⟩ := this
    exact ⟨X, hX, hX'.trans hdec⟩

/-- **How many are not**: of the `p q - 1` values the code draws from, exactly `p + q - 2`
break decryption. -/
theorem C10_bad_draws (p q : Nat) (sk : PrivKey) (hk : KeyPair p q sk) :
    {r : Int | 1 ≤ r ∧ r < sk.pk.n ∧ ¬ RoundTrips sk r}.ncard = p + q - 2 := by
  obtain ⟨hpk, _, _⟩ := aux10_good hk
  have hn : sk.pk.n = ((p * q : Nat) : Int) := by rw [hpk]; push_cast; rfl
  have hset : {r : Int | 1 ≤ r ∧ r < sk.pk.n ∧ ¬ RoundTrips sk r} =
      (fun k : Nat => (k : Int)) ''
        ((Finset.range (p * q)).filter (fun k => k ≠ 0 ∧ ¬ Nat.Coprime (p * q) k) : Set Nat) := by
    ext r
    simp only [Set.mem_ofPred_eq, Set.mem_image, Finset.coe_filter, Finset.mem_range]
    rw [C10_draws_iff p q sk hk, hn]
    unfold Usable
    rw [hn]
    constructor
    · rintro ⟨h1, h2, h3⟩
      lift r to Nat using by omega
      refine ⟨r, ⟨by exact_mod_cast h2, by omega, fun hc => h3 ?_⟩, rfl⟩
      exact Nat.isCoprime_iff_coprime.mpr hc.symm
    · rintro ⟨k, ⟨h1, h2, h3⟩, rfl⟩
      refine ⟨by omega, by exact_mod_cast h1, fun hc => h3 ?_⟩
      exact (Nat.isCoprime_iff_coprime.mp hc).symm
  rw [hset, Set.ncard_image_of_injective _ Nat.cast_injective, Set.ncard_coe_finset]
  have hp2 := hk.1.two_le
  have hq2 := hk.2.1.two_le
  have htot : Nat.totient (p * q) = (p - 1) * (q - 1) := by
    rw [Nat.totient_mul ((Nat.coprime_primes hk.1 hk.2.1).mpr hk.2.2.1),
      Nat.totient_prime hk.1, Nat.totient_prime hk.2.1]
  have hsplit : ((Finset.range (p * q)).filter (fun k => k ≠ 0 ∧ ¬ Nat.Coprime (p * q) k)) =
      ((Finset.range (p * q)).filter (fun k => ¬ Nat.Coprime (p * q) k)).erase 0 := by
    ext k
    simp only [Finset.mem_filter, Finset.mem_range, Finset.mem_erase]
    tauto
  have hpq1 : p * q ≠ 1 := by nlinarith
  rw [hsplit, Finset.card_erase_of_mem (by
    simp only [Finset.mem_filter, Finset.mem_range, Nat.coprime_zero_right]
    exact ⟨by positivity, hpq1⟩)]
  have hsum := Finset.card_filter_add_card_filter_not (s := Finset.range (p * q))
    (fun k => Nat.Coprime (p * q) k)
  rw [Finset.card_range, ← Nat.totient_eq_card_coprime, htot] at hsum
  obtain ⟨a, rfl⟩ : ∃ a, p = a + 1 := ⟨p - 1, by omega⟩
  obtain ⟨b, rfl⟩ : ∃ b, q = b + 1 := ⟨q - 1, by omega⟩
  simp only [Nat.add_sub_cancel] at hsum
  have : (a + 1) * (b + 1) = a * b + a + b + 1 := by ring
  omega

/-- Concrete instance of the hypotheses: key `5 * 7`, plaintext `-3`, draw 4. -/
example : ∃ sk X, KeyPair 5 7 sk ∧ Usable sk 4 ∧ encrypt sk.pk (.int (-3)) none 4 = .ok X ∧
    decrypt sk X = .ok (.int (-3)) := by
  refine ⟨⟨⟨35⟩, 5, 7, 3, 2, 4⟩, ⟨⟨35⟩, (1121 * 4 ^ 35) % 1225, 0, true⟩,
    ⟨by norm_num, by norm_num, by norm_num, ?_⟩, ⟨9, -1, by norm_num⟩, ?_, ?_⟩ <;> decide +kernel

end Verif
