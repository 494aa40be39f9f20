import Verif.Lemmas.KeyGen
import Verif.Props.C14
import Mathlib.Tactic.IntervalCases

/-!
# C59: generated keys have the requested length and work

(Full claim, refuted below for some lengths: for every key length that the settings allow, a key of
this length is generated.)
-/

set_option autoImplicit false

namespace Verif

open Paillier Spec KeyGen

/-- **A generated Paillier key** has exactly the requested number of bits, belongs to two different
primes of half the length (or a bit longer), and its two halves match; nothing is raised for lengths
of at least 2: the draws are used up, or such a key is returned. -/
theorem C59_key_partial (nLength : Int) (hl : 2 ≤ nLength) (draws : List Nat)
    (hr : ∀ r ∈ draws, r < 2 ^ (nLength / 2).toNat) :
    generateKeypair nLength draws = .error .unfinished ∨
    ∃ p q sk, generateKeypair nLength draws = .ok (sk.pk, sk) ∧ KeyPair p q sk ∧
      sk.pk.n = p * q ∧ ((p * q).size : Int) = nLength ∧
      2 ^ ((nLength / 2).toNat - 1) < p ∧ p < 2 ^ ((nLength / 2).toNat + 1) ∧
      2 ^ ((nLength / 2).toNat - 1) < q ∧ q < 2 ^ ((nLength / 2).toNat + 1) := by
  obtain ⟨k, hk⟩ := Int.eq_ofNat_of_zero_le (a := nLength / 2) (by omega)
  have hk1 : 1 ≤ k := by omega
  have hkn : (nLength / 2).toNat = k := by omega
  rw [hkn] at hr ⊢
  rcases generate_spec hk hk1 hr with h | ⟨s, t, sk, a1, a2, a3, a4, a5, _, _, a6, a7, a8⟩
  · exact Or.inl h
  · have hp0 : 0 < 2 ^ (k - 1) := by positivity
    have hs := nextPrime_le_two_mul (r := s) (by omega)
    have ht := nextPrime_le_two_mul (r := t) (by omega)
    have := lt_nextPrime s
    have := lt_nextPrime t
    have h2 : 2 ^ (k + 1) = 2 * 2 ^ k := by rw [pow_succ, mul_comm]
    exact Or.inr ⟨_, _, sk, a8, a6, a7, a5, by omega, by omega, by omega, by omega⟩

/-- Draws for a key of 6 bits: the primes 5 and 7. -/
example : generateKeypair 6 [0, 1, 6] = .ok (⟨35⟩, ⟨⟨35⟩, 5, 7, 3, 2, 4⟩) := by
  have h4 : nextPrime 4 = 5 := nextPrime_eq (by norm_num) (by norm_num) (by intro m _ _; omega)
  have h5 : nextPrime 5 = 7 := nextPrime_eq (by norm_num) (by norm_num) (by
    intro m _ _; interval_cases m; norm_num)
  have h6 : nextPrime 6 = 7 := nextPrime_eq (by norm_num) (by norm_num) (by intro m _ _; omega)
  have g0 : getPrimeOver 3 0 = .ok 5 := by show Except.ok (nextPrime 4) = _; rw [h4]
  have g1 : getPrimeOver 3 1 = .ok 7 := by show Except.ok (nextPrime 5) = _; rw [h5]
  have hd : drawPrimes 6 3 [0, 1, 6] = .ok (5, 7) := by
    have e : (6 : Int) / 2 = 3 := by norm_num
    have hs : ((Nat.size 35 : Nat) : Int) = 6 := by decide +kernel
    simp [drawPrimes, drawOther, e, g0, g1, bind, Except.bind, hs]
  unfold generateKeypair
  rw [if_neg (by norm_num)]
  show (drawPrimes 6 3 [0, 1, 6]).bind _ = _
  rw [hd]
  have hn' : PrivKey.new ⟨((5 : Nat) : Int) * (7 : Nat)⟩ (5 : Nat) (7 : Nat) =
    .ok ⟨⟨35⟩, 5, 7, 3, 2, 4⟩ := by decide +kernel
  simp only [Except.bind, bind, hn']
  rfl

private theorem prime1 : Nat.Prime (50773 * 2 ^ 496 + 1) :=
  prime_of_powers (n := 512) rfl (by norm_num) (by decide +kernel) (by decide +kernel) 3
    (by decide +kernel) (by decide +kernel) (by decide +kernel)

private theorem prime2 : Nat.Prime (51907 * 2 ^ 496 + 1) :=
  prime_of_powers (n := 512) rfl (by norm_num) (by decide +kernel) (by decide +kernel) 3
    (by decide +kernel) (by decide +kernel) (by decide +kernel)

/-- **The default length**: there are draws with which a key of 1024 bits is returned. -/
theorem C59_default : ∃ draws : List Nat, (∀ r ∈ draws, r < 2 ^ 512) ∧
    ∃ pk sk, generateKeypair 1024 draws = .ok (pk, sk) := by
  have b1 : 50773 * 2 ^ 496 < 2 ^ 512 := by decide +kernel
  have b2 : 51907 * 2 ^ 496 < 2 ^ 512 := by decide +kernel
  have e : (1024 : Int) / 2 = (512 : Nat) := by norm_num
  have hne : (50773 * 2 ^ 496 + 1 : Nat) ≠ 51907 * 2 ^ 496 + 1 := by decide +kernel
  have hs : ((50773 * 2 ^ 496 + 1) * (51907 * 2 ^ 496 + 1) : Nat).size = 1024 := by
    have h1 : 2 ^ 1023 ≤ (50773 * 2 ^ 496 + 1) * (51907 * 2 ^ 496 + 1) := by decide +kernel
    have h2 : (50773 * 2 ^ 496 + 1) * (51907 * 2 ^ 496 + 1) < 2 ^ 1024 := by decide +kernel
    exact le_antisymm (Nat.size_le.mpr h2) (Nat.lt_size.mpr h1)
  have o1 : (50773 * 2 ^ 496) ||| 2 ^ (512 - 1) = 50773 * 2 ^ 496 := by decide +kernel
  have o2 : (51907 * 2 ^ 496) ||| 2 ^ (512 - 1) = 51907 * 2 ^ 496 := by decide +kernel
  have p1 := prime1
  have p2 := prime2
  generalize 50773 * 2 ^ 496 = x at *
  generalize 51907 * 2 ^ 496 = y at *
  have n1 : nextPrime x = x + 1 := nextPrime_pred p1
  have n2 : nextPrime y = y + 1 := nextPrime_pred p2
  obtain ⟨s, s0, _, _, g1⟩ := getPrimeOver_ok (k := 512) (by norm_num) b1
  obtain ⟨t, t0, _, _, g2⟩ := getPrimeOver_ok (k := 512) (by norm_num) b2
  rw [o1] at s0
  rw [o2] at t0
  subst s0 t0
  rw [n1] at g1
  rw [n2] at g2
  obtain ⟨sk, k1, k2⟩ := C10_key_constructed _ _ p1 p2 hne
  refine ⟨[s, t], by simp [b1, b2], ⟨((s + 1 : Nat) : Int) * (t + 1 : Nat)⟩, sk, ?_⟩
  have hd : drawPrimes 1024 2 [s, t] = .ok (s + 1, t + 1) := by
    unfold drawPrimes
    rw [e]
    simp only [drawOther, g1, g2, bind, Except.bind]
    rw [if_neg (fun h => hne h.symm)]
    simp only
    rw [if_neg (by rw [hs]; simp)]
  unfold generateKeypair
  rw [if_neg (by norm_num)]
  show (drawPrimes 1024 2 [s, t]).bind _ = _
  rw [hd]
  simp only [Except.bind, bind]
  rw [k1.2.2.2]

/-- **Lengths below 2** raise, also 1, which the settings allow. -/
theorem C59_length_refuted (nLength : Int) (hl : nLength < 2) (r : Nat) (draws : List Nat) :
    generateKeypair nLength (r :: draws) = .error (if nLength = 0 then .typeError else .valueError) := by
  unfold generateKeypair
  by_cases h0 : nLength = 0
  · rw [if_pos h0, if_pos h0]
  · rw [if_neg h0, if_neg h0]
    have : getPrimeOver (nLength / 2) r = .error .valueError := by
      unfold getPrimeOver
      rw [if_pos (by omega)]
    simp only [List.length_cons, drawPrimes, this, bind, Except.bind]

private theorem next2 : nextPrime 2 = 3 := nextPrime_eq (by norm_num) (by norm_num) (by intro m _ _; omega)
private theorem next3 : nextPrime 3 = 5 := nextPrime_eq (by norm_num) (by norm_num) (by
  intro m _ _; interval_cases m; norm_num)

private theorem next8 (s : Nat) (h1 : 8 ≤ s) (h2 : s < 16) : nextPrime s ≤ 17 ∧
    (nextPrime s = 17 ∨ nextPrime s ≤ 13) := by
  have h17 := nextPrime_le (r := s) (by omega) (show Nat.Prime 17 by norm_num)
  have hp := nextPrime_prime s
  refine ⟨h17, ?_⟩
  generalize nextPrime s = p at *
  by_contra hc
  push Not at hc
  have : p = 14 ∨ p = 15 ∨ p = 16 := by omega
  rcases this with rfl | rfl | rfl <;> norm_num at hp

/-- **Lengths for which no key is ever returned**, whatever is drawn: 2, 3, 5 and 9 bits. -/
theorem C59_never_refuted (nLength : Int) (hl : nLength = 2 ∨ nLength = 3 ∨ nLength = 5 ∨ nLength = 9)
    (draws : List Nat) (hr : ∀ r ∈ draws, r < 2 ^ (nLength / 2).toNat) :
    generateKeypair nLength draws = .error .unfinished := by
  have hs : ∀ a b : Nat, a < 2 ^ b → (a.size : Int) ≤ b := fun a b h => by
    exact_mod_cast Nat.size_le.mpr h
  obtain ⟨k, hk⟩ := Int.eq_ofNat_of_zero_le (a := nLength / 2) (by omega)
  have hkn : (nLength / 2).toNat = k := by omega
  rw [hkn] at hr
  rcases generate_spec hk (by omega) hr with h | ⟨s, t, sk, a1, a2, a3, a4, a5, _, _, a6, a7, a8⟩
  · exact h
  · exfalso
    have hne := a6.2.2.1
    rcases hl with rfl | rfl | rfl | rfl
    · have : k = 1 := by omega
      subst this
      have h1 : s = 1 := by omega
      have h2 : t = 1 := by omega
      exact hne (by rw [h1, h2])
    · have : k = 1 := by omega
      subst this
      have h1 : s = 1 := by omega
      have h2 : t = 1 := by omega
      exact hne (by rw [h1, h2])
    · have : k = 2 := by omega
      subst this
      have h1 : s = 2 ∨ s = 3 := by omega
      have h2 : t = 2 ∨ t = 3 := by omega
      rcases h1 with rfl | rfl <;> rcases h2 with rfl | rfl <;> simp only [next2, next3] at a5 hne
      · exact hne rfl
      · have h15 := hs 15 4 (by norm_num); norm_num at a5; push_cast at h15; omega
      · have h15 := hs 15 4 (by norm_num); norm_num at a5; push_cast at h15; omega
      · exact hne rfl
    · have : k = 4 := by omega
      subst this
      obtain ⟨_, h1⟩ := next8 s a1 a2
      obtain ⟨_, h2⟩ := next8 t a3 a4
      have h8 := hs (nextPrime s * nextPrime t) 8 (by
        rcases h1 with h1 | h1 <;> rcases h2 with h2 | h2
        · exact absurd (h1.trans h2.symm) hne
        · rw [h1]; omega
        · rw [h2]; omega
        · calc nextPrime s * nextPrime t ≤ 13 * 13 := Nat.mul_le_mul h1 h2
            _ < 2 ^ 8 := by norm_num)
      push_cast at h8
      omega

/-- **Odd lengths**: a key of `2 * k + 1` bits is returned only if some number was drawn above which
there is no prime of `k` bits, so the last few of the 2 ^ k possible draws. -/
theorem C59_odd_refuted (k : Nat) (hk : 1 ≤ k) (draws : List Nat) (hr : ∀ r ∈ draws, r < 2 ^ k)
    (pk : PubKey) (sk : PrivKey) (h : generateKeypair (2 * k + 1) draws = .ok (pk, sk)) :
    ∃ r ∈ draws, ∀ p, p.Prime → r ||| 2 ^ (k - 1) < p → 2 ^ k ≤ p := by
  have hL : (2 * (k : Int) + 1) / 2 = k := by omega
  rcases generate_spec hL hk hr with h' | ⟨s, t, sk', a1, a2, a3, a4, a5, ⟨r1, hr1, e1⟩, ⟨r2, hr2, e2⟩, a6, a7, a8⟩
  · rw [h'] at h; cases h
  · by_contra hc
    push Not at hc
    obtain ⟨p1, b1, b2, b3⟩ := hc r1 hr1
    obtain ⟨p2, c1, c2, c3⟩ := hc r2 hr2
    rw [← e1] at b2
    rw [← e2] at c2
    have h1 := nextPrime_le b2 b1
    have h2 := nextPrime_le c2 c1
    have hlt : nextPrime s * nextPrime t < 2 ^ (2 * k) := by
      calc nextPrime s * nextPrime t < 2 ^ k * 2 ^ k := Nat.mul_lt_mul'' (by omega) (by omega)
        _ = 2 ^ (2 * k) := by rw [← pow_add]; congr 1; omega
    have := Nat.size_le.mpr hlt
    omega

/-- A key of 7 bits: 7 and 11, where 11 comes from the draw 7, the last of three bits. -/
example : ∃ pk sk, generateKeypair 7 [5, 7] = .ok (pk, sk) := by
  have h5 : nextPrime 5 = 7 := nextPrime_eq (by norm_num) (by norm_num) (by
    intro m _ _; interval_cases m; norm_num)
  have h7 : nextPrime 7 = 11 := nextPrime_eq (by norm_num) (by norm_num) (by
    intro m _ _; interval_cases m <;> norm_num)
  have g0 : getPrimeOver 3 5 = .ok 7 := by show Except.ok (nextPrime 5) = _; rw [h5]
  have g1 : getPrimeOver 3 7 = .ok 11 := by show Except.ok (nextPrime 7) = _; rw [h7]
  obtain ⟨sk, k1, k2⟩ := C10_key_constructed 7 11 (by norm_num) (by norm_num) (by norm_num)
  refine ⟨⟨((7 : Nat) : Int) * (11 : Nat)⟩, sk, ?_⟩
  have hd : drawPrimes 7 2 [5, 7] = .ok (7, 11) := by
    have e : (7 : Int) / 2 = 3 := by norm_num
    have hs : ((Nat.size 77 : Nat) : Int) = 7 := by decide +kernel
    simp [drawPrimes, drawOther, e, g0, g1, bind, Except.bind, hs]
  unfold generateKeypair
  rw [if_neg (by norm_num)]
  show (drawPrimes 7 2 [5, 7]).bind _ = _
  rw [hd]
  simp only [Except.bind, bind]
  rw [k1.2.2.2]

private theorem drawCoprime_spec (n : Nat) (as : List Nat) :
    ((∀ a ∈ as, Nat.gcd n a ≠ 1) ∧ drawCoprime n as = .error .unfinished) ∨
    ∃ a ∈ as, Nat.gcd n a = 1 ∧ drawCoprime n as = .ok a := by
  induction as with
  | nil => exact Or.inl ⟨by simp, rfl⟩
  | cons a as ih =>
    unfold drawCoprime
    by_cases h : Nat.gcd n a = 1
    · rw [if_pos h]; exact Or.inr ⟨a, by simp, h, rfl⟩
    · rw [if_neg h]
      rcases ih with ⟨h1, h2⟩ | ⟨a', h1, h2, h3⟩
      · exact Or.inl ⟨by simpa [h] using h1, h2⟩
      · exact Or.inr ⟨a', by simp [h1], h2, h3⟩

/-- **A generated affine key works**: if the modulus that was drawn is at least 2, the loop goes on
until a number without a common factor is drawn, and then a key is returned with which every
combination of encrypted integers within the window decrypts exactly. -/
theorem C59_affine_partial (n : Nat) (hn : 2 ≤ n) (as : List Nat) (b : Nat) (mult : Int) :
    ((∀ a ∈ as, Nat.gcd n a ≠ 1) ∧ affineKeypair n as b mult = .error .unfinished) ∨
    ∃ k, affineKeypair n as b mult = .ok k ∧ k.n = n ∧
      ∀ e : AExpr, InWindow n e.plain → ∃ c, e.run k = .ok c ∧ Affine.rawDecrypt k c = e.plain := by
  rcases drawCoprime_spec n as with ⟨h1, h2⟩ | ⟨a, _, h2, h3⟩
  · exact Or.inl ⟨h1, by unfold affineKeypair; rw [h2]; rfl⟩
  · have hc : IsCoprime (a : Int) (n : Int) := Nat.isCoprime_iff_coprime.mpr ((Nat.gcd_comm a n).trans h2)
    obtain ⟨k, hk⟩ := (C14_key a b n mult (by omega)).mpr hc
    refine Or.inr ⟨k, by unfold affineKeypair; rw [h3]; exact hk, ?_, fun e he =>
      C14_combination a b n mult k (by omega) hk e he⟩
    unfold Affine.Key.new at hk
    simp only [bind, Except.bind] at hk
    split at hk
    · cases hk
    · cases hk; rfl

/-- The modulus may also be drawn as 0 or 1; then an exception is raised as soon as the loop ends. -/
theorem C59_affine_refuted (n : Nat) (hn : n < 2) (as : List Nat) (b : Nat) (mult : Int)
    (h : ∃ a ∈ as, Nat.gcd n a = 1) : affineKeypair n as b mult = .error .zeroDivision := by
  rcases drawCoprime_spec n as with ⟨h1, _⟩ | ⟨a, _, h2, h3⟩
  · obtain ⟨a, ha, h⟩ := h
    exact absurd h (h1 a ha)
  · unfold affineKeypair
    rw [h3]
    have : n = 0 ∨ n = 1 := by omega
    have hi : Gmpy.gmpyInvert a n = 0 := by
      rcases this with rfl | rfl
      · rfl
      · unfold Gmpy.gmpyInvert
        simp
    simp only [bind, Except.bind, Affine.Key.new, Gmpy.invert, hi, if_true]

/-- A modulus of 100, two draws with a common factor or 0, then one without. -/
example : ∃ k, affineKeypair 100 [50, 0, 7] 3 1000 = .ok k := ⟨⟨7, 3, 100, 43, 1000⟩, by decide +kernel⟩

end Verif
