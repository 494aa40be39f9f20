import Verif.Model.KeyGen
import Verif.Props.C10
import Mathlib.NumberTheory.Bertrand
import Mathlib.NumberTheory.LucasPrimality

/-! # Key generation -/

set_option autoImplicit false

namespace Verif
namespace KeyGen

open Paillier Spec

theorem nextPrime_prime (r : Nat) : (nextPrime r).Prime :=
  (Nat.find_spec (Nat.exists_infinite_primes (r + 1))).2

theorem lt_nextPrime (r : Nat) : r < nextPrime r :=
  (Nat.find_spec (Nat.exists_infinite_primes (r + 1))).1

theorem nextPrime_le {r p : Nat} (h : r < p) (hp : p.Prime) : nextPrime r ≤ p :=
  Nat.find_min' (Nat.exists_infinite_primes (r + 1)) ⟨h, hp⟩

theorem nextPrime_pred {p : Nat} (hp : p.Prime) : nextPrime (p - 1) = p := by
  have h0 := hp.pos
  have h1 := lt_nextPrime (p - 1)
  have h2 := nextPrime_le (r := p - 1) (by omega) hp
  omega

theorem nextPrime_le_two_mul {r : Nat} (h : r ≠ 0) : nextPrime r ≤ 2 * r := by
  obtain ⟨p, hp, h1, h2⟩ := Nat.exists_prime_lt_and_le_two_mul r h
  exact (nextPrime_le h1 hp).trans h2

/-- What `getprimeover` returns for `k` random bits. -/
theorem getPrimeOver_ok {k r : Nat} (hk : 1 ≤ k) (hr : r < 2 ^ k) :
    ∃ s, s = r ||| 2 ^ (k - 1) ∧ 2 ^ (k - 1) ≤ s ∧ s < 2 ^ k ∧
      getPrimeOver k r = .ok (nextPrime s) := by
  refine ⟨_, rfl, Nat.right_le_or, Nat.or_lt_two_pow hr (Nat.pow_lt_pow_right (by omega) (by omega)), ?_⟩
  unfold getPrimeOver
  rw [if_neg (by omega)]
  congr 4
  omega

theorem drawOther_spec {k : Nat} (hk : 1 ≤ k) {p : Nat} : ∀ (rs : List Nat), (∀ r ∈ rs, r < 2 ^ k) →
    drawOther k p rs = .error .unfinished ∨
    ∃ s rs', 2 ^ (k - 1) ≤ s ∧ s < 2 ^ k ∧ nextPrime s ≠ p ∧ (∀ r ∈ rs', r ∈ rs) ∧
      (∃ r ∈ rs, s = r ||| 2 ^ (k - 1)) ∧
      drawOther k p rs = .ok (nextPrime s, rs') := by
  intro rs
  induction rs with
  | nil => intro _; exact Or.inl rfl
  | cons r rs ih =>
    intro h
    obtain ⟨s, s0, s1, s2, s3⟩ := getPrimeOver_ok hk (h r (by simp))
    unfold drawOther
    simp only [s3, bind, Except.bind]
    by_cases he : nextPrime s = p
    · rw [if_pos he]
      rcases ih fun r hr => h r (by simp [hr]) with h1 | ⟨s', rs', a, b, c, d, ⟨r', hr', hs'⟩, e⟩
      · exact Or.inl h1
      · exact Or.inr ⟨s', rs', a, b, c, fun r hr => by simp [d r hr], ⟨r', by simp [hr'], hs'⟩, e⟩
    · rw [if_neg he]
      exact Or.inr ⟨s, rs, s1, s2, he, fun r hr => by simp [hr], ⟨r, by simp, s0⟩, rfl⟩

/-- The loop goes on, or ends with two different primes, each the next one above a number of `k`
bits drawn with its top bit set, whose product has the wanted length. -/
theorem drawPrimes_spec {nLength : Int} {k : Nat} (hL : nLength / 2 = k) (hk : 1 ≤ k) :
    ∀ (fuel : Nat) (rs : List Nat), (∀ r ∈ rs, r < 2 ^ k) →
    drawPrimes nLength fuel rs = .error .unfinished ∨
    ∃ s t, 2 ^ (k - 1) ≤ s ∧ s < 2 ^ k ∧ 2 ^ (k - 1) ≤ t ∧ t < 2 ^ k ∧ nextPrime s ≠ nextPrime t ∧
      ((nextPrime s * nextPrime t).size : Int) = nLength ∧
      (∃ r ∈ rs, s = r ||| 2 ^ (k - 1)) ∧ (∃ r ∈ rs, t = r ||| 2 ^ (k - 1)) ∧
      drawPrimes nLength fuel rs = .ok (nextPrime s, nextPrime t) := by
  intro fuel
  induction fuel with
  | zero => intro rs _; exact Or.inl (by cases rs <;> rfl)
  | succ fuel ih =>
    intro rs h
    cases rs with
    | nil => exact Or.inl rfl
    | cons r rs =>
      obtain ⟨s, s0, s1, s2, s3⟩ := getPrimeOver_ok hk (h r (by simp))
      unfold drawPrimes
      rw [hL]
      simp only [s3, bind, Except.bind]
      rcases drawOther_spec hk (p := nextPrime s) rs fun r hr => h r (by simp [hr]) with h1 | ⟨t, rs', a, b, c, d, ⟨r', hr', ht'⟩, e⟩
      · rw [h1]; exact Or.inl rfl
      · rw [e]
        simp only
        by_cases he : ((nextPrime s * nextPrime t).size : Int) = nLength
        · rw [if_neg (by simpa using he)]
          exact Or.inr ⟨s, t, s1, s2, a, b, fun hc => c hc.symm, he, ⟨r, by simp, s0⟩, ⟨r', by simp [hr'], ht'⟩, rfl⟩
        · rw [if_pos he]
          rcases ih rs' (fun r hr => h r (by simp [d r hr])) with h1 | ⟨s', t', x1, x2, x3, x4, x5, x6, ⟨u, hu, x7⟩, ⟨v, hv, x8⟩, x9⟩
          · exact Or.inl h1
          · exact Or.inr ⟨s', t', x1, x2, x3, x4, x5, x6, ⟨u, by simp [d u hu], x7⟩, ⟨v, by simp [d v hv], x8⟩, x9⟩

theorem generate_spec {nLength : Int} {draws : List Nat} {k : Nat}
    (hL : nLength / 2 = k) (hk : 1 ≤ k) (hr : ∀ r ∈ draws, r < 2 ^ k) :
    generateKeypair nLength draws = .error .unfinished ∨
    ∃ s t sk, 2 ^ (k - 1) ≤ s ∧ s < 2 ^ k ∧ 2 ^ (k - 1) ≤ t ∧ t < 2 ^ k ∧
      ((nextPrime s * nextPrime t).size : Int) = nLength ∧
      (∃ r ∈ draws, s = r ||| 2 ^ (k - 1)) ∧ (∃ r ∈ draws, t = r ||| 2 ^ (k - 1)) ∧
      KeyPair (nextPrime s) (nextPrime t) sk ∧ sk.pk.n = nextPrime s * nextPrime t ∧
      generateKeypair nLength draws = .ok (sk.pk, sk) := by
  unfold generateKeypair
  rw [if_neg (by omega)]
  rcases drawPrimes_spec hL hk draws.length draws hr with h | ⟨s, t, a1, a2, a3, a4, a5, a6, a7, a8, a9⟩
  · rw [h]; exact Or.inl rfl
  · obtain ⟨sk, h1, h2⟩ := C10_key_constructed _ _ (nextPrime_prime s) (nextPrime_prime t) a5
    refine Or.inr ⟨s, t, sk, a1, a2, a3, a4, a6, a7, a8, h1, h2, ?_⟩
    rw [a9]
    simp only [bind, Except.bind, h1.2.2.2]
    have : sk.pk = ⟨(nextPrime s : Int) * nextPrime t⟩ := by
      cases hsk : sk.pk; rw [hsk] at h2; exact congrArg _ h2
    rw [this]

theorem nextPrime_eq {r p : Nat} (hp : p.Prime) (h : r < p) (hno : ∀ m, r < m → m < p → ¬ m.Prime) :
    nextPrime r = p := by
  have h1 := lt_nextPrime r
  have h2 := nextPrime_le h hp
  rcases Nat.lt_or_ge (nextPrime r) p with h3 | h3
  · exact absurd (nextPrime_prime r) (hno _ h1 h3)
  · omega

/-- `a ^ b % m` by repeated squaring, `n` bits of `b`. -/
def powBits (m : Nat) : Nat → Nat → Nat → Nat
  | 0, _, _ => 1 % m
  | n + 1, a, b => if b % 2 = 1 then a * powBits m n (a * a % m) (b / 2) % m
      else powBits m n (a * a % m) (b / 2)

theorem powBits_eq (m : Nat) : ∀ (n a b : Nat), b < 2 ^ n → powBits m n a b = a ^ b % m := by
  intro n
  induction n with
  | zero =>
    intro a b hb
    have : b = 0 := by omega
    subst this; rfl
  | succ n ih =>
    intro a b hb
    have hb2 : b / 2 < 2 ^ n := by rw [pow_succ] at hb; omega
    unfold powBits
    rw [ih _ _ hb2]
    have hsq : (a * a % m) ^ (b / 2) % m = a ^ (2 * (b / 2)) % m := by
      rw [← Nat.pow_mod, pow_mul, pow_two]
    split
    · next h =>
      rw [Nat.mul_mod, Nat.mod_mod, hsq, ← Nat.mul_mod, ← pow_succ']
      congr 2; omega
    · rw [hsq]; congr 2; omega

/-- A primality certificate for `c * 2 ^ e + 1` with a prime `c`. -/
theorem prime_of_powers {c e p n : Nat} (hp : p = c * 2 ^ e + 1) (hc : c.Prime) (hn : p < 2 ^ n) (hp1 : 1 < p)
    (a : Nat) (h1 : powBits p n a (p - 1) = 1) (h2 : powBits p n a ((p - 1) / 2) ≠ 1)
    (h3 : powBits p n a ((p - 1) / c) ≠ 1) : p.Prime := by
  have hpow : ∀ b, b < 2 ^ n → (((a : ZMod p)) ^ b = 1 ↔ powBits p n a b = 1) := by
    intro b hb
    rw [powBits_eq p n a b hb]
    have h := ZMod.natCast_eq_natCast_iff' (a ^ b) 1 p
    rw [Nat.mod_eq_of_lt hp1] at h
    rw [← h]
    push_cast
    rfl
  refine lucas_primality p (a : ZMod p) ((hpow _ (by omega)).mpr h1) ?_
  intro q hq hdvd
  have hq' : q ∣ c * 2 ^ e := by rw [hp] at hdvd; simpa using hdvd
  have hlt : (p - 1) / q < 2 ^ n := lt_of_le_of_lt (Nat.div_le_self _ _) (by omega)
  rw [Ne, hpow _ hlt]
  rcases (Nat.Prime.dvd_mul hq).mp hq' with h | h
  · rw [(Nat.prime_dvd_prime_iff_eq hq hc).mp h]; exact h3
  · rw [(Nat.prime_dvd_prime_iff_eq hq Nat.prime_two).mp (hq.dvd_of_dvd_pow h)]; exact h2

end KeyGen
end Verif
