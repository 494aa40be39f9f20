import Verif.Model.Paillier
import Verif.Lemmas.GmpyMath
import Verif.Lemmas.FixedPoint
import Mathlib.FieldTheory.Finite.Basic
import Mathlib.RingTheory.Coprime.Lemmas
import Mathlib.RingTheory.Int.Basic

/-!
Number theory behind Paillier decryption, for arbitrary distinct primes.
-/

set_option autoImplicit false

namespace Verif
namespace Paillier
open Gmpy FP

theorem one_add_pow_modEq (p k : Int) (j : Nat) :
    (1 + p * k) ^ j ≡ 1 + p * (j * k) [ZMOD p * p] := by
  induction j with
  | zero => simp [Int.ModEq.refl]
  | succ j ih =>
    rw [pow_succ]
    refine (ih.mul_right _).trans ?_
    apply Int.modEq_iff_dvd.mpr
    refine ⟨-(j * k * k), ?_⟩
    push_cast; ring

theorem lFunc_modEq {y p k : Int} (hp : 0 < p) (h : y ≡ 1 + p * k [ZMOD p * p]) :
    lFunc y p ≡ k [ZMOD p] := by
  obtain ⟨t, ht⟩ := Int.modEq_iff_dvd.mp h
  unfold lFunc
  have : y - 1 = p * (k - p * t) := by linarith
  rw [this, Int.mul_ediv_cancel_left _ (by omega)]
  exact Int.modEq_iff_dvd.mpr ⟨t, by ring⟩

theorem unit_pow_modEq {p : Nat} (hp : p.Prime) {r : Int} (hr : IsCoprime r (p : Int)) :
    r ^ (p * (p - 1)) ≡ 1 [ZMOD (p : Int) * p] := by
  have h := Int.ModEq.pow_card_sub_one_eq_one hp hr
  obtain ⟨k, hk⟩ := Int.modEq_iff_dvd.mp h.symm
  have : r ^ (p - 1) = 1 + p * k := by linarith
  rw [mul_comm p (p - 1), pow_mul, this]
  refine (one_add_pow_modEq p k p).trans ?_
  exact Int.modEq_iff_dvd.mpr ⟨-k, by ring⟩

/-- `c` is a Paillier encryption of `m` under modulus `n`, for some randomness coprime to
`n`. -/
def IsEnc (n m c : Int) : Prop :=
  ∃ r : Int, IsCoprime r n ∧ c ≡ (1 + n * m) * r ^ n.toNat [ZMOD n * n]

theorem IsEnc.of_modEq {n m c c' : Int} (h : IsEnc n m c) (hc : c' ≡ c [ZMOD n * n]) :
    IsEnc n m c' := by
  obtain ⟨r, hr, h⟩ := h
  exact ⟨r, hr, hc.trans h⟩

theorem IsEnc.congr {n m m' c : Int} (h : IsEnc n m c) (hm : m ≡ m' [ZMOD n]) : IsEnc n m' c := by
  obtain ⟨r, hr, h⟩ := h
  refine ⟨r, hr, h.trans (Int.ModEq.mul_right _ ?_)⟩
  obtain ⟨t, ht⟩ := Int.modEq_iff_dvd.mp hm
  exact Int.modEq_iff_dvd.mpr ⟨t, by rw [show m' = m + n * t by linarith]; ring⟩

theorem IsEnc.plain (n m : Int) : IsEnc n m (n * m + 1) :=
  ⟨1, isCoprime_one_left, by simp [add_comm, Int.ModEq.refl]⟩

theorem IsEnc.mul {n m1 m2 c1 c2 : Int} (h1 : IsEnc n m1 c1) (h2 : IsEnc n m2 c2) :
    IsEnc n (m1 + m2) (c1 * c2) := by
  obtain ⟨r1, hr1, h1⟩ := h1
  obtain ⟨r2, hr2, h2⟩ := h2
  refine ⟨r1 * r2, hr1.mul_left hr2, (h1.mul h2).trans ?_⟩
  rw [mul_pow]
  exact Int.modEq_iff_dvd.mpr
    ⟨-(m1 * m2 * r1 ^ n.toNat * r2 ^ n.toNat), by ring⟩

theorem IsEnc.pow {n m c : Int} (h : IsEnc n m c) (k : Nat) : IsEnc n (k * m) (c ^ k) := by
  induction k with
  | zero => simpa using IsEnc.plain n 0
  | succ k ih =>
    rw [pow_succ]
    have := ih.mul h
    convert this using 1
    push_cast; ring

theorem IsEnc.coprime {n m c : Int} (h : IsEnc n m c) : IsCoprime c (n * n) := by
  obtain ⟨r, hr, h⟩ := h
  have h1 : IsCoprime ((1 + n * m) * r ^ n.toNat) n :=
    IsCoprime.mul_left ⟨1, -m, by ring⟩ hr.pow_left
  have h2 : IsCoprime ((1 + n * m) * r ^ n.toNat) (n * n) := h1.mul_right h1
  obtain ⟨t, ht⟩ := Int.modEq_iff_dvd.mp h
  rw [show c = (1 + n * m) * r ^ n.toNat + (n * n) * (-t) by linarith]
  exact h2.add_mul_left_left _

theorem IsEnc.inv {n m c c' : Int} (h : IsEnc n m c) (hc : c * c' ≡ 1 [ZMOD n * n]) :
    IsEnc n (-m) c' := by
  obtain ⟨r, hr, h⟩ := h
  obtain ⟨a, b, hab⟩ := hr
  -- inverse of r modulo n, lifted
  have hcop : IsCoprime r (n * n) := by
    have : IsCoprime r n := ⟨a, b, hab⟩
    exact this.mul_right this
  obtain ⟨u, v, huv⟩ := hcop
  have hru : r * u ≡ 1 [ZMOD n * n] := Int.modEq_iff_dvd.mpr ⟨v, by linarith⟩
  have hun : IsCoprime u n := ⟨r, v * n, by linarith⟩
  refine ⟨u, hun, ?_⟩
  have hrun : r ^ n.toNat * u ^ n.toNat ≡ 1 [ZMOD n * n] := by
    rw [← mul_pow]; simpa using hru.pow n.toNat
  -- c' ≡ c' * (1+nm) r^n (1-nm) u^n
  have h1 : (1 + n * m) * r ^ n.toNat * ((1 + n * -m) * u ^ n.toNat) ≡ 1 [ZMOD n * n] := by
    have e : (1 + n * m) * r ^ n.toNat * ((1 + n * -m) * u ^ n.toNat)
        = ((1 + n * m) * (1 + n * -m)) * (r ^ n.toNat * u ^ n.toNat) := by ring
    rw [e]
    have e2 : (1 + n * m) * (1 + n * -m) ≡ 1 [ZMOD n * n] :=
      Int.modEq_iff_dvd.mpr ⟨m * m, by ring⟩
    simpa using e2.mul hrun
  have h2 : c' ≡ c' * ((1 + n * m) * r ^ n.toNat * ((1 + n * -m) * u ^ n.toNat)) [ZMOD n * n] := by
    simpa using (h1.mul_left c').symm
  refine h2.trans ?_
  have h3 : c' * ((1 + n * m) * r ^ n.toNat) ≡ 1 [ZMOD n * n] := by
    refine (h.symm.mul_left c').trans ?_
    rw [mul_comm c' c]; exact hc
  have := h3.mul_right ((1 + n * -m) * u ^ n.toNat)
  simpa [mul_assoc] using this

theorem IsEnc.obfuscate {n m c r : Int} (h : IsEnc n m c) (hr : IsCoprime r n) :
    IsEnc n m (c * r ^ n.toNat) := by
  obtain ⟨r1, hr1, h1⟩ := h
  refine ⟨r1 * r, hr1.mul_left hr, (h1.mul_right _).trans ?_⟩
  rw [mul_pow, mul_assoc]

/-! ### Keys -/

/-- The half of decryption modulo one prime. -/
theorem half_decrypt {p q : Nat} (hp : p.Prime) {n m c h : Int} (hn : n = p * q)
    (hc : IsEnc n m c)
    (hh : lFunc (powmod (n + 1) (p - 1) ((p : Int) * p)) p * h ≡ 1 [ZMOD p]) :
    lFunc (powmod c (p - 1) ((p : Int) * p)) p * h ≡ m [ZMOD p] := by
  have hp0 : (0 : Int) < p := by exact_mod_cast hp.pos
  have hg : lFunc (powmod (n + 1) (p - 1) ((p : Int) * p)) p
      ≡ ((p - 1 : Nat) : Int) * q [ZMOD p] := by
    apply lFunc_modEq hp0
    refine (powmod_modEq _ _ _).trans ?_
    rw [hn, add_comm]
    exact one_add_pow_modEq p q (p - 1)
  have hL : lFunc (powmod c (p - 1) ((p : Int) * p)) p
      ≡ ((p - 1 : Nat) : Int) * (q * m) [ZMOD p] := by
    apply lFunc_modEq hp0
    refine (powmod_modEq _ _ _).trans ?_
    obtain ⟨r, hr, hcr⟩ := hc
    have hdvd : ((p : Int) * p) ∣ n * n := by
      rw [hn]; exact ⟨q * q, by ring⟩
    have hcr' : c ≡ (1 + n * m) * r ^ n.toNat [ZMOD (p : Int) * p] := hcr.of_dvd hdvd
    refine (hcr'.pow (p - 1)).trans ?_
    rw [mul_pow]
    have hrp : IsCoprime r (p : Int) := by
      rw [hn] at hr; exact hr.of_mul_right_left
    have hpow : (r ^ n.toNat) ^ (p - 1) ≡ 1 [ZMOD (p : Int) * p] := by
      have : n.toNat = p * q := by rw [hn]; exact_mod_cast Int.toNat_natCast (p * q)
      rw [this, ← pow_mul, show p * q * (p - 1) = p * (p - 1) * q by ring, pow_mul]
      simpa using (unit_pow_modEq hp hrp).pow q
    have h1 := one_add_pow_modEq (p : Int) (q * m) (p - 1)
    have e : (1 + n * m) = 1 + (p : Int) * (q * m) := by rw [hn]; ring
    rw [e]
    simpa using h1.mul hpow
  have h1 := hL.mul_right h
  have h2 : ((p - 1 : Nat) : Int) * (q * m) * h ≡ m * 1 [ZMOD p] := by
    have h3 := ((hg.symm.mul_right h).trans hh).mul_left m
    have e : ((p - 1 : Nat) : Int) * (q * m) * h = m * (((p - 1 : Nat) : Int) * q * h) := by ring
    rw [e]; exact h3
  simpa using h1.trans h2

theorem hFunc_ok {p q : Nat} (hp : p.Prime) (hq : q.Prime) (hpq : p ≠ q) (k : PubKey)
    (hn : k.n = p * q) :
    ∃ h, hFunc k p ((p : Int) * p) = .ok h ∧
      lFunc (powmod (k.n + 1) (p - 1) ((p : Int) * p)) p * h ≡ 1 [ZMOD p] := by
  have hp0 : (0 : Int) < p := by exact_mod_cast hp.pos
  have hp1 : (1 : Int) < p := by exact_mod_cast hp.one_lt
  have hg : lFunc (powmod (k.n + 1) (p - 1) ((p : Int) * p)) p
      ≡ ((p - 1 : Nat) : Int) * q [ZMOD p] := by
    apply lFunc_modEq hp0
    refine (powmod_modEq _ _ _).trans ?_
    rw [hn, add_comm]
    exact one_add_pow_modEq p q (p - 1)
  have hcop : IsCoprime (((p - 1 : Nat) : Int) * q) (p : Int) := by
    apply IsCoprime.mul_left
    · rw [Nat.cast_sub hp.one_lt.le]
      exact ⟨-1, 1, by push_cast; ring⟩
    · exact (Nat.isCoprime_iff_coprime).mpr ((Nat.coprime_primes hq hp).mpr (Ne.symm hpq))
  have hcop2 : IsCoprime (lFunc (powmod (k.n + 1) (p - 1) ((p : Int) * p)) p) (p : Int) := by
    obtain ⟨t, ht⟩ := Int.modEq_iff_dvd.mp hg
    rw [show lFunc (powmod (k.n + 1) (p - 1) ((p : Int) * p)) p
      = ((p - 1 : Nat) : Int) * q + (p : Int) * (-t) by linarith]
    exact hcop.add_mul_left_left _
  obtain ⟨h, hok, hmod, _⟩ := invert_ok _ _ hp1 (Int.isCoprime_iff_gcd_eq_one.mp hcop2)
  refine ⟨h, ?_, hmod⟩
  unfold hFunc PubKey.g
  rw [show ((p : Int) - 1).toNat = p - 1 by omega]
  exact hok

/-- What the private-key constructor establishes. -/
structure Good (sk : PrivKey) (p q : Nat) : Prop where
  hp : p.Prime
  hq : q.Prime
  hpq : p ≠ q
  ep : sk.p = p
  eq : sk.q = q
  en : sk.pk.n = p * q
  einv : sk.q * sk.qInverse ≡ 1 [ZMOD p]
  ehp : lFunc (powmod (sk.pk.n + 1) (p - 1) ((p : Int) * p)) p * sk.hp ≡ 1 [ZMOD p]
  ehq : lFunc (powmod (sk.pk.n + 1) (q - 1) ((q : Int) * q)) q * sk.hq ≡ 1 [ZMOD q]

theorem new_ordered {p q : Nat} (hp : p.Prime) (hq : q.Prime) (hpq : p ≠ q) :
    ∃ qi h1 h2, invert (q : Int) p = .ok qi ∧
      hFunc ⟨(p : Int) * q⟩ p ((p : Int) * p) = .ok h1 ∧
      hFunc ⟨(p : Int) * q⟩ q ((q : Int) * q) = .ok h2 ∧
      Good ⟨⟨(p : Int) * q⟩, p, q, qi, h1, h2⟩ p q := by
  have hp1 : (1 : Int) < p := by exact_mod_cast hp.one_lt
  have hc : IsCoprime (q : Int) (p : Int) :=
    (Nat.isCoprime_iff_coprime).mpr ((Nat.coprime_primes hq hp).mpr (Ne.symm hpq))
  obtain ⟨qi, hqi, hqim, _⟩ := invert_ok (q : Int) p hp1 (Int.isCoprime_iff_gcd_eq_one.mp hc)
  obtain ⟨h1, hh1, hm1⟩ := hFunc_ok hp hq hpq ⟨(p : Int) * q⟩ rfl
  obtain ⟨h2, hh2, hm2⟩ := hFunc_ok hq hp (Ne.symm hpq) ⟨(p : Int) * q⟩ (by simp [mul_comm])
  exact ⟨qi, h1, h2, hqi, hh1, hh2, ⟨hp, hq, hpq, rfl, rfl, rfl, hqim, hm1, hm2⟩⟩

/-- The constructor succeeds for every pair of distinct primes, in either order. -/
theorem new_ok {p q : Nat} (hp : p.Prime) (hq : q.Prime) (hpq : p ≠ q) :
    ∃ sk, PrivKey.new ⟨(p : Int) * q⟩ p q = .ok sk ∧ sk.pk.n = p * q ∧
      (Good sk p q ∨ Good sk q p) := by
  unfold PrivKey.new
  rw [if_neg (by simp), if_neg (by exact_mod_cast hpq)]
  by_cases h : (q : Int) < p
  · rw [if_pos h]
    obtain ⟨qi, h1, h2, e1, e2, e3, hg⟩ := new_ordered hq hp (Ne.symm hpq)
    rw [mul_comm] at e2 e3 hg
    simp only [bind, Except.bind, e1, e2, e3]
    exact ⟨_, rfl, rfl, Or.inr hg⟩
  · rw [if_neg h]
    obtain ⟨qi, h1, h2, e1, e2, e3, hg⟩ := new_ordered hp hq hpq
    simp only [bind, Except.bind, e1, e2, e3]
    exact ⟨_, rfl, rfl, Or.inl hg⟩

/-- **Decryption of any encryption of `m` is `m mod n`.** -/
theorem rawDecrypt_isEnc {sk : PrivKey} {p q : Nat} (hg : Good sk p q) {m c : Int}
    (hc : IsEnc sk.pk.n m c) : rawDecrypt sk c = m % sk.pk.n := by
  have hp0 : (0 : Int) < p := by exact_mod_cast hg.hp.pos
  have hq0 : (0 : Int) < q := by exact_mod_cast hg.hq.pos
  have h1 := half_decrypt hg.hp hg.en hc hg.ehp
  have h2 := half_decrypt (p := q) (q := p) hg.hq (by rw [hg.en, mul_comm]) hc hg.ehq
  unfold rawDecrypt crt
  rw [hg.ep, hg.eq]
  rw [show ((p : Int) - 1).toNat = p - 1 by omega, show ((q : Int) - 1).toNat = q - 1 by omega]
  simp only
  obtain ⟨mp, hmp⟩ : ∃ mp, mp = lFunc (powmod c (p - 1) ((p : Int) * p)) p * sk.hp % p := ⟨_, rfl⟩
  obtain ⟨mq, hmq⟩ : ∃ mq, mq = lFunc (powmod c (q - 1) ((q : Int) * q)) q * sk.hq % q := ⟨_, rfl⟩
  rw [← hmp, ← hmq]
  have e1 : mp ≡ m [ZMOD p] := by rw [hmp]; exact (Int.mod_modEq _ _).trans h1
  have e2 : mq ≡ m [ZMOD q] := by rw [hmq]; exact (Int.mod_modEq _ _).trans h2
  have key : mq + (mp - mq) * sk.qInverse % p * q ≡ m [ZMOD (p : Int) * q] := by
    apply (Int.modEq_and_modEq_iff_modEq_mul ?_).mp
    · constructor
      · have a1 : (mp - mq) * sk.qInverse % p * q ≡ (mp - mq) * sk.qInverse * q [ZMOD p] :=
          (Int.mod_modEq _ _).mul_right _
        have a2 : (mp - mq) * sk.qInverse * q ≡ (mp - mq) * 1 [ZMOD p] := by
          rw [mul_assoc]
          apply Int.ModEq.mul_left
          have := hg.einv
          rw [hg.eq] at this
          rwa [mul_comm]
        have a3 := (a1.trans a2).add_left mq
        rw [show mq + (mp - mq) * 1 = mp by ring] at a3
        exact a3.trans e1
      · refine Int.ModEq.trans ?_ e2
        exact Int.modEq_iff_dvd.mpr ⟨-((mp - mq) * sk.qInverse % p), by ring⟩
    · simpa using (Nat.coprime_primes hg.hp hg.hq).mpr hg.hpq
  rw [hg.en]
  exact key

theorem powmod_congr {a a' : Int} {b : Nat} {c : Int} (hc : 1 < c) (h : a ^ b ≡ a' ^ b [ZMOD c]) :
    powmod a b c = powmod a' b c := by
  obtain ⟨h1, h2⟩ := powmod_range a b c hc
  obtain ⟨h3, h4⟩ := powmod_range a' b c hc
  have := ((powmod_modEq a b c).trans h).trans (powmod_modEq a' b c).symm
  unfold Int.ModEq at this
  rwa [Int.emod_eq_of_lt h1 h2, Int.emod_eq_of_lt h3 h4] at this

theorem obfuscate_half {p q : Nat} (hp : p.Prime) {n c r : Int} (hn : n = p * q)
    (hr : IsCoprime r n) :
    powmod (c * powmod r n.toNat (n * n) % (n * n)) (p - 1) ((p : Int) * p)
      = powmod c (p - 1) ((p : Int) * p) := by
  have hp1 : (1 : Int) < p := by exact_mod_cast hp.one_lt
  apply powmod_congr (by nlinarith)
  have hdvd : ((p : Int) * p) ∣ n * n := by
    rw [hn]; exact ⟨q * q, by ring⟩
  have h1 : c * powmod r n.toNat (n * n) % (n * n) ≡ c * r ^ n.toNat [ZMOD (p : Int) * p] :=
    ((Int.mod_modEq _ _).trans ((powmod_modEq _ _ _).mul_left c)).of_dvd hdvd
  refine (h1.pow (p - 1)).trans ?_
  rw [mul_pow]
  have hrp : IsCoprime r (p : Int) := by
    rw [hn] at hr; exact hr.of_mul_right_left
  have hpow : (r ^ n.toNat) ^ (p - 1) ≡ 1 [ZMOD (p : Int) * p] := by
    have : n.toNat = p * q := by rw [hn]; exact_mod_cast Int.toNat_natCast (p * q)
    rw [this, ← pow_mul, show p * q * (p - 1) = p * (p - 1) * q by ring, pow_mul]
    simpa using (unit_pow_modEq hp hrp).pow q
  simpa using hpow.mul_left (c ^ (p - 1))

theorem rawDecrypt_obfuscate {sk : PrivKey} {p q : Nat} (hg : Good sk p q) (c r : Int)
    (hr : IsCoprime r sk.pk.n) :
    rawDecrypt sk (applyObfuscator sk.pk c none r) = rawDecrypt sk c := by
  have hp0 : (0 : Int) < p := by exact_mod_cast hg.hp.pos
  have hq0 : (0 : Int) < q := by exact_mod_cast hg.hq.pos
  unfold rawDecrypt applyObfuscator PubKey.nsquare
  rw [hg.ep, hg.eq]
  rw [show ((p : Int) - 1).toNat = p - 1 by omega, show ((q : Int) - 1).toNat = q - 1 by omega]
  simp only
  rw [obfuscate_half hg.hp hg.en hr,
    obfuscate_half (p := q) (q := p) hg.hq (by rw [hg.en, mul_comm]) hr]

/-! ### The operations of the public API on encryptions -/

theorem six_le {p q : Nat} (hp : p.Prime) (hq : q.Prime) (hpq : p ≠ q) : 6 ≤ p * q := by
  have h1 := hp.two_le
  have h2 := hq.two_le
  rcases Nat.lt_or_gt_of_ne hpq with h | h
  · have : 3 ≤ q := by omega
    calc 6 = 2 * 3 := rfl
      _ ≤ p * q := Nat.mul_le_mul h1 this
  · have : 3 ≤ p := by omega
    calc 6 = 3 * 2 := rfl
      _ ≤ p * q := Nat.mul_le_mul this h2

theorem applyObfuscator_isEnc {k : PubKey} {m c : Int} (h : IsEnc k.n m c) (rv : Option Int)
    (draw : Int) (hr : IsCoprime (match rv with
      | some v => if v = 0 then draw else v
      | none => draw) k.n) : IsEnc k.n m (applyObfuscator k c rv draw) := by
  unfold applyObfuscator
  refine (h.obfuscate hr).of_modEq ?_
  refine (Int.mod_modEq _ _).trans ?_
  exact (powmod_modEq _ _ _).mul_left c

theorem rawEncrypt_isEnc (k : PubKey) (hn : 1 < k.n) (m : Int) (rv : Option Int) (draw : Int)
    (hr : IsCoprime (match rv with
      | some v => if v = 0 then draw else v
      | none => draw) k.n) :
    ∃ c, rawEncrypt k m rv draw = .ok c ∧ IsEnc k.n m c := by
  unfold rawEncrypt
  have hsq : (1 : Int) < k.nsquare := by unfold PubKey.nsquare; nlinarith
  by_cases hc : m ≥ k.n - k.maxInt ∧ m < k.n
  · rw [if_pos hc]
    have hneg : IsEnc k.n (k.n - m) ((k.n * (k.n - m) + 1) % k.nsquare) :=
      (IsEnc.plain k.n (k.n - m)).of_modEq (Int.mod_modEq _ _)
    have hcop := hneg.coprime
    obtain ⟨x, hx, hmod, _⟩ := invert_ok _ k.nsquare hsq (Int.isCoprime_iff_gcd_eq_one.mp hcop)
    simp only [bind, Except.bind, hx]
    refine ⟨_, rfl, applyObfuscator_isEnc ?_ rv draw hr⟩
    refine (hneg.inv hmod).congr ?_
    exact Int.modEq_iff_dvd.mpr ⟨1, by ring⟩
  · rw [if_neg hc]
    simp only [bind, Except.bind]
    refine ⟨_, rfl, applyObfuscator_isEnc ?_ rv draw hr⟩
    exact (IsEnc.plain k.n m).of_modEq (Int.mod_modEq _ _)

theorem window (n : Int) (hn : 0 < n) : 2 * (n / 3 - 1) < n := by omega

theorem encrypt_isEnc (k : PubKey) (hn : 1 < k.n) (s : Scalar) (rv : Option Int) (draw : Int)
    (hd : IsCoprime draw k.n) (hrv : ∀ v, rv = some v → v ≠ 0 → IsCoprime v k.n)
    {f : FP.Num} (hf : FP.encode s k.n k.maxInt none = .ok f) :
    ∃ X, encrypt k s rv draw = .ok X ∧ X.pk = k ∧ X.exponent = f.exponent ∧
      ∃ i, mantissa f = .ok i ∧ IsEnc k.n i X.cipher := by
  obtain ⟨e, i, _, _, _, hfe, hfn, _, henc, hm, _⟩ :=
    encode_decode s k.n k.maxInt (window k.n (by omega)) none f hf
  unfold encrypt
  rw [hf]
  simp only [bind, Except.bind]
  have hmod : f.encoding ≡ i [ZMOD k.n] := by rw [henc]; exact Int.mod_modEq _ _
  cases rv with
  | none =>
    simp only
    obtain ⟨c, hc, henc'⟩ := rawEncrypt_isEnc k hn f.encoding (some 1) draw
      (by simpa using isCoprime_one_left)
    rw [hc]
    refine ⟨_, rfl, rfl, rfl, i, hm, ?_⟩
    exact applyObfuscator_isEnc (henc'.congr hmod) none draw hd
  | some v =>
    simp only
    have hne : (if v = 0 then (1 : Int) else v) ≠ 0 := by split <;> simp_all
    have hcop : IsCoprime (if v = 0 then (1 : Int) else v) k.n := by
      split
      · exact isCoprime_one_left
      · exact hrv v rfl (by assumption)
    obtain ⟨c, hc, henc'⟩ := rawEncrypt_isEnc k hn f.encoding
      (some (if v = 0 then 1 else v)) draw (by simp only; rw [if_neg hne]; exact hcop)
    rw [hc]
    exact ⟨_, rfl, rfl, rfl, i, hm, henc'.congr hmod⟩

theorem mul_isEnc (X : EncNum) (hn : 1 < X.pk.n) {m : Int} (h : IsEnc X.pk.n m X.cipher)
    (s : Scalar) {f : FP.Num} (hf : FP.encode s X.pk.n X.pk.maxInt none = .ok f) :
    ∃ Y, mul X s = .ok Y ∧ Y.pk = X.pk ∧ Y.exponent = X.exponent + f.exponent ∧
      ∃ i, mantissa f = .ok i ∧ IsEnc X.pk.n (m * i) Y.cipher := by
  obtain ⟨e, i, _, _, hle, hfe, hfn, _, henc, hm, _⟩ :=
    encode_decode s X.pk.n X.pk.maxInt (window X.pk.n (by omega)) none f hf
  have hmod : f.encoding ≡ i [ZMOD X.pk.n] := by rw [henc]; exact Int.mod_modEq _ _
  have hlo : 0 ≤ f.encoding := by rw [henc]; exact Int.emod_nonneg _ (by omega)
  have hhi : f.encoding < X.pk.n := by rw [henc]; exact Int.emod_lt_of_pos _ (by omega)
  have hsq : (1 : Int) < X.pk.nsquare := by unfold PubKey.nsquare; nlinarith
  unfold mul
  rw [hf]
  simp only [bind, Except.bind]
  rw [if_neg (by omega)]
  by_cases hc : f.encoding ≥ X.pk.n - X.pk.maxInt
  · rw [if_pos hc]
    obtain ⟨x, hx, hxm, _⟩ := invert_ok X.cipher X.pk.nsquare hsq
      (Int.isCoprime_iff_gcd_eq_one.mp h.coprime)
    rw [hx]
    refine ⟨_, rfl, rfl, rfl, i, hm, ?_⟩
    have h1 := ((h.inv hxm).pow (X.pk.n - f.encoding).toNat).of_modEq
      (powmod_modEq x (X.pk.n - f.encoding).toNat X.pk.nsquare)
    refine h1.congr ?_
    rw [Int.toNat_of_nonneg (by omega)]
    obtain ⟨t, ht⟩ := Int.modEq_iff_dvd.mp hmod
    refine Int.modEq_iff_dvd.mpr ⟨m * t + m, ?_⟩
    rw [show i = f.encoding + X.pk.n * t by linarith]
    ring
  · rw [if_neg hc]
    refine ⟨_, rfl, rfl, rfl, i, hm, ?_⟩
    have h1 := (h.pow f.encoding.toNat).of_modEq
      (powmod_modEq X.cipher f.encoding.toNat X.pk.nsquare)
    refine h1.congr ?_
    rw [Int.toNat_of_nonneg hlo, mul_comm]
    exact hmod.mul_left m

theorem mul_error (X : EncNum) (s : Scalar) {err : PyErr}
    (hf : FP.encode s X.pk.n X.pk.maxInt none = .error err) : mul X s = .error err := by
  unfold mul; rw [hf]; rfl

theorem encode_int_ok (z n M : Int) (hz : |z| ≤ M) :
    FP.encode (.int z) n M none = .ok ⟨z % n, 0, n, M⟩ := by
  have hval : roundEven ((flush (.int z)).val * (16 : Rat) ^ (0 : Int)) = z := by
    rw [flush_int]; simp only [Scalar.val, zpow_zero, mul_one]; exact roundEven_intCast z
  rw [encode_ok_iff]
  refine ⟨0, ?_, ?_, ?_⟩
  · rw [flush_int]; rfl
  · rw [hval]; exact hz
  · rw [hval]

theorem encode_int_error (z n M : Int) (hz : M < |z|) :
    FP.encode (.int z) n M none = .error .valueError := by
  have hval : roundEven ((flush (.int z)).val * (16 : Rat) ^ (0 : Int)) = z := by
    rw [flush_int]; simp only [Scalar.val, zpow_zero, mul_one]; exact roundEven_intCast z
  unfold FP.encode
  simp only [bind, Except.bind]
  have : chooseExp (flush (.int z)) none = .ok 0 := by rw [flush_int]; rfl
  rw [this]
  simp only [hval]
  rw [if_pos hz]

/-- Multiplying by an integer in range. -/
theorem mul_int_isEnc (X : EncNum) (hn : 1 < X.pk.n) {m : Int} (h : IsEnc X.pk.n m X.cipher)
    (z : Int) (hz : |z| ≤ X.pk.maxInt) :
    ∃ Y, mul X (.int z) = .ok Y ∧ Y.pk = X.pk ∧ Y.exponent = X.exponent ∧
      IsEnc X.pk.n (m * z) Y.cipher := by
  have hf := encode_int_ok z X.pk.n X.pk.maxInt hz
  obtain ⟨Y, hY, hpk, hexp, i, hi, henc⟩ := mul_isEnc X hn h (.int z) hf
  rw [mantissa_mod z X.pk.n X.pk.maxInt 0 (window X.pk.n (by omega)) hz] at hi
  cases hi
  exact ⟨Y, hY, hpk, by simpa using hexp, henc⟩

theorem increaseExponentTo_isEnc (X : EncNum) (hn : 1 < X.pk.n) {m : Int}
    (h : IsEnc X.pk.n m X.cipher) (e : Int) (he : X.exponent ≤ e)
    (hgap : (16 : Int) ^ (e - X.exponent).toNat ≤ X.pk.maxInt) :
    ∃ Y, increaseExponentTo X e = .ok Y ∧ Y.pk = X.pk ∧ Y.exponent = e ∧
      IsEnc X.pk.n (m * 16 ^ (e - X.exponent).toNat) Y.cipher := by
  obtain ⟨Y, hY, hpk, _, henc⟩ := mul_int_isEnc X hn h (16 ^ (e - X.exponent).toNat)
    (by rw [abs_of_pos (by positivity)]; exact hgap)
  unfold increaseExponentTo
  rw [if_neg (by omega), hY]
  exact ⟨_, rfl, hpk, rfl, henc⟩

theorem increaseExponentTo_error (X : EncNum) (e : Int) (he : X.exponent ≤ e)
    (hgap : X.pk.maxInt < (16 : Int) ^ (e - X.exponent).toNat) :
    increaseExponentTo X e = .error .valueError := by
  unfold increaseExponentTo
  rw [if_neg (by omega), mul_error X _ (encode_int_error _ _ _
    (by rw [abs_of_pos (by positivity)]; exact hgap))]
  rfl

/-- The exponent gap can be bridged. -/
def GapOk (n e1 e2 : Int) : Prop := e1 = e2 ∨ (16 : Int) ^ (max e1 e2 - min e1 e2).toNat ≤ n / 3 - 1

instance (n e1 e2 : Int) : Decidable (GapOk n e1 e2) := by unfold GapOk; infer_instance

theorem align_isEnc (X Y : EncNum) (hpk : X.pk = Y.pk) (hn : 1 < X.pk.n) {mx my : Int}
    (hx : IsEnc X.pk.n mx X.cipher) (hy : IsEnc Y.pk.n my Y.cipher)
    (hgap : GapOk X.pk.n X.exponent Y.exponent) :
    ∃ X' Y', align X Y = .ok (X', Y') ∧ X'.exponent = max X.exponent Y.exponent ∧
      IsEnc X.pk.n (mx * 16 ^ (max X.exponent Y.exponent - X.exponent).toNat) X'.cipher ∧
      IsEnc X.pk.n (my * 16 ^ (max X.exponent Y.exponent - Y.exponent).toNat) Y'.cipher := by
  unfold align
  by_cases h1 : X.exponent < Y.exponent
  · rw [if_pos h1]
    have hg : (16 : Int) ^ (Y.exponent - X.exponent).toNat ≤ X.pk.maxInt := by
      rcases hgap with h | h
      · omega
      · rwa [max_eq_right h1.le, min_eq_left h1.le] at h
    obtain ⟨X', h', hpk', hexp, henc⟩ := increaseExponentTo_isEnc X hn hx Y.exponent h1.le hg
    rw [h']
    refine ⟨X', Y, rfl, by rw [hexp]; omega, ?_, ?_⟩
    · rw [max_eq_right h1.le]; exact henc
    · rw [max_eq_right h1.le]; simp; rw [hpk]; exact hy
  · rw [if_neg h1]
    by_cases h2 : X.exponent > Y.exponent
    · rw [if_pos h2]
      have hg : (16 : Int) ^ (X.exponent - Y.exponent).toNat ≤ Y.pk.maxInt := by
        rcases hgap with h | h
        · omega
        · rw [max_eq_left (le_of_lt h2), min_eq_right (le_of_lt h2)] at h
          rw [← hpk]; exact h
      obtain ⟨Y', h', hpk', hexp, henc⟩ :=
        increaseExponentTo_isEnc Y (by rw [← hpk]; exact hn) hy X.exponent (le_of_lt h2) hg
      rw [h']
      refine ⟨X, Y', rfl, by omega, ?_, ?_⟩
      · rw [max_eq_left (le_of_lt h2)]; simpa using hx
      · rw [max_eq_left (le_of_lt h2), hpk]; exact henc
    · rw [if_neg h2]
      have e : X.exponent = Y.exponent := by omega
      refine ⟨X, Y, rfl, by omega, ?_, ?_⟩
      · rw [e]; simpa using hx
      · rw [e, hpk]; simpa using hy

theorem align_error (X Y : EncNum) (hpk : X.pk = Y.pk)
    (hgap : ¬ GapOk X.pk.n X.exponent Y.exponent) : align X Y = .error .valueError := by
  unfold GapOk at hgap
  rw [not_or] at hgap
  obtain ⟨hne, hg⟩ := hgap
  unfold align
  by_cases h1 : X.exponent < Y.exponent
  · rw [if_pos h1, increaseExponentTo_error X _ h1.le]
    · rfl
    · rw [max_eq_right h1.le, min_eq_left h1.le] at hg
      exact not_le.mp hg
  · have h2 : X.exponent > Y.exponent := by omega
    rw [if_neg h1, if_pos h2, increaseExponentTo_error Y _ (le_of_lt h2)]
    · rfl
    · rw [max_eq_left (le_of_lt h2), min_eq_right (le_of_lt h2)] at hg
      rw [← hpk]; exact not_le.mp hg

theorem add_isEnc (X Y : EncNum) (hpk : X.pk = Y.pk) (hn : 1 < X.pk.n) {mx my : Int}
    (hx : IsEnc X.pk.n mx X.cipher) (hy : IsEnc Y.pk.n my Y.cipher)
    (hgap : GapOk X.pk.n X.exponent Y.exponent) :
    ∃ Z, add X Y = .ok Z ∧ Z.pk = X.pk ∧ Z.exponent = max X.exponent Y.exponent ∧
      IsEnc X.pk.n (mx * 16 ^ (max X.exponent Y.exponent - X.exponent).toNat
        + my * 16 ^ (max X.exponent Y.exponent - Y.exponent).toNat) Z.cipher := by
  obtain ⟨X', Y', hal, hexp, h1, h2⟩ := align_isEnc X Y hpk hn hx hy hgap
  unfold add
  rw [if_neg (by simp [hpk]), hal]
  exact ⟨_, rfl, rfl, hexp, (h1.mul h2).of_modEq (Int.mod_modEq _ _)⟩

theorem add_error (X Y : EncNum) (hpk : X.pk = Y.pk)
    (hgap : ¬ GapOk X.pk.n X.exponent Y.exponent) : add X Y = .error .valueError := by
  unfold add
  rw [if_neg (by simp [hpk]), align_error X Y hpk hgap]; rfl

theorem addScalar_isEnc (X : EncNum) (hn : 1 < X.pk.n) {m : Int} (h : IsEnc X.pk.n m X.cipher)
    (s : Scalar) {f : FP.Num}
    (hf : FP.encode s X.pk.n X.pk.maxInt (some X.exponent) = .ok f)
    (hgap : GapOk X.pk.n X.exponent f.exponent) :
    ∃ Z i, addScalar X s = .ok Z ∧ Z.pk = X.pk ∧ Z.exponent = f.exponent ∧
      X.exponent ≤ f.exponent ∧ mantissa f = .ok i ∧
      IsEnc X.pk.n (m * 16 ^ (f.exponent - X.exponent).toNat + i) Z.cipher := by
  obtain ⟨e, i, he, _, _, hfe, hfn, _, henc, hm, _⟩ :=
    encode_decode s X.pk.n X.pk.maxInt (window X.pk.n (by omega)) (some X.exponent) f hf
  have hle : X.exponent ≤ f.exponent := by rw [hfe]; exact chooseExp_ge_max he
  have hmod : f.encoding ≡ i [ZMOD X.pk.n] := by rw [henc]; exact Int.mod_modEq _ _
  obtain ⟨c, hc, hcenc⟩ := rawEncrypt_isEnc X.pk hn f.encoding (some 1) 1
    (by simpa using isCoprime_one_left)
  unfold addScalar
  rw [hf]
  simp only [bind, Except.bind]
  unfold addFix
  rw [if_neg (by simp [hfn])]
  unfold alignFix
  by_cases h1 : X.exponent < f.exponent
  · rw [if_pos h1]
    have hg : (16 : Int) ^ (f.exponent - X.exponent).toNat ≤ X.pk.maxInt := by
      rcases hgap with h | h
      · omega
      · rwa [max_eq_right h1.le, min_eq_left h1.le] at h
    obtain ⟨X', h', hpk', hexp, henc'⟩ := increaseExponentTo_isEnc X hn h f.exponent h1.le hg
    rw [h']
    simp only [bind, Except.bind]
    rw [hpk', hc]
    exact ⟨_, i, rfl, rfl, hexp, hle, hm,
      (henc'.mul (hcenc.congr hmod)).of_modEq (Int.mod_modEq _ _)⟩
  · have e' : X.exponent = f.exponent := by omega
    rw [if_neg h1, if_neg (by omega)]
    simp only [bind, Except.bind]
    rw [hc]
    refine ⟨_, i, rfl, rfl, e', hle, hm, ?_⟩
    rw [e']
    simp only [sub_self, Int.toNat_zero, pow_zero, mul_one]
    exact (h.mul (hcenc.congr hmod)).of_modEq (Int.mod_modEq _ _)

theorem addScalar_error_gap (X : EncNum) (hn : 0 < X.pk.n)
    (s : Scalar) {f : FP.Num}
    (hf : FP.encode s X.pk.n X.pk.maxInt (some X.exponent) = .ok f)
    (hgap : ¬ GapOk X.pk.n X.exponent f.exponent) : addScalar X s = .error .valueError := by
  obtain ⟨e, i, he, _, _, hfe, hfn, _, henc, hm, _⟩ :=
    encode_decode s X.pk.n X.pk.maxInt (window X.pk.n (by omega)) (some X.exponent) f hf
  have hle : X.exponent ≤ f.exponent := by rw [hfe]; exact chooseExp_ge_max he
  unfold GapOk at hgap
  rw [not_or] at hgap
  obtain ⟨hne, hg⟩ := hgap
  unfold addScalar
  rw [hf]
  simp only [bind, Except.bind]
  unfold addFix
  rw [if_neg (by simp [hfn])]
  unfold alignFix
  have h1 : X.exponent < f.exponent := by omega
  rw [max_eq_right h1.le, min_eq_left h1.le] at hg
  rw [if_pos h1, increaseExponentTo_error X _ h1.le (not_le.mp hg)]
  rfl

theorem addScalar_error (X : EncNum) (s : Scalar) {err : PyErr}
    (hf : FP.encode s X.pk.n X.pk.maxInt (some X.exponent) = .error err) :
    addScalar X s = .error err := by
  unfold addScalar; rw [hf]; rfl

/-- Decrypting an encryption of an in-range mantissa. -/
theorem decrypt_isEnc {sk : PrivKey} {p q : Nat} (hg : Good sk p q) (X : EncNum)
    (hpk : X.pk = sk.pk) {m : Int} (h : IsEnc X.pk.n m X.cipher) (hm : |m| ≤ X.pk.maxInt) :
    decrypt sk X = .ok (scale m X.exponent) := by
  unfold decrypt
  rw [if_neg (by simp [hpk])]
  unfold EncNum.ciphertext
  simp only [Bool.false_and]
  rw [decode_ok_iff]
  refine ⟨m, ?_, rfl⟩
  simp only [Bool.false_eq_true, if_false]
  rw [hpk] at h hm
  rw [rawDecrypt_isEnc hg h]
  have hn : 0 < sk.pk.n := by
    have := six_le hg.hp hg.hq hg.hpq
    rw [hg.en]; exact_mod_cast (by omega : 0 < p * q)
  exact mantissa_mod m _ _ _ (window _ hn) hm

/-- Decrypting an encryption of a mantissa out of range, within twice the range. -/
theorem decrypt_overflow {sk : PrivKey} {p q : Nat} (hg : Good sk p q) (X : EncNum)
    (hpk : X.pk = sk.pk) {m : Int} (h : IsEnc X.pk.n m X.cipher) (hm : X.pk.maxInt < |m|)
    (hm2 : |m| ≤ 2 * X.pk.maxInt) :
    decrypt sk X = .error .overflow := by
  unfold decrypt
  rw [if_neg (by simp [hpk])]
  unfold EncNum.ciphertext
  simp only [Bool.false_and, Bool.false_eq_true, if_false]
  unfold decode
  rw [hpk] at h hm hm2
  rw [rawDecrypt_isEnc hg h]
  have hn : 0 < sk.pk.n := by
    have := six_le hg.hp hg.hq hg.hpq
    rw [hg.en]; exact_mod_cast (by omega : 0 < p * q)
  rw [mantissa_mod_overflow m _ _ _ (by unfold PubKey.maxInt; omega) hm hm2]
  rfl

end Paillier
end Verif
