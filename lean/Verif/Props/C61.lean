import Verif.Lemmas.Cosets
import Verif.Model.EncHistogram
import Verif.Model.Splitter
import Verif.Props.C59

/-!
# C61: what can be learnt from a ciphertext

Without the private key one sees public key, ciphertext, exponent and flag of an encrypted number.
-/

set_option autoImplicit false

namespace Verif

open Paillier Spec KeyGen
open FP (Scalar)

private theorem run_isEnc {p q : Nat} {sk : PrivKey} (hk : KeyPair p q sk) {e : Expr}
    (hu : e.Usable sk.pk.n) {X : EncNum} (h : e.run sk.pk = .ok X) :
    X.pk = sk.pk ∧ 1 < sk.pk.n ∧ ∃ m, IsEnc sk.pk.n m X.cipher ∧ rawDecrypt sk X.cipher = m % sk.pk.n := by
  obtain ⟨_, h6, p', q', hg⟩ := aux10_good hk
  have := aux11_sim sk.pk h6 e hu
  rw [h] at this
  cases hp : e.plain sk.pk.n with
  | none => rw [hp] at this; exact this.elim
  | some w =>
    rw [hp] at this
    obtain ⟨_, hpk, m, hm, _⟩ := this
    exact ⟨hpk, by omega, m, hm, rawDecrypt_isEnc hg hm⟩

/-- Encrypting is obfuscating a ciphertext that does not depend on the random number. -/
private theorem encrypt_as (k : PubKey) (v : Scalar) {d : Int} {Y : EncNum}
    (h : encrypt k v none d = .ok Y) :
    ∃ B, encrypt k v (some 1) d = .ok B ∧ B.pk = k ∧ B.exponent = Y.exponent ∧
      ∀ r, encrypt k v none r = .ok (B.obfuscate r) := by
  unfold encrypt at h ⊢
  cases hf : FP.encode v k.n k.maxInt none with
  | error e => rw [hf] at h; cases h
  | ok f =>
    rw [hf] at h
    simp only [bind, Except.bind] at h ⊢
    have hr : ∀ r, rawEncrypt k f.encoding (some 1) r = rawEncrypt k f.encoding (some 1) d := by
      intro r
      unfold rawEncrypt applyObfuscator
      simp
    simp only [if_neg (show (1 : Int) ≠ 0 by decide)]
    cases hc : rawEncrypt k f.encoding (some 1) d with
    | error e => rw [hc] at h; cases h
    | ok c =>
      rw [hc] at h
      simp only [Except.ok.injEq] at h
      subst h
      exact ⟨⟨k, c, f.exponent, false⟩, rfl, rfl, rfl, fun r => by rw [hr r, hc]⟩

/-- **A refreshed result does not show where it comes from.**  However two encrypted numbers were
computed – any encryptions, sums, products, differences – if they hold the same plaintext with the
same exponent, then obfuscating them again yields every object equally often. -/
theorem C61_refresh (p q : Nat) (sk : PrivKey) (hk : KeyPair p q sk) (a b : Expr)
    (ha : a.Usable sk.pk.n) (hb : b.Usable sk.pk.n) (X Y : EncNum) (hX : a.run sk.pk = .ok X)
    (hY : b.run sk.pk = .ok Y) (he : X.exponent = Y.exponent)
    (hp : rawDecrypt sk X.cipher = rawDecrypt sk Y.cipher) (Z : EncNum) :
    frequency sk.pk.n (fun r => .ok (X.obfuscate r)) Z =
      frequency sk.pk.n (fun r => .ok (Y.obfuscate r)) Z := by
  obtain ⟨x1, hn, m, x2, x3⟩ := run_isEnc hk ha hX
  obtain ⟨y1, _, m', y2, y3⟩ := run_isEnc hk hb hY
  have hm : m' ≡ m [ZMOD sk.pk.n] := by
    unfold Int.ModEq; rw [← y3, ← x3, hp]
  have e1 := frequency_obfuscate X (by rw [x1]; exact hn) Z
  have e2 := frequency_obfuscate Y (by rw [y1]; exact hn) Z
  rw [x1] at e1
  rw [y1] at e2
  rw [e1, e2, he, fibre_same hn x2 (y2.congr hm)]

/-- ... and exactly as often as a fresh encryption of that plaintext. -/
theorem C61_like_fresh (p q : Nat) (sk : PrivKey) (hk : KeyPair p q sk) (a : Expr)
    (ha : a.Usable sk.pk.n) (X : EncNum) (hX : a.run sk.pk = .ok X) (v : Scalar) (d : Int)
    (hd : Usable sk d) (Y : EncNum) (hY : encrypt sk.pk v none d = .ok Y)
    (he : X.exponent = Y.exponent) (hp : rawDecrypt sk X.cipher = rawDecrypt sk Y.cipher)
    (Z : EncNum) :
    frequency sk.pk.n (fun r => .ok (X.obfuscate r)) Z =
      frequency sk.pk.n (fun r => encrypt sk.pk v none r) Z := by
  obtain ⟨B, b1, b2, b3, b4⟩ := encrypt_as sk.pk v hY
  have hB : (Expr.enc v (some 1) d).run sk.pk = .ok B := b1
  have huB : (Expr.enc v (some 1) d).Usable sk.pk.n :=
    ⟨hd, by intro r hr _; cases hr; exact isCoprime_one_left⟩
  obtain ⟨_, _, p', q', hg⟩ := aux10_good hk
  have hpB : rawDecrypt sk X.cipher = rawDecrypt sk B.cipher := by
    have h1 := b4 d
    rw [hY] at h1
    have h2 : Y.cipher = applyObfuscator sk.pk B.cipher none d := by
      rw [Except.ok.inj h1]
      unfold EncNum.obfuscate
      rw [b2]
    rw [hp, h2, rawDecrypt_obfuscate hg _ _ hd]
  rw [C61_refresh p q sk hk a _ ha huB X B hX hB (by rw [he, b3]) hpB Z]
  unfold frequency
  congr 1
  ext r
  simp only [Finset.mem_filter, b4]

/-- **No ciphertext is more likely than another, for any plaintext**: whatever object can be the
encryption of one number is so for exactly as many random numbers as any object that can be the
encryption of another number. -/
theorem C61_uniform (p q : Nat) (sk : PrivKey) (hk : KeyPair p q sk) (v w : Scalar) (X Y : EncNum)
    (hX : frequency sk.pk.n (fun r => encrypt sk.pk v none r) X ≠ 0)
    (hY : frequency sk.pk.n (fun r => encrypt sk.pk w none r) Y ≠ 0) :
    frequency sk.pk.n (fun r => encrypt sk.pk v none r) X =
      frequency sk.pk.n (fun r => encrypt sk.pk w none r) Y := by
  have main : ∀ (v : Scalar) (X : EncNum),
      frequency sk.pk.n (fun r => encrypt sk.pk v none r) X ≠ 0 →
      ∃ m c, IsEnc sk.pk.n m c ∧
        frequency sk.pk.n (fun r => encrypt sk.pk v none r) X = (fibre sk.pk.n c X.cipher).card := by
    intro v X h
    obtain ⟨d, hd⟩ := Finset.card_ne_zero.mp h
    obtain ⟨hd, hX⟩ := Finset.mem_filter.mp hd
    obtain ⟨_, _, hd⟩ := mem_drawable.mp hd
    obtain ⟨B, b1, b2, b3, b4⟩ := encrypt_as sk.pk v hX
    have hB : (Expr.enc v (some 1) d).run sk.pk = .ok B := b1
    have huB : (Expr.enc v (some 1) d).Usable sk.pk.n :=
      ⟨hd, by intro r hr _; cases hr; exact isCoprime_one_left⟩
    obtain ⟨_, hn, m, hm, _⟩ := run_isEnc hk huB hB
    refine ⟨m, B.cipher, hm, ?_⟩
    have e := frequency_obfuscate B (by rw [b2]; exact hn) X
    have hX' : X = B.obfuscate d := by
      have h1 : encrypt sk.pk v none d = .ok X := hX
      have := b4 d
      rw [h1] at this
      exact Except.ok.inj this
    rw [if_pos (by rw [hX']; exact ⟨rfl, rfl, rfl⟩), b2] at e
    rw [← e]
    unfold frequency
    congr 1
    ext r
    simp only [Finset.mem_filter, b4]
  obtain ⟨_, hn6, _⟩ := aux10_good hk
  obtain ⟨m, c, h1, h2⟩ := main v X hX
  obtain ⟨m', c', h1', h2'⟩ := main w Y hY
  rw [h2] at hX ⊢
  rw [h2'] at hY ⊢
  exact fibre_equal (by omega) h1 h1' hX hY

/-- **The exponent is not hidden**: from the encryption of a float everybody reads off its size, up
to a factor of 16, whatever the key and the random number. -/
theorem C61_exponent_refuted (k : PubKey) (x : Rat) (hx : FP.tiny ≤ |x|) (draw : Int)
    (X : EncNum) (h : encrypt k (.float x) none draw = .ok X) :
    (2 : Rat) ^ (49 - 4 * X.exponent) ≤ |x| ∧ |x| < (2 : Rat) ^ (53 - 4 * X.exponent) := by
  have hx0 : x ≠ 0 := by
    rintro rfl; rw [abs_zero] at hx; exact absurd FP.tiny_pos (not_lt.mpr hx)
  unfold encrypt at h
  cases hf : FP.encode (.float x) k.n k.maxInt none with
  | error e => rw [hf] at h; cases h
  | ok f =>
    rw [hf] at h
    simp only [bind, Except.bind] at h
    split at h
    · cases h
    · cases h
      obtain ⟨e, he, _, rfl⟩ := (FP.encode_ok_iff _ _ _ _ _).mp hf
      rw [FP.flush_float x hx] at he
      have he' : (53 - FP.frexpExp x) / 4 = e := by
        unfold FP.chooseExp at he
        simpa using he
      obtain ⟨h1, h2⟩ := FP.frexp_bounds x hx0
      constructor
      · refine le_trans (zpow_le_zpow_right₀ (by norm_num) ?_) h1
        show 49 - 4 * e ≤ FP.frexpExp x - 1
        omega
      · refine lt_of_lt_of_le h2 (zpow_le_zpow_right₀ (by norm_num) ?_)
        show FP.frexpExp x ≤ 53 - 4 * e
        omega

private theorem coprime_pow {p n : Nat} (hp : p.Prime) (hn : Nat.Coprime n (p - 1)) {a b : Int}
    (ha : IsCoprime a (p : Int)) (hb : IsCoprime b (p : Int)) (h : a ^ n ≡ b ^ n [ZMOD p]) :
    a ≡ b [ZMOD p] := by
  have := Fact.mk hp
  have unit : ∀ {a : Int}, IsCoprime a (p : Int) → (a : ZMod p) ≠ 0 := by
    intro a ha h0
    rw [ZMod.intCast_zmod_eq_zero_iff_dvd] at h0
    have hu := ha.symm.isUnit_of_dvd h0
    rw [Int.isUnit_iff] at hu
    have := hp.one_lt
    omega
  have h' : ((a : ZMod p)) ^ n = (b : ZMod p) ^ n := by
    have := (ZMod.intCast_eq_intCast_iff _ _ p).mpr h
    push_cast at this
    exact this
  set u : ZMod p := (a : ZMod p) / b with hu
  have hu0 : u ≠ 0 := div_ne_zero (unit ha) (unit hb)
  have h1 : u ^ n = 1 := by rw [hu, div_pow, h', div_self (pow_ne_zero _ (unit hb))]
  have h2 : u ^ (p - 1) = 1 := ZMod.pow_card_sub_one_eq_one hu0
  have h3 : u ^ Nat.gcd n (p - 1) = 1 := by
    exact pow_gcd_eq_one.mpr ⟨h1, h2⟩
  rw [Nat.Coprime] at hn
  rw [hn, pow_one] at h3
  rw [← ZMod.intCast_eq_intCast_iff]
  rw [hu, div_eq_one_iff_eq (unit hb)] at h3
  exact h3

/-- **Different random numbers give different ciphertexts**, if neither prime divides the other one
minus 1. -/
theorem C61_one_to_one_partial (p q : Nat) (sk : PrivKey) (hk : KeyPair p q sk)
    (hc : ¬ p ∣ q - 1 ∧ ¬ q ∣ p - 1) (v : Scalar) (r r' : Int)
    (hr : r ∈ drawable sk.pk.n) (hr' : r' ∈ drawable sk.pk.n) (X : EncNum)
    (h : encrypt sk.pk v none r = .ok X) (h' : encrypt sk.pk v none r' = .ok X) : r = r' := by
  obtain ⟨hp, hq, hpq, _⟩ := id hk
  obtain ⟨hpk, h6, _⟩ := aux10_good hk
  have hn : sk.pk.n = (p : Int) * q := by rw [hpk]
  obtain ⟨B, b1, b2, b3, b4⟩ := encrypt_as sk.pk v h
  obtain ⟨_, _, hu⟩ := mem_drawable.mp hr
  obtain ⟨_, _, hu'⟩ := mem_drawable.mp hr'
  have hB : (Expr.enc v (some 1) r).run sk.pk = .ok B := b1
  have huB : (Expr.enc v (some 1) r).Usable sk.pk.n :=
    ⟨hu, by intro r hr _; cases hr; exact isCoprime_one_left⟩
  obtain ⟨_, _, m, hm, _⟩ := run_isEnc hk huB hB
  have e1 : X = B.obfuscate r := by have := b4 r; rw [h] at this; exact Except.ok.inj this
  have e2 : X = B.obfuscate r' := by have := b4 r'; rw [h'] at this; exact Except.ok.inj this
  have k1 := (obfuscate_eq (X := B) (d := X.cipher) (r := r) X.exponent (by rw [b2]; omega) X.pk X.isObfuscator).mp e1.symm
  have k2 := (obfuscate_eq (X := B) (d := X.cipher) (r := r') X.exponent (by rw [b2]; omega) X.pk X.isObfuscator).mp e2.symm
  have he := k1.2.trans k2.2.symm
  rw [b2] at he
  have hpow : r ^ sk.pk.n.toNat ≡ r' ^ sk.pk.n.toNat [ZMOD sk.pk.n * sk.pk.n] := by
    have hd : sk.pk.n * sk.pk.n ∣ B.cipher * (r' ^ sk.pk.n.toNat - r ^ sk.pk.n.toNat) := by
      have := Int.modEq_iff_dvd.mp (show B.cipher * r ^ sk.pk.n.toNat ≡ B.cipher * r' ^ sk.pk.n.toNat [ZMOD sk.pk.n * sk.pk.n] from he)
      rwa [← mul_sub] at this
    exact Int.modEq_iff_dvd.mpr (hm.coprime.symm.dvd_of_dvd_mul_left hd)
  have htn : sk.pk.n.toNat = p * q := by rw [hn, ← Int.natCast_mul, Int.toNat_natCast]
  rw [htn, hn] at hpow
  have cop : ∀ {p q : Nat}, p.Prime → q.Prime → ¬ q ∣ p - 1 → Nat.Coprime (p * q) (p - 1) := by
    intro p q hp hq h
    refine Nat.Coprime.mul_left ?_ ((Nat.Prime.coprime_iff_not_dvd hq).mpr h)
    refine (Nat.Prime.coprime_iff_not_dvd hp).mpr fun hd => ?_
    have := Nat.le_of_dvd (by have := hp.two_le; omega) hd
    have := hp.two_le
    omega
  rw [hn] at hu hu'
  have hmp := coprime_pow hp (cop hp hq hc.2) hu.of_mul_right_left hu'.of_mul_right_left
    (hpow.of_dvd ⟨q * (p * q), by ring⟩)
  have hmq := coprime_pow hq (by rw [mul_comm]; exact cop hq hp hc.1) hu.of_mul_right_right
    hu'.of_mul_right_right (hpow.of_dvd ⟨p * (p * q), by ring⟩)
  refine eq_of_modEq hr hr' ?_
  rw [hn]
  have hco : (p : Int).natAbs.Coprime (q : Int).natAbs := by
    simpa using (Nat.coprime_primes hp hq).mpr hpq
  exact (Int.modEq_and_modEq_iff_modEq_mul hco).mp ⟨hmp, hmq⟩

private theorem not_dvd {p q m : Nat} (hp : p.Prime) (hq : q.Prime) (hm : 2 ≤ m) (h1 : m < p)
    (h2 : q < 4 * m) (hne : q ≠ 2 * p + 1) : ¬ p ∣ q - 1 := by
  rintro ⟨t, ht⟩
  have hq2 := hq.two_le
  have h3 : t < 4 := by
    by_contra hc
    have : p * 4 ≤ p * t := Nat.mul_le_mul_left p (by omega)
    omega
  have hp2 : p % 2 = 1 := hp.eq_two_or_odd.resolve_left (by omega)
  interval_cases t
  · omega
  · have := hq.eq_two_or_odd
    omega
  · omega
  · have := hq.eq_two_or_odd
    omega

/-- Generated keys of at least 4 bits satisfy this condition unless one prime is twice the other
one plus 1. -/
theorem C61_generated (nLength : Int) (hl : 4 ≤ nLength) (draws : List Nat)
    (hr : ∀ r ∈ draws, r < 2 ^ (nLength / 2).toNat) (pk : PubKey) (sk : PrivKey)
    (h : generateKeypair nLength draws = .ok (pk, sk)) :
    ∃ p q, KeyPair p q sk ∧ pk = sk.pk ∧
      (q ≠ 2 * p + 1 → p ≠ 2 * q + 1 → ¬ p ∣ q - 1 ∧ ¬ q ∣ p - 1) := by
  rcases C59_key_partial nLength (by omega) draws hr with h' | ⟨p, q, sk', a1, a2, _, _, a5, a6, a7, a8⟩
  · rw [h] at h'; cases h'
  · rw [h] at a1
    cases a1
    obtain ⟨hp, hq, _⟩ := id a2
    obtain ⟨k, hk⟩ : ∃ k, (nLength / 2).toNat = k + 2 := ⟨(nLength / 2).toNat - 2, by omega⟩
    rw [hk, show k + 2 - 1 = k + 1 from rfl] at a5 a7
    rw [hk] at a6 a8
    have e : 2 ^ (k + 2 + 1) = 4 * 2 ^ (k + 1) := by rw [pow_succ, pow_succ]; ring
    have e2 : 2 ≤ 2 ^ (k + 1) := by rw [pow_succ]; have := Nat.one_le_two_pow (n := k); omega
    exact ⟨p, q, a2, rfl, fun n1 n2 =>
      ⟨not_dvd hp hq e2 a5 (by omega) n1, not_dvd hq hp e2 a7 (by omega) n2⟩⟩

namespace DemoLeak

/-- A host with two samples at one node, in the bins `a` and `b` of its only column. -/
def rows (a b : Nat) : DTable Nat (Binning.SparseVec Binning.Cell × Nat × Nat) :=
  ⟨[(1, (⟨[(0, .bin a)], 1⟩, 1, 7)), (2, (⟨[(0, .bin b)], 1⟩, 1, 7))]⟩

/-- What the host sends to the guest, having received the gradients and hessians `gh`. -/
def sent (a b : Nat) (gh : DTable Nat (EncNum × EncNum)) :
    Except PyErr (List (List (Histogram.Num × Histogram.Num))) := do
  let H ← Histogram.getHistograms Histogram.paillier [[5]] [(0, 0)] (some [true]) [7] (rows a b)
    (Histogram.liftGh gh)
  let s ← DTree.findSplitHost ⟨1/10, 1/1000, 2, 1, id⟩ [true] (.host 0) H
  pure s.2

/-- The numbers in it, if the gradients and hessians are not encrypted. -/
def sums (a b : Nat) (gh : DTable Nat (Rat × Rat)) : Except PyErr (List (List (Rat × Rat))) := do
  let H ← Histogram.getHistograms Histogram.plain [[5]] [(0, 0)] (some [true]) [7] (rows a b) gh
  let s ← DTree.findSplitHost ⟨1/10, 1/1000, 2, 1, id⟩ [true] (.host 0) H
  pure s.2

end DemoLeak

open DemoLeak in
/-- **Sums are sent as they are computed.**  Two hosts whose samples lie in different bins, but with
the same sums of gradients, send different ciphertexts for the same ciphertexts received: so who
keeps the ciphertexts (the guest does) can tell the bins of single samples. -/
theorem C61_sums_refuted :
    ∃ (sk : PrivKey) (x y : EncNum), KeyPair 5 7 sk ∧
      encrypt sk.pk (.int 1) none 4 = .ok x ∧ encrypt sk.pk (.int 1) none 2 = .ok y ∧
      (∃ s t, sent 0 1 ⟨[(1, (x, x)), (2, (y, y))]⟩ = .ok s ∧
        sent 1 0 ⟨[(1, (x, x)), (2, (y, y))]⟩ = .ok t ∧ s ≠ t) ∧
      sums 0 1 ⟨[(1, (1, 1)), (2, (1, 1))]⟩ = .ok [[(1, 1)]] ∧
      sums 1 0 ⟨[(1, (1, 1)), (2, (1, 1))]⟩ = .ok [[(1, 1)]] := by
  refine ⟨⟨⟨35⟩, 5, 7, 3, 2, 4⟩, ⟨⟨35⟩, 639, 0, true⟩, ⟨⟨35⟩, 648, 0, true⟩,
    ⟨by norm_num, by norm_num, by norm_num, by decide +kernel⟩, by decide +kernel, by decide +kernel,
    ⟨[[(.enc ⟨⟨35⟩, 639, 0, false⟩, .enc ⟨⟨35⟩, 639, 0, false⟩)]],
      [[(.enc ⟨⟨35⟩, 648, 0, false⟩, .enc ⟨⟨35⟩, 648, 0, false⟩)]],
      by decide +kernel, by decide +kernel, by decide +kernel⟩, by decide +kernel, by decide +kernel⟩

/-- The collision that the condition of `C61_one_to_one_partial` excludes can happen for a generated
key: with the key `5 * 11`, two random numbers give the same encryption of every number. -/
theorem C61_collision_refuted :
    ∃ sk, generateKeypair 6 [0, 7] = .ok (⟨55⟩, sk) ∧ KeyPair 5 11 sk ∧
      ∀ v, encrypt sk.pk v none 1 = encrypt sk.pk v none 16 := by
  refine ⟨⟨⟨55⟩, 5, 11, 1, 4, 2⟩, ?_, ⟨by norm_num, by norm_num, by norm_num, by decide +kernel⟩, ?_⟩
  · have h4 : nextPrime 4 = 5 := nextPrime_eq (by norm_num) (by norm_num) (by intro m _ _; omega)
    have h7 : nextPrime 7 = 11 := nextPrime_eq (by norm_num) (by norm_num) (by
      intro m _ _; interval_cases m <;> norm_num)
    have g0 : getPrimeOver 3 0 = .ok 5 := by show Except.ok (nextPrime 4) = _; rw [h4]
    have g1 : getPrimeOver 3 7 = .ok 11 := by show Except.ok (nextPrime 7) = _; rw [h7]
    have hd : drawPrimes 6 2 [0, 7] = .ok (5, 11) := by
      have e : (6 : Int) / 2 = 3 := by norm_num
      have hs : ((Nat.size 55 : Nat) : Int) = 6 := by decide +kernel
      simp [drawPrimes, drawOther, e, g0, g1, bind, Except.bind, hs]
    have hk : PrivKey.new ⟨((5 : Nat) : Int) * (11 : Nat)⟩ (5 : Nat) (11 : Nat) =
        .ok ⟨⟨55⟩, 5, 11, 1, 4, 2⟩ := by decide +kernel
    unfold generateKeypair
    rw [if_neg (by norm_num)]
    simp only [List.length_cons, List.length_nil, Nat.zero_add, Nat.reduceAdd, hd, hk, bind, Except.bind]
    rfl
  · intro v
    have hpow : ∀ c : Int, applyObfuscator ⟨55⟩ c none 1 = applyObfuscator ⟨55⟩ c none 16 := by
      intro c
      have h1 : Gmpy.powmod 1 55 3025 = 1 := by decide +kernel
      have h2 : Gmpy.powmod 16 55 3025 = 1 := by decide +kernel
      have e : ∀ r, applyObfuscator ⟨55⟩ c none r = c * Gmpy.powmod r 55 3025 % 3025 := by
        intro r
        unfold applyObfuscator PubKey.nsquare
        norm_num
        rw [show Int.toNat 55 = 55 from rfl]
      rw [e, e, h1, h2]
    have hall : ∀ k : PubKey, k = ⟨55⟩ → encrypt k v none 1 = encrypt k v none 16 := by
      intro k hk
      have hr : ∀ m : Int, rawEncrypt k m (some 1) 1 = rawEncrypt k m (some 1) 16 := by
        intro m
        unfold rawEncrypt applyObfuscator
        simp
      have ho : ∀ c : Int, applyObfuscator k c none 1 = applyObfuscator k c none 16 := by
        rw [hk]; exact hpow
      unfold encrypt
      cases FP.encode v k.n k.maxInt none with
      | error e => rfl
      | ok f =>
        simp only [bind, Except.bind, hr]
        cases rawEncrypt k f.encoding (some 1) 16 with
        | error e => rfl
        | ok c => simp only [EncNum.obfuscate, ho]
    exact hall _ rfl

/-- The hypotheses are met by a concrete sum and a concrete fresh encryption: `Enc(3) + Enc(-1)` and
`Enc(2)` under the key `5 * 7`. -/
example : ∃ sk X Y, KeyPair 5 7 sk ∧ (Expr.add (.enc (.int 3) none 4) (.enc (.int (-1)) none 2)).run sk.pk = .ok X ∧
    (Expr.add (.enc (.int 3) none 4) (.enc (.int (-1)) none 2)).Usable sk.pk.n ∧
    encrypt sk.pk (.int 2) none 3 = .ok Y ∧ Usable sk 3 ∧ X.exponent = Y.exponent ∧
    rawDecrypt sk X.cipher = rawDecrypt sk Y.cipher ∧ X.cipher ≠ Y.cipher ∧
    (¬ 5 ∣ 7 - 1 ∧ ¬ 7 ∣ 5 - 1) := by
  have co : ∀ r : Int, Int.gcd r 35 = 1 → IsCoprime r 35 := fun r => Int.isCoprime_iff_gcd_eq_one.mpr
  refine ⟨⟨⟨35⟩, 5, 7, 3, 2, 4⟩, ?X, ?Y,
    ⟨by norm_num, by norm_num, by norm_num, by decide +kernel⟩, ?_, ⟨⟨co 4 (by decide), by simp⟩, co 2 (by decide), by simp⟩, ?_,
    co 3 (by decide), ?_⟩
  case X => exact ⟨⟨35⟩, 22, 0, false⟩
  case Y => exact ⟨⟨35⟩, 222, 0, true⟩
  all_goals decide +kernel

/-- A float that meets the hypotheses of `C61_exponent_refuted`: 0.25 shows the exponent 13, so
everybody knows that it lies in [1/8, 2). -/
example : ∃ X, encrypt ⟨(2 ^ 31 - 1) * (2 ^ 61 - 1)⟩ (.float (1 / 4)) none 1 = .ok X ∧ X.exponent = 13 := by
  have hf : FP.encode (.float (1 / 4)) ((2 ^ 31 - 1) * (2 ^ 61 - 1)) (((2 ^ 31 - 1) * (2 ^ 61 - 1)) / 3 - 1) none =
      .ok ⟨2 ^ 50, 13, (2 ^ 31 - 1) * (2 ^ 61 - 1), ((2 ^ 31 - 1) * (2 ^ 61 - 1)) / 3 - 1⟩ := by decide +kernel
  obtain ⟨X, h1, _, h2, _⟩ := encrypt_isEnc ⟨(2 ^ 31 - 1) * (2 ^ 61 - 1)⟩ (by norm_num) (.float (1 / 4)) none 1
    isCoprime_one_left (by simp) hf
  exact ⟨X, h1, h2⟩

end Verif
