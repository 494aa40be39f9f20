import Verif.Spec.C61
import Verif.Lemmas.C11
import Mathlib.NumberTheory.Basic
import Mathlib.FieldTheory.Finite.Basic

/-!
# How many random numbers give the same ciphertext
-/

set_option autoImplicit false

namespace Verif
namespace Paillier

open Spec

theorem pow_congr {n a b : Int} (hn : 0 ≤ n) (h : a ≡ b [ZMOD n]) :
    a ^ n.toNat ≡ b ^ n.toNat [ZMOD n * n] := by
  have h1 : ((n.toNat : Nat) : Int) ∣ b - a := by
    rw [Int.toNat_of_nonneg hn]; exact Int.modEq_iff_dvd.mp h
  have h2 := dvd_sub_pow_of_dvd_sub h1 1
  rw [pow_one, Int.toNat_of_nonneg hn] at h2
  refine Int.modEq_iff_dvd.mpr ?_
  rw [show n * n = n ^ (1 + 1) by ring]
  exact h2

theorem mem_drawable {n r : Int} : r ∈ drawable n ↔ 1 ≤ r ∧ r < n ∧ IsCoprime r n := by
  unfold drawable
  rw [Finset.mem_filter, Finset.mem_Ico, Int.isCoprime_iff_gcd_eq_one, and_assoc]

/-- The representative of a unit. -/
theorem reduce_mem {n a : Int} (hn : 1 < n) (h : IsCoprime a n) : a % n ∈ drawable n := by
  have hc : IsCoprime (a % n) n := by
    obtain ⟨x, y, hxy⟩ := h
    refine ⟨x, y + x * (a / n), ?_⟩
    have := Int.mul_ediv_add_emod a n
    linear_combination hxy + x * this
  refine mem_drawable.mpr ⟨?_, Int.emod_lt_of_pos _ (by omega), hc⟩
  have h0 := Int.emod_nonneg a (show n ≠ 0 by omega)
  rcases lt_or_eq_of_le h0 with h1 | h1
  · omega
  · rw [← h1] at hc
    have := isCoprime_zero_left.mp hc
    rw [Int.isUnit_iff] at this
    omega

/-- An inverse modulo `n`. -/
theorem exists_inv {n a : Int} (h : IsCoprime a n) : ∃ b, IsCoprime b n ∧ a * b ≡ 1 [ZMOD n] := by
  obtain ⟨x, y, hxy⟩ := h
  exact ⟨x, ⟨a, y, by linear_combination hxy⟩,
    Int.modEq_iff_dvd.mpr ⟨y, by linear_combination -hxy⟩⟩

/-- Two residues below `n` that agree modulo `n`. -/
theorem eq_of_modEq {n a b : Int} (ha : a ∈ drawable n) (hb : b ∈ drawable n)
    (h : a ≡ b [ZMOD n]) : a = b := by
  obtain ⟨a1, a2, _⟩ := mem_drawable.mp ha
  obtain ⟨b1, b2, _⟩ := mem_drawable.mp hb
  have := Int.ModEq.eq h
  rwa [Int.emod_eq_of_lt (by omega) a2, Int.emod_eq_of_lt (by omega) b2] at this

/-- The random numbers with which `c` becomes `d`. -/
def fibre (n c d : Int) : Finset Int :=
  (drawable n).filter fun r => c * r ^ n.toNat % (n * n) = d

theorem mem_fibre {n c d r : Int} :
    r ∈ fibre n c d ↔ r ∈ drawable n ∧ c * r ^ n.toNat % (n * n) = d := by
  unfold fibre; rw [Finset.mem_filter]

/-- Multiplying all random numbers by a unit `u`. -/
theorem fibre_shift {n c d c' d' u : Int} (hn : 1 < n) (hu : IsCoprime u n)
    (h : ∀ r, IsCoprime r n → (c * r ^ n.toNat % (n * n) = d ↔
      c' * (u * r) ^ n.toNat % (n * n) = d')) :
    (fibre n c d).card = (fibre n c' d').card := by
  obtain ⟨v, hv, huv⟩ := exists_inv hu
  have hred : ∀ a r : Int, c' * (a * r % n) ^ n.toNat % (n * n) = c' * (a * r) ^ n.toNat % (n * n) :=
    fun a r => (Int.ModEq.mul_left c' (pow_congr (by omega) (Int.mod_modEq _ _)))
  have hred' : ∀ a : Int, c' * (a % n) ^ n.toNat % (n * n) = c' * a ^ n.toNat % (n * n) :=
    fun a => (Int.ModEq.mul_left c' (pow_congr (by omega) (Int.mod_modEq _ _)))
  refine Finset.card_nbij' (fun r => u * r % n) (fun r => v * r % n) ?_ ?_ ?_ ?_
  · intro r hr
    rw [Finset.mem_coe, mem_fibre] at hr ⊢
    obtain ⟨_, _, hc⟩ := mem_drawable.mp hr.1
    exact ⟨reduce_mem hn (hu.mul_left hc), by rw [hred]; exact (h r hc).mp hr.2⟩
  · intro r hr
    rw [Finset.mem_coe, mem_fibre] at hr ⊢
    obtain ⟨_, _, hc⟩ := mem_drawable.mp hr.1
    have hm := reduce_mem hn (hv.mul_left hc)
    refine ⟨hm, (h _ (mem_drawable.mp hm).2.2).mpr ?_⟩
    rw [← hr.2]
    refine Int.ModEq.mul_left c' (pow_congr (by omega) ?_)
    calc u * (v * r % n) ≡ u * (v * r) [ZMOD n] := Int.ModEq.mul_left _ (Int.mod_modEq _ _)
      _ = u * v * r := by ring
      _ ≡ 1 * r [ZMOD n] := Int.ModEq.mul_right _ huv
      _ = r := one_mul r
  · intro r hr
    rw [Finset.mem_coe, mem_fibre] at hr
    obtain ⟨_, _, hc⟩ := mem_drawable.mp hr.1
    refine eq_of_modEq (reduce_mem hn (hv.mul_left (mem_drawable.mp (reduce_mem hn (hu.mul_left hc))).2.2)) hr.1 ?_
    calc v * (u * r % n) % n ≡ v * (u * r) [ZMOD n] :=
          (Int.mod_modEq _ _).trans (Int.ModEq.mul_left _ (Int.mod_modEq _ _))
      _ = u * v * r := by ring
      _ ≡ 1 * r [ZMOD n] := Int.ModEq.mul_right _ huv
      _ = r := one_mul r
  · intro r hr
    rw [Finset.mem_coe, mem_fibre] at hr
    obtain ⟨_, _, hc⟩ := mem_drawable.mp hr.1
    refine eq_of_modEq (reduce_mem hn (hu.mul_left (mem_drawable.mp (reduce_mem hn (hv.mul_left hc))).2.2)) hr.1 ?_
    calc u * (v * r % n) % n ≡ u * (v * r) [ZMOD n] :=
          (Int.mod_modEq _ _).trans (Int.ModEq.mul_left _ (Int.mod_modEq _ _))
      _ = u * v * r := by ring
      _ ≡ 1 * r [ZMOD n] := Int.ModEq.mul_right _ huv
      _ = r := one_mul r

/-- Encryptions of the same number are equally likely to become `d`. -/
theorem fibre_same {n m c c' : Int} (hn : 1 < n) (h : IsEnc n m c) (h' : IsEnc n m c') (d : Int) :
    (fibre n c d).card = (fibre n c' d).card := by
  obtain ⟨a, ha, e⟩ := h
  obtain ⟨b, hb, e'⟩ := h'
  obtain ⟨v, hv, hbv⟩ := exists_inv hb
  refine fibre_shift hn (hv.mul_left ha) fun r _ => ?_
  have key : c' * (v * a * r) ^ n.toNat ≡ c * r ^ n.toNat [ZMOD n * n] := by
    calc c' * (v * a * r) ^ n.toNat
        ≡ (1 + n * m) * b ^ n.toNat * (v * a * r) ^ n.toNat [ZMOD n * n] := e'.mul_right _
      _ = (1 + n * m) * (b * v * (a * r)) ^ n.toNat := by rw [mul_assoc, ← mul_pow]; congr 2; ring
      _ ≡ (1 + n * m) * (1 * (a * r)) ^ n.toNat [ZMOD n * n] :=
          Int.ModEq.mul_left _ (pow_congr (by omega) (hbv.mul_right _))
      _ = (1 + n * m) * a ^ n.toNat * r ^ n.toNat := by rw [one_mul, mul_pow]; ring
      _ ≡ c * r ^ n.toNat [ZMOD n * n] := (e.mul_right _).symm
  rw [Int.ModEq.eq key]

/-- Whatever can come out is equally likely. -/
theorem fibre_equal {n m m' c c' d d' : Int} (hn : 1 < n) (h : IsEnc n m c) (h' : IsEnc n m' c')
    (hd : (fibre n c d).card ≠ 0) (hd' : (fibre n c' d').card ≠ 0) :
    (fibre n c d).card = (fibre n c' d').card := by
  obtain ⟨a, ha⟩ := Finset.card_ne_zero.mp hd
  obtain ⟨b, hb⟩ := Finset.card_ne_zero.mp hd'
  obtain ⟨ha', rfl⟩ := mem_fibre.mp ha
  obtain ⟨hb', rfl⟩ := mem_fibre.mp hb
  clear ha hb
  obtain ⟨_, _, ha⟩ := mem_drawable.mp ha'
  obtain ⟨_, _, hb⟩ := mem_drawable.mp hb'
  obtain ⟨v, hv, hav⟩ := exists_inv ha
  have cancel : ∀ {c m : Int}, IsEnc n m c → ∀ x y : Int,
      c * x % (n * n) = c * y % (n * n) ↔ x ≡ y [ZMOD n * n] := by
    intro c m hc x y
    constructor
    · intro he
      have hcc := hc.coprime
      have hd : n * n ∣ c * (y - x) := by
        have := Int.modEq_iff_dvd.mp (show c * x ≡ c * y [ZMOD n * n] from he)
        rwa [← mul_sub] at this
      exact Int.modEq_iff_dvd.mpr (hcc.symm.dvd_of_dvd_mul_left hd)
    · intro he
      exact Int.ModEq.mul_left c he
  refine fibre_shift hn (hv.mul_left hb) fun r _ => ?_
  rw [cancel h, cancel h']
  constructor
  · intro he
    calc (v * b * r) ^ n.toNat = v ^ n.toNat * b ^ n.toNat * r ^ n.toNat := by rw [mul_pow, mul_pow]
      _ ≡ v ^ n.toNat * b ^ n.toNat * a ^ n.toNat [ZMOD n * n] := Int.ModEq.mul_left _ he
      _ = (a * v * b) ^ n.toNat := by rw [mul_pow, mul_pow]; ring
      _ ≡ (1 * b) ^ n.toNat [ZMOD n * n] := pow_congr (by omega) (hav.mul_right _)
      _ = b ^ n.toNat := by rw [one_mul]
  · intro he
    obtain ⟨w, hw, hbw⟩ := exists_inv hb
    calc r ^ n.toNat = (1 * (1 * r)) ^ n.toNat := by rw [one_mul, one_mul]
      _ ≡ (a * v * (b * w * r)) ^ n.toNat [ZMOD n * n] :=
          pow_congr (by omega) ((hav.mul (hbw.mul_right _)).symm)
      _ = (a * w) ^ n.toNat * (v * b * r) ^ n.toNat := by rw [← mul_pow]; congr 1; ring
      _ ≡ (a * w) ^ n.toNat * b ^ n.toNat [ZMOD n * n] := Int.ModEq.mul_left _ he
      _ = (b * w * a) ^ n.toNat := by rw [← mul_pow]; congr 1; ring
      _ ≡ (1 * a) ^ n.toNat [ZMOD n * n] := pow_congr (by omega) (hbw.mul_right _)
      _ = a ^ n.toNat := by rw [one_mul]

theorem obfuscate_eq {X : EncNum} {d r : Int} (e : Int) (hn : 1 < X.pk.n) (k : PubKey) (f : Bool) :
    X.obfuscate r = ⟨k, d, e, f⟩ ↔
      (k = X.pk ∧ e = X.exponent ∧ f = true) ∧ X.cipher * r ^ X.pk.n.toNat % (X.pk.n * X.pk.n) = d := by
  have hm : X.cipher * Gmpy.powmod r X.pk.n.toNat (X.pk.n * X.pk.n) % (X.pk.n * X.pk.n) =
      X.cipher * r ^ X.pk.n.toNat % (X.pk.n * X.pk.n) :=
    Int.ModEq.mul_left _ (Gmpy.powmod_modEq _ _ _)
  unfold EncNum.obfuscate applyObfuscator PubKey.nsquare
  simp only [EncNum.mk.injEq, hm]
  constructor
  · rintro ⟨h1, h2, h3, h4⟩; exact ⟨⟨h1.symm, h3.symm, h4.symm⟩, h2⟩
  · rintro ⟨⟨h1, h3, h4⟩, h2⟩; exact ⟨h1.symm, h2, h3.symm, h4.symm⟩

/-- Frequencies in terms of fibres. -/
theorem frequency_obfuscate (X : EncNum) (hn : 1 < X.pk.n) (Y : EncNum) :
    frequency X.pk.n (fun r => .ok (X.obfuscate r)) Y =
      if Y.pk = X.pk ∧ Y.exponent = X.exponent ∧ Y.isObfuscator = true then
        (fibre X.pk.n X.cipher Y.cipher).card else 0 := by
  unfold frequency fibre
  obtain ⟨k, d, e, f⟩ := Y
  simp only [Except.ok.injEq]
  by_cases hc : k = X.pk ∧ e = X.exponent ∧ f = true
  · rw [if_pos hc]
    congr 1
    ext r
    simp only [Finset.mem_filter]
    rw [obfuscate_eq e hn k f]
    tauto
  · rw [if_neg hc, Finset.card_eq_zero, Finset.filter_eq_empty_iff]
    intro r _ h
    exact hc ((obfuscate_eq e hn k f).mp h).1

end Paillier
end Verif
