import Verif.Model.GmpyMath
import Mathlib.Data.Int.ModEq
import Mathlib.Data.Int.GCD
import Mathlib.Tactic.Ring
import Mathlib.Tactic.Linarith

set_option autoImplicit false

namespace Verif
namespace Gmpy

theorem powmod_modEq (a : Int) (b : Nat) (c : Int) : powmod a b c ≡ a ^ b [ZMOD c] := by
  unfold powmod
  split
  · rename_i h; subst h; simp
  · exact Int.mod_modEq _ _

theorem powmod_range (a : Int) (b : Nat) (c : Int) (hc : 1 < c) :
    0 ≤ powmod a b c ∧ powmod a b c < c := by
  unfold powmod
  split
  · omega
  · exact ⟨Int.emod_nonneg _ (by omega), Int.emod_lt_of_pos _ (by omega)⟩

theorem gmpyInvert_spec (a b : Int) (hb : 1 < b) (h : Int.gcd a b = 1) :
    a * gmpyInvert a b % b = 1 ∧ 0 < gmpyInvert a b ∧ gmpyInvert a b < b := by
  unfold gmpyInvert
  cases hf : (List.range b.toNat).find? (fun x : Nat => a * (x : Int) % b == 1) with
  | none =>
    exfalso
    rw [List.find?_eq_none] at hf
    -- Bezout witness
    have hbez := Int.gcd_eq_gcd_ab a b
    rw [h] at hbez
    let x := (Int.gcdA a b) % b
    have hx0 : 0 ≤ x := Int.emod_nonneg _ (by omega)
    have hxb : x < b := Int.emod_lt_of_pos _ (by omega)
    have hmod : a * x % b = 1 := by
      have h1 : a * x ≡ a * Int.gcdA a b [ZMOD b] := (Int.mod_modEq _ _).mul_left a
      have h2 : a * Int.gcdA a b ≡ 1 [ZMOD b] := by
        have : (1 : Int) = a * Int.gcdA a b + b * Int.gcdB a b := by exact_mod_cast hbez
        rw [this]
        exact (Int.modEq_iff_dvd.mpr ⟨Int.gcdB a b, by ring⟩)
      have h3 := h1.trans h2
      unfold Int.ModEq at h3
      rw [h3]; exact Int.emod_eq_of_lt (by omega) hb
    have := hf x.toNat (by simp; omega)
    rw [Int.toNat_of_nonneg hx0] at this
    simp [hmod] at this
  | some x =>
    have h1 := List.find?_some hf
    have h2 := List.mem_of_find?_eq_some hf
    simp at h1 h2
    refine ⟨h1, ?_, by simp; omega⟩
    rcases Nat.eq_zero_or_pos x with h0 | h0
    · subst h0; simp at h1
    · simpa using h0

theorem gmpyInvert_none (a b : Int) (h : ¬ (1 < b ∧ Int.gcd a b = 1)) : gmpyInvert a b = 0 := by
  unfold gmpyInvert
  cases hf : (List.range b.toNat).find? (fun x : Nat => a * (x : Int) % b == 1) with
  | none => rfl
  | some x =>
    exfalso
    have h1 := List.find?_some hf
    have h2 := List.mem_of_find?_eq_some hf
    simp at h1 h2
    apply h
    have hb : 1 < b := by
      rcases lt_or_ge 1 b with hb | hb
      · exact hb
      · have : b = 1 := by omega
        subst this; simp at h1
    refine ⟨hb, ?_⟩
    have hd : (Int.gcd a b : Int) ∣ 1 := by
      have e : a * x = b * (a * x / b) + 1 := by
        have := Int.mul_ediv_add_emod (a * x) b; omega
      have d1 : (Int.gcd a b : Int) ∣ a * x := Dvd.dvd.mul_right (Int.gcd_dvd_left ..) _
      have d2 : (Int.gcd a b : Int) ∣ b * (a * x / b) := Dvd.dvd.mul_right (Int.gcd_dvd_right ..) _
      have h3 : (1 : Int) = a * x - b * (a * x / b) := by omega
      rw [h3]; exact Int.dvd_sub d1 d2
    have := Int.eq_one_of_dvd_one (by positivity) hd
    exact_mod_cast this

theorem invert_ok (a b : Int) (hb : 1 < b) (h : Int.gcd a b = 1) :
    ∃ x, invert a b = .ok x ∧ a * x ≡ 1 [ZMOD b] ∧ 0 < x ∧ x < b := by
  obtain ⟨h1, h2, h3⟩ := gmpyInvert_spec a b hb h
  refine ⟨gmpyInvert a b, ?_, ?_, h2, h3⟩
  · unfold invert; simp only; rw [if_neg (by omega)]
  · unfold Int.ModEq; rw [h1]; exact (Int.emod_eq_of_lt (by omega) hb).symm

theorem invert_error (a b : Int) (h : ¬ (1 < b ∧ Int.gcd a b = 1)) :
    invert a b = .error .zeroDivision := by
  unfold invert; simp only; rw [if_pos (gmpyInvert_none a b h)]

end Gmpy
end Verif
