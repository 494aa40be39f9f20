import Verif.Lemmas.GmpyMath
import Mathlib.Tactic.NormNum
import Mathlib.RingTheory.Coprime.Lemmas

/-!
# C44 – modular helpers compute modular powers and inverses
-/

set_option autoImplicit false

namespace Verif
open Gmpy

/-- `powmod(a, b, c)` is congruent to `a^b` modulo `c`, for all operands (also through
the shortcut for `a = 1`). -/
theorem C44_powmod (a : Int) (b : Nat) (c : Int) : c ∣ a ^ b - powmod a b c :=
  Int.modEq_iff_dvd.mp (powmod_modEq a b c)

/-- For `c > 1` the result is the canonical remainder. -/
theorem C44_powmod_canonical (a : Int) (b : Nat) (c : Int) (hc : 1 < c) :
    powmod a b c = a ^ b % c := by
  obtain ⟨h1, h2⟩ := powmod_range a b c hc
  have := powmod_modEq a b c
  unfold Int.ModEq at this
  rw [← this, Int.emod_eq_of_lt h1 h2]

example : powmod 7 560 561 = 1 := by decide +kernel

/-- For `c = 1` the shortcut makes the result differ from the documented
`(a ** b) % c = 0`. -/
theorem C44_powmod_one_refuted : powmod 1 5 1 ≠ 1 ^ 5 % 1 := by decide

/-- `invert(a, b)` returns the inverse in `(0, b)` whenever `a` is coprime to `b > 1`. -/
theorem C44_invert (a b : Int) (hb : 1 < b) (h : IsCoprime a b) :
    ∃ x, invert a b = .ok x ∧ b ∣ a * x - 1 ∧ 0 < x ∧ x < b := by
  obtain ⟨x, h1, h2, h3, h4⟩ := invert_ok a b hb (Int.isCoprime_iff_gcd_eq_one.mp h)
  exact ⟨x, h1, Int.modEq_iff_dvd.mp h2.symm, h3, h4⟩

example : IsCoprime (3 : Int) 10 := ⟨-3, 1, by norm_num⟩
example : invert 3 10 = .ok 7 := by decide

/-- Otherwise it raises: a value is returned exactly when an inverse exists. -/
theorem C44_invert_error_iff (a b : Int) :
    invert a b = .error .zeroDivision ↔ ¬ (1 < b ∧ ∃ x : Int, b ∣ a * x - 1) := by
  constructor
  · intro he ⟨hb1, x, hx⟩
    have hc : IsCoprime a b := by
      obtain ⟨k, hk⟩ := hx
      exact ⟨x, -k, by linarith⟩
    obtain ⟨y, hy, _⟩ := C44_invert a b hb1 hc
    rw [he] at hy; cases hy
  · intro h
    apply invert_error
    rintro ⟨hb1, hg⟩
    apply h
    obtain ⟨x, _, h2, _⟩ := C44_invert a b hb1 (Int.isCoprime_iff_gcd_eq_one.mpr hg)
    exact ⟨hb1, x, h2⟩

example : invert 4 10 = .error .zeroDivision := by decide

end Verif
