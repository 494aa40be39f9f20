import Verif.Spec.C14
import Verif.Lemmas.GmpyMath
import Mathlib.RingTheory.Int.Basic
import Mathlib.Algebra.Order.Floor.Ring
import Mathlib.Tactic.FieldSimp

/-!
# C14 – the affine cipher round-trips and is additive
-/

set_option autoImplicit false

namespace Verif
open Gmpy Affine Spec

private theorem key_spec {a b n mult : Int} {k : Key} (hn : 1 < n) (h : Key.new a b n mult = .ok k) :
    k.a = a ∧ k.b = b ∧ k.n = n ∧ k.mult = mult ∧ a * k.aInv ≡ 1 [ZMOD n] := by
  unfold Key.new at h
  by_cases hc : Int.gcd a n = 1
  · obtain ⟨x, hx, hm, _⟩ := invert_ok a n hn hc
    rw [hx] at h
    cases h
    exact ⟨rfl, rfl, rfl, rfl, hm⟩
  · rw [invert_error a n (by tauto)] at h
    cases h

private theorem decrypt_of_modEq {a b n mult : Int} {k : Key} (hn : 1 < n)
    (hk : Key.new a b n mult = .ok k) (c : Ct) (v : Int)
    (hc : c.cipher ≡ a * v + c.multiplier * b [ZMOD n]) (hw : InWindow n v) :
    rawDecrypt k c = v := by
  obtain ⟨h1, h2, h3, _, h4⟩ := key_spec hn hk
  unfold rawDecrypt
  simp only
  rw [h2, h3]
  have hp : k.aInv * (c.cipher % n - c.multiplier * b) ≡ v [ZMOD n] := by
    have e1 : c.cipher % n - c.multiplier * b ≡ a * v [ZMOD n] := by
      have := ((Int.mod_modEq c.cipher n).trans hc).sub_right (c.multiplier * b)
      simpa using this
    refine (e1.mul_left k.aInv).trans ?_
    have := h4.mul_right v
    rw [show k.aInv * (a * v) = a * k.aInv * v by ring]
    simpa using this
  unfold Int.ModEq at hp
  rw [hp]
  obtain ⟨w1, w2⟩ := hw
  rcases lt_or_ge v 0 with hv | hv
  · have : v % n = v + n := by
      rw [← Int.add_emod_right]; exact Int.emod_eq_of_lt (by omega) (by omega)
    rw [this, if_pos (by omega)]; omega
  · have : v % n = v := Int.emod_eq_of_lt hv (by omega)
    rw [this, if_neg (by omega)]

private theorem run_modEq {a b n mult : Int} {k : Key} (hn : 1 < n)
    (hk : Key.new a b n mult = .ok k) (e : AExpr) :
    ∃ c, e.run k = .ok c ∧ c.cipher ≡ a * e.plain + c.multiplier * b [ZMOD n] := by
  obtain ⟨h1, h2, h3, _, _⟩ := key_spec hn hk
  induction e with
  | enc m =>
    refine ⟨_, rfl, ?_⟩
    unfold rawEncrypt
    simp only
    rw [h1, h2, h3, one_mul]
    exact Int.mod_modEq _ _
  | add x y ihx ihy =>
    obtain ⟨c, hc, hcm⟩ := ihx
    obtain ⟨d, hd, hdm⟩ := ihy
    refine ⟨⟨c.cipher + d.cipher, c.multiplier + d.multiplier⟩, ?_, ?_⟩
    · simp [AExpr.run, hc, hd, bind, Except.bind, Affine.add]
    · have := hcm.add hdm
      simp only [AExpr.plain]
      rw [show a * (x.plain + y.plain) + (c.multiplier + d.multiplier) * b
        = a * x.plain + c.multiplier * b + (a * y.plain + d.multiplier * b) by ring]
      exact this
  | zeroAdd x ihx =>
    obtain ⟨c, hc, hcm⟩ := ihx
    refine ⟨c, ?_, hcm⟩
    simp [AExpr.run, hc, bind, Except.bind, Affine.add]
  | sub x y ihx ihy =>
    obtain ⟨c, hc, hcm⟩ := ihx
    obtain ⟨d, hd, hdm⟩ := ihy
    refine ⟨⟨c.cipher + d.cipher * -1, c.multiplier + d.multiplier * -1⟩, ?_, ?_⟩
    · simp [AExpr.run, hc, hd, bind, Except.bind, Affine.sub, Affine.add, mulInt]
    · have := hcm.add (hdm.mul_right (-1))
      simp only [AExpr.plain]
      rw [show a * (x.plain - y.plain) + (c.multiplier + d.multiplier * -1) * b
        = a * x.plain + c.multiplier * b + (a * y.plain + d.multiplier * b) * -1 by ring]
      exact this
  | mul x z ihx =>
    obtain ⟨c, hc, hcm⟩ := ihx
    refine ⟨⟨c.cipher * z, c.multiplier * z⟩, ?_, ?_⟩
    · simp [AExpr.run, hc, bind, Except.bind, mulInt]
    · have := hcm.mul_right z
      simp only [AExpr.plain]
      rw [show a * (x.plain * z) + c.multiplier * z * b
        = (a * x.plain + c.multiplier * b) * z by ring]
      exact this

/-- A key is built exactly when the multiplier is invertible. -/
theorem C14_key (a b n mult : Int) (hn : 1 < n) :
    (∃ k, Key.new a b n mult = .ok k) ↔ IsCoprime a n := by
  constructor
  · rintro ⟨k, hk⟩
    obtain ⟨_, _, _, _, h⟩ := key_spec hn hk
    obtain ⟨t, ht⟩ := Int.modEq_iff_dvd.mp h
    exact ⟨k.aInv, t, by linarith⟩
  · intro h
    obtain ⟨x, hx, _⟩ := invert_ok a n hn (Int.isCoprime_iff_gcd_eq_one.mp h)
    exact ⟨⟨a, b, n, x, mult⟩, by unfold Key.new; rw [hx]; rfl⟩

/-- **Round trip and additivity**: any combination of sums, differences and integer
multiples of ciphertexts (in particular a single ciphertext) decrypts to the same
combination of the plaintexts, whenever that lies in the window.  Intermediate values need
not lie in the window. -/
theorem C14_combination (a b n mult : Int) (k : Key) (hn : 1 < n)
    (hk : Key.new a b n mult = .ok k) (e : AExpr) (hw : InWindow n e.plain) :
    ∃ c, e.run k = .ok c ∧ rawDecrypt k c = e.plain := by
  obtain ⟨c, hc, hcm⟩ := run_modEq hn hk e
  exact ⟨c, hc, decrypt_of_modEq hn hk c _ hcm hw⟩

/-- Special case: a single encryption. -/
theorem C14_roundtrip (a b n mult : Int) (k : Key) (hn : 1 < n)
    (hk : Key.new a b n mult = .ok k) (m : Int) (hw : InWindow n m) :
    rawDecrypt k (rawEncrypt k m) = m := by
  obtain ⟨c, hc, hd⟩ := C14_combination a b n mult k hn hk (.enc m) hw
  cases hc
  exact hd

/-- Sums of encryptions of any length, started from the integer 0 as Python's `sum` does. -/
theorem C14_sum (a b n mult : Int) (k : Key) (hn : 1 < n)
    (hk : Key.new a b n mult = .ok k) (m : Int) (ms : List Int)
    (hw : InWindow n (m + ms.sum)) :
    ∃ c, ms.foldlM (fun acc x => Affine.add acc (.ct (rawEncrypt k x))) (rawEncrypt k m) = .ok c ∧
      rawDecrypt k c = m + ms.sum := by
  have key : ∀ (ms : List Int) (e : AExpr) (c : Ct), e.run k = .ok c →
      ms.foldlM (fun acc x => Affine.add acc (.ct (rawEncrypt k x))) c
        = (ms.foldl (fun e x => AExpr.add e (.enc x)) e).run k ∧
      (ms.foldl (fun e x => AExpr.add e (.enc x)) e).plain = e.plain + ms.sum := by
    intro ms
    induction ms with
    | nil => intro e c h; simp [h, pure, Except.pure]
    | cons x xs ih =>
      intro e c h
      have hx : (AExpr.add e (.enc x)).run k = Affine.add c (.ct (rawEncrypt k x)) := by
        simp [AExpr.run, h, bind, Except.bind]
      have := ih (.add e (.enc x)) ⟨c.cipher + (rawEncrypt k x).cipher,
        c.multiplier + (rawEncrypt k x).multiplier⟩ (by rw [hx]; rfl)
      refine ⟨?_, ?_⟩
      · rw [List.foldlM_cons, List.foldl_cons, ← this.1]; rfl
      · rw [List.foldl_cons, this.2]; simp [AExpr.plain]; ring
  obtain ⟨h1, h2⟩ := key ms (.enc m) _ rfl
  simp only [AExpr.plain] at h2
  obtain ⟨c, hc, hd⟩ := C14_combination a b n mult k hn hk
    (ms.foldl (fun e x => AExpr.add e (.enc x)) (.enc m)) (by rw [h2]; exact hw)
  exact ⟨c, by rw [h1, hc], by rw [hd, h2]⟩

/-- Outside the window the result is silently wrong: a number at or below minus one tenth
of the modulus comes back shifted by the modulus. -/
theorem C14_outside_window (a b n mult : Int) (k : Key) (hn : 1 < n)
    (hk : Key.new a b n mult = .ok k) (m : Int) (h1 : -n ≤ m) (h2 : 10 * m ≤ -n) :
    rawDecrypt k (rawEncrypt k m) = m + n := by
  have hsame : rawEncrypt k m = rawEncrypt k (m + n) := by
    obtain ⟨_, _, h3, _, _⟩ := key_spec hn hk
    unfold rawEncrypt
    rw [h3]
    congr 1
    rw [show k.a * (m + n) + k.b = k.a * m + k.b + n * k.a by ring, Int.add_mul_emod_self_left]
  rw [hsame]
  exact C14_roundtrip a b n mult k hn hk (m + n) ⟨by omega, by omega⟩

/-- **The encoder** loses less than one unit of its multiplier, and encrypting then
decrypting a real number gives that encoded number. -/
theorem C14_encoder (a b n mult : Int) (k : Key) (hn : 1 < n) (hmul : 0 < mult)
    (hk : Key.new a b n mult = .ok k) (x : Rat) (hw : InWindow n (encode k x)) :
    |decrypt k (encrypt k x) - x| < 1 / mult := by
  obtain ⟨_, _, _, h4, _⟩ := key_spec hn hk
  unfold decrypt encrypt decode
  rw [C14_roundtrip a b n mult k hn hk _ hw]
  unfold encode
  rw [h4]
  have hm : (0 : Rat) < mult := by exact_mod_cast hmul
  have hx : x = (mult * x) / mult := by field_simp
  have : |(pyTrunc (mult * x) : Rat) - mult * x| < 1 := by
    unfold pyTrunc
    split
    · have h1 := Int.floor_le (mult * x)
      have h2 := Int.lt_floor_add_one (mult * x)
      rw [abs_lt]; constructor <;> linarith
    · have h1 := Int.le_ceil (mult * x)
      have h2 := Int.ceil_lt_add_one (mult * x)
      rw [abs_lt]; constructor <;> linarith
  have e : (pyTrunc (mult * x) : Rat) / mult - x = ((pyTrunc (mult * x) : Rat) - mult * x) / mult := by
    rw [sub_div, ← hx]
  rw [e, abs_div, abs_of_pos hm]
  exact (div_lt_div_iff_of_pos_right hm).mpr this

/-- Adding anything but a ciphertext or the integer 0 is refused. -/
theorem C14_add_refused (x : Ct) (o : Operand) (h : ∀ c, o ≠ .ct c) (h0 : o ≠ .int 0) :
    Affine.add x o = .error .typeError := by
  cases o with
  | ct c => exact absurd rfl (h c)
  | int z => have hz : z ≠ 0 := by rintro rfl; exact h0 rfl
             simp [Affine.add, hz]
  | other => rfl

/-! A concrete key and combination: `3 * Enc(5) - Enc(-2)` modulo 101. -/
example : ∃ k c, Key.new 7 20 101 4 = .ok k ∧ InWindow 101 17 ∧
    (AExpr.sub (.mul (.enc 5) 3) (.enc (-2))).run k = .ok c ∧ rawDecrypt k c = 17 :=
  ⟨⟨7, 20, 101, 29, 4⟩, ⟨159, 2⟩, by decide +kernel, by unfold InWindow; omega, by decide +kernel,
    by decide +kernel⟩

end Verif
