import Verif.Model.FixedPoint
import Mathlib.Data.Int.ModEq
import Mathlib.Tactic.Linarith
import Mathlib.Tactic.Ring
import Mathlib.Tactic.NormNum
import Mathlib.Tactic.Positivity
import Mathlib.Tactic.FieldSimp
import Mathlib.Algebra.Order.Floor.Ring

set_option autoImplicit false

namespace Verif
namespace FP

theorem roundEven_err (x : Rat) : |(roundEven x : Rat) - x| ≤ 1 / 2 := by
  have h1 := Int.floor_le x
  have h2 := Int.lt_floor_add_one x
  unfold roundEven
  simp only
  rw [abs_le]
  split
  · constructor <;> linarith
  · split
    · push_cast; constructor <;> linarith
    · have : x - ⌊x⌋ = 1 / 2 := by linarith
      split
      · constructor <;> linarith
      · push_cast; constructor <;> linarith

theorem roundEven_intCast (z : Int) : roundEven (z : Rat) = z := by
  unfold roundEven
  simp

theorem tiny_pos : 0 < tiny := by unfold tiny; positivity
theorem tiny_le_one : tiny ≤ 1 := by unfold tiny; norm_num

theorem flush_int (z : Int) : flush (.int z) = .int z := by
  unfold flush
  split
  · rename_i h
    have h2 := h.2
    simp only [Scalar.val] at h2
    have h3 : |(z : Rat)| < 1 := lt_of_lt_of_le h2 tiny_le_one
    have h4 : |z| < 1 := by
      have : ((|z| : Int) : Rat) < 1 := by push_cast; exact h3
      exact_mod_cast this
    have : z = 0 := by rw [abs_lt] at h4; omega
    rw [this]
  · rfl

theorem flush_of_large (s : Scalar) (h : tiny ≤ |s.val|) : flush s = s := by
  unfold flush
  rw [if_neg]
  rintro ⟨_, h2⟩
  exact absurd h (not_le.mpr h2)

theorem flush_of_tiny (s : Scalar) (hs : s ≠ .other) (h : |s.val| < tiny) :
    flush s = .int 0 := by
  unfold flush
  rw [if_pos ⟨hs, h⟩]

theorem flush_float (x : Rat) (h : tiny ≤ |x|) : flush (.float x) = .float x :=
  flush_of_large (.float x) (by simp only [Scalar.val]; exact h)

theorem flush_ne_other (s : Scalar) (hs : s ≠ .other) : flush s ≠ .other := by
  unfold flush; split <;> simp [hs]

theorem chooseExp_ok (s : Scalar) (hs : s ≠ .other) (me : Option Int) :
    ∃ e, chooseExp s me = .ok e := by
  unfold chooseExp
  cases s <;> cases me <;> simp at hs ⊢

theorem encode_ok_iff (s : Scalar) (n M : Int) (me : Option Int) (f : Num) :
    encode s n M me = .ok f ↔
      ∃ e, chooseExp (flush s) me = .ok e ∧
        |roundEven ((flush s).val * (16 : Rat) ^ e)| ≤ M ∧
        f = ⟨roundEven ((flush s).val * (16 : Rat) ^ e) % n, e, n, M⟩ := by
  unfold encode
  cases h : chooseExp (flush s) me with
  | error err => simp [h, bind, Except.bind]
  | ok e =>
    simp only [h, bind, Except.bind]
    constructor
    · intro hh
      split at hh
      · cases hh
      · rename_i hc
        refine ⟨e, rfl, not_lt.mp hc, ?_⟩
        cases hh; rfl
    · rintro ⟨e', he, hM, rfl⟩
      cases he
      rw [if_neg (not_lt.mpr hM)]

/-- A residue of a small signed integer is read back as that integer. -/
theorem mantissa_mod (i n M e : Int) (hM : 2 * M < n) (hi : |i| ≤ M) :
    mantissa ⟨i % n, e, n, M⟩ = .ok i := by
  rw [abs_le] at hi
  have hn : 0 < n := by omega
  unfold mantissa
  simp only
  rcases lt_or_ge i 0 with h0 | h0
  · have hmod : i % n = i + n := by
      rw [← Int.add_emod_right]; exact Int.emod_eq_of_lt (by omega) (by omega)
    rw [hmod, if_neg (by omega), if_neg (by omega), if_pos (by omega)]
    congr 1; omega
  · have hmod : i % n = i := Int.emod_eq_of_lt h0 (by omega)
    rw [hmod, if_neg (by omega), if_pos (by omega)]

/-- A residue of an integer outside the signed window, but inside twice the window, is
reported as an overflow (window being a third of the modulus). -/
theorem mantissa_mod_overflow (i n M e : Int) (hM : 3 * M < n) (hi : M < |i|) (hi2 : |i| ≤ 2 * M) :
    mantissa ⟨i % n, e, n, M⟩ = .error .overflow := by
  rw [abs_le] at hi2
  have hn : 0 < n := by omega
  unfold mantissa
  simp only
  rw [lt_abs] at hi
  rcases lt_or_ge i 0 with h0 | h0
  · have hmod : i % n = i + n := by
      rw [← Int.add_emod_right]; exact Int.emod_eq_of_lt (by omega) (by omega)
    rw [hmod, if_neg (by omega), if_neg (by omega), if_neg (by omega)]
  · have hmod : i % n = i := Int.emod_eq_of_lt h0 (by omega)
    rw [hmod, if_neg (by omega), if_neg (by omega), if_neg (by omega)]

theorem mantissa_modEq {x : Num} {m : Int} (h : mantissa x = .ok m) : x.encoding ≡ m [ZMOD x.n] := by
  unfold mantissa at h
  split at h
  · cases h
  · split at h
    · cases h; exact Int.ModEq.refl _
    · split at h
      · cases h
        exact (Int.modEq_iff_dvd.mpr ⟨-1, by ring⟩)
      · cases h

theorem scale_val (m e : Int) : (scale m e).val = m * (16 : Rat) ^ (-e) := by
  unfold scale
  split
  · rename_i h
    simp only [Scalar.val]
    push_cast
    congr 1
    rw [← zpow_natCast]
    congr 1
    omega
  · rfl

theorem decode_ok_iff (x : Num) (t : Scalar) :
    decode x = .ok t ↔ ∃ m, mantissa x = .ok m ∧ t = scale m x.exponent := by
  unfold decode
  cases h : mantissa x with
  | error e => simp [bind, Except.bind]
  | ok m => simp [bind, Except.bind, eq_comm]

/-- Shape of a successful encoding, in terms of values. -/
theorem encode_decode (s : Scalar) (n M : Int) (hM : 2 * M < n) (me : Option Int) (f : Num)
    (h : encode s n M me = .ok f) :
    ∃ e i, chooseExp (flush s) me = .ok e ∧ i = roundEven ((flush s).val * (16 : Rat) ^ e) ∧
      |i| ≤ M ∧ f.exponent = e ∧ f.n = n ∧ f.maxInt = M ∧ f.encoding = i % n ∧
      mantissa f = .ok i ∧ decode f = .ok (scale i e) := by
  obtain ⟨e, he, hle, rfl⟩ := (encode_ok_iff s n M me f).mp h
  have hm := mantissa_mod _ n M e hM hle
  exact ⟨e, _, he, rfl, hle, rfl, rfl, rfl, rfl, hm,
    (decode_ok_iff _ _).mpr ⟨_, hm, rfl⟩⟩

theorem scale_round_err (x : Rat) (e : Int) :
    |(scale (roundEven (x * (16 : Rat) ^ e)) e).val - x| ≤ (16 : Rat) ^ (-e) / 2 := by
  rw [scale_val]
  have h := roundEven_err (x * (16 : Rat) ^ e)
  have hp : (0 : Rat) < (16 : Rat) ^ (-e) := zpow_pos (by norm_num) _
  have hx : x = (x * (16 : Rat) ^ e) * (16 : Rat) ^ (-e) := by
    rw [mul_assoc, ← zpow_add₀ (by norm_num)]; simp
  have : (roundEven (x * (16 : Rat) ^ e) : Rat) * (16 : Rat) ^ (-e) - x
      = ((roundEven (x * (16 : Rat) ^ e) : Rat) - x * (16 : Rat) ^ e) * (16 : Rat) ^ (-e) := by
    rw [sub_mul, ← hx]
  rw [this, abs_mul, abs_of_pos hp]
  have := mul_le_mul_of_nonneg_right h hp.le
  linarith

theorem chooseExp_float_ge {x : Rat} {me : Option Int} {e : Int}
    (h : chooseExp (.float x) me = .ok e) : (53 - frexpExp x) / 4 ≤ e := by
  unfold chooseExp at h
  cases me <;> simp at h <;> omega

theorem chooseExp_int_ge {z : Int} {me : Option Int} {e : Int}
    (h : chooseExp (.int z) me = .ok e) : 0 ≤ e := by
  unfold chooseExp at h
  cases me <;> simp at h <;> omega

theorem chooseExp_ge_max {s : Scalar} {m : Int} {e : Int}
    (h : chooseExp s (some m) = .ok e) : m ≤ e := by
  unfold chooseExp at h
  cases s <;> simp at h <;> omega

/-- `frexp` bounds. -/
theorem frexp_bounds (x : Rat) (hx : x ≠ 0) :
    (2 : Rat) ^ (frexpExp x - 1) ≤ |x| ∧ |x| < (2 : Rat) ^ (frexpExp x) := by
  unfold frexpExp
  rw [if_neg hx]
  have hpos : 0 < |x| := abs_pos.mpr hx
  constructor
  · have := Int.zpow_log_le_self (b := 2) (r := |x|) (by norm_num) hpos
    simpa using this
  · have := Int.lt_zpow_succ_log_self (R := Rat) (b := 2) (by norm_num) |x|
    exact_mod_cast this

theorem grid_rel (x : Rat) (hx : x ≠ 0) (e : Int) (he : (53 - frexpExp x) / 4 ≤ e) :
    (16 : Rat) ^ (-e) / 2 ≤ |x| / 2 ^ 50 := by
  obtain ⟨h1, _⟩ := frexp_bounds x hx
  have h16 : (16 : Rat) ^ (-e) = (2 : Rat) ^ (-(4 * e)) := by
    rw [show (16 : Rat) = (2 : Rat) ^ (4 : Int) by norm_num, ← zpow_mul]; congr 1; ring
  have hle : (2 : Rat) ^ (-(4 * e)) ≤ (2 : Rat) ^ (frexpExp x - 1 + (-49)) := by
    apply zpow_le_zpow_right₀ (by norm_num)
    omega
  rw [zpow_add₀ (by norm_num)] at hle
  have : (2 : Rat) ^ (-49 : Int) = 2 / 2 ^ 50 := by norm_num
  rw [this] at hle
  rw [h16]
  have h3 := mul_le_mul_of_nonneg_right h1 (show (0 : Rat) ≤ 2 / 2 ^ 50 by norm_num)
  linarith

/-! ### Alignment -/

/-- Mantissas up to multiples of `n` move to a larger exponent. -/
theorem align_ok (x y : Num) :
    ∃ x' y', align x y = .ok (x', y') ∧
      x'.exponent = max x.exponent y.exponent ∧ y'.exponent = max x.exponent y.exponent ∧
      x'.n = x.n ∧ y'.n = y.n ∧ x'.maxInt = x.maxInt ∧ y'.maxInt = y.maxInt ∧
      x'.encoding ≡ x.encoding * 16 ^ (max x.exponent y.exponent - x.exponent).toNat [ZMOD x.n] ∧
      y'.encoding ≡ y.encoding * 16 ^ (max x.exponent y.exponent - y.exponent).toNat [ZMOD y.n] := by
  unfold align
  by_cases h1 : x.exponent < y.exponent
  · rw [if_pos h1]
    unfold increaseExponentTo
    rw [if_neg (by omega)]
    simp only [bind, Except.bind]
    refine ⟨_, _, rfl, ?_, ?_, rfl, rfl, rfl, rfl, ?_, ?_⟩
    · simp; omega
    · omega
    · rw [max_eq_right h1.le]; exact Int.mod_modEq _ _
    · rw [max_eq_right h1.le]; simp [Int.ModEq.refl]
  · rw [if_neg h1]
    by_cases h2 : x.exponent > y.exponent
    · rw [if_pos h2]
      unfold increaseExponentTo
      rw [if_neg (by omega)]
      simp only [bind, Except.bind]
      refine ⟨_, _, rfl, ?_, ?_, rfl, rfl, rfl, rfl, ?_, ?_⟩
      · omega
      · simp; omega
      · rw [max_eq_left h2.le]; simp [Int.ModEq.refl]
      · rw [max_eq_left h2.le]; exact Int.mod_modEq _ _
    · rw [if_neg h2]
      refine ⟨_, _, rfl, by omega, by omega, rfl, rfl, rfl, rfl, ?_, ?_⟩
      · rw [show (max x.exponent y.exponent - x.exponent).toNat = 0 by omega]
        simp [Int.ModEq.refl]
      · rw [show (max x.exponent y.exponent - y.exponent).toNat = 0 by omega]
        simp [Int.ModEq.refl]

theorem shift_val (m e E : Int) (h : e ≤ E) :
    ((m * 16 ^ (E - e).toNat : Int) : Rat) * (16 : Rat) ^ (-E) = m * (16 : Rat) ^ (-e) := by
  push_cast
  rw [← zpow_natCast, mul_assoc, ← zpow_add₀ (by norm_num)]
  congr 2
  omega

/-- Result of `addFix` for two numbers over `Q`. -/
theorem addFix_ok (x y : Num) (hx : x.n = Q) (hy : y.n = Q) {mx my : Int}
    (hmx : mantissa x = .ok mx) (hmy : mantissa y = .ok my) :
    addFix x y = .ok (mkQ
      ((mx * 16 ^ (max x.exponent y.exponent - x.exponent).toNat
        + my * 16 ^ (max x.exponent y.exponent - y.exponent).toNat) % Q)
      (max x.exponent y.exponent)) := by
  obtain ⟨x', y', hal, hex, hey, _, _, _, _, hx', hy'⟩ := align_ok x y
  unfold addFix
  rw [hal]
  simp only [bind, Except.bind]
  rw [hex]
  congr 2
  rw [hx] at hx'
  rw [hy] at hy'
  have h1 := mantissa_modEq hmx
  have h2 := mantissa_modEq hmy
  rw [hx] at h1
  rw [hy] at h2
  exact Int.ModEq.add (hx'.trans (h1.mul_right _)) (hy'.trans (h2.mul_right _))

/-- Re-encoding a decoded number is exact for mantissas below `2^53`. -/
theorem encodeQ_scale_exact (m e : Int) (hm : |m| < 2 ^ 53)
    (ht : (scale m e).val = 0 ∨ tiny ≤ |(scale m e).val|)
    (hb : |(scale m e).val| ≤ ((Q / 3 - 1 : Int) : Rat)) :
    ∃ f i, encodeQ (scale m e) none = .ok f ∧ f.n = Q ∧ f.maxInt = Q / 3 - 1 ∧
      mantissa f = .ok i ∧ (i : Rat) * (16 : Rat) ^ (-f.exponent) = (scale m e).val := by
  have hint : ∀ z : Int, |(z : Rat)| ≤ ((Q / 3 - 1 : Int) : Rat) →
      ∃ f i, encodeQ (.int z) none = .ok f ∧ f.n = Q ∧ f.maxInt = Q / 3 - 1 ∧
      mantissa f = .ok i ∧ (i : Rat) * (16 : Rat) ^ (-f.exponent) = z := by
    intro z hz
    have hz' : |z| ≤ Q / 3 - 1 := by exact_mod_cast hz
    have hval : roundEven ((flush (.int z)).val * (16 : Rat) ^ (0 : Int)) = z := by
      rw [flush_int]; simp only [Scalar.val, zpow_zero, mul_one]; exact roundEven_intCast z
    refine ⟨⟨z % Q, 0, Q, Q / 3 - 1⟩, z, ?_, rfl, rfl, mantissa_mod z Q _ 0 (by decide) hz', by simp⟩
    unfold encodeQ
    rw [encode_ok_iff]
    refine ⟨0, ?_, ?_, ?_⟩
    · rw [flush_int]; rfl
    · rw [hval]; exact hz'
    · rw [hval]
  by_cases he : e ≤ 0
  · have hs : scale m e = .int (m * 16 ^ (-e).toNat) := by unfold scale; rw [if_pos he]
    rw [hs] at hb ⊢
    simp only [Scalar.val] at hb ⊢
    exact hint _ hb
  · have hs : scale m e = .float (m * (16 : Rat) ^ (-e)) := by unfold scale; rw [if_neg he]
    rw [hs] at hb ht ⊢
    simp only [Scalar.val] at hb ht ⊢
    by_cases h0 : (m : Rat) * (16 : Rat) ^ (-e) = 0
    · have hfl : encodeQ (.float (m * (16 : Rat) ^ (-e))) none = encodeQ (.int 0) none := by
        unfold encodeQ encode
        rw [flush_int, flush_of_tiny (.float _) (by simp) (by
          simp only [Scalar.val]; rw [h0, abs_zero]; exact tiny_pos)]
      rw [hfl, h0]
      have := hint 0 (by simp; decide +kernel)
      simpa using this
    · have ht' : tiny ≤ |(m : Rat) * (16 : Rat) ^ (-e)| := ht.resolve_left h0
      obtain ⟨x, hx⟩ : ∃ x, x = (m : Rat) * (16 : Rat) ^ (-e) := ⟨_, rfl⟩
      rw [← hx] at h0 ht' hb ⊢
      obtain ⟨hb1, hb2⟩ := frexp_bounds x h0
      have h16 : ∀ k : Int, (16 : Rat) ^ k = (2 : Rat) ^ (4 * k) := by
        intro k
        rw [show (16 : Rat) = (2 : Rat) ^ (4 : Int) by norm_num, ← zpow_mul]
      have hmq : |(m : Rat)| < 2 ^ 53 := by exact_mod_cast hm
      have hxlt : |x| < (2 : Rat) ^ (53 - 4 * e) := by
        have hp : (0 : Rat) < (16 : Rat) ^ (-e) := zpow_pos (by norm_num) _
        rw [hx, abs_mul, abs_of_pos hp]
        have := mul_lt_mul_of_pos_right hmq hp
        refine lt_of_lt_of_eq this ?_
        rw [h16, ← zpow_natCast, ← zpow_add₀ (by norm_num)]
        congr 1
        push_cast; ring
      have hE : frexpExp x - 1 < 53 - 4 * e :=
        (zpow_lt_zpow_iff_right₀ (by norm_num : (1 : Rat) < 2)).mp (lt_of_le_of_lt hb1 hxlt)
      obtain ⟨e', he'⟩ : ∃ e', e' = (53 - frexpExp x) / 4 := ⟨_, rfl⟩
      have hee : e ≤ e' := by omega
      have hxi : x * (16 : Rat) ^ e' = ((m * 16 ^ (e' - e).toNat : Int) : Rat) := by
        have := shift_val m e e' hee
        rw [hx, ← this, mul_assoc, ← zpow_add₀ (by norm_num)]
        simp
      have hival : roundEven ((flush (.float x)).val * (16 : Rat) ^ e') = m * 16 ^ (e' - e).toNat := by
        rw [flush_float x ht']; simp only [Scalar.val]
        rw [hxi, roundEven_intCast]
      have hle : |m * 16 ^ (e' - e).toNat| ≤ Q / 3 - 1 := by
        have h1 : |x * (16 : Rat) ^ e'| < 2 ^ 53 := by
          have hp : (0 : Rat) < (16 : Rat) ^ e' := zpow_pos (by norm_num) _
          rw [abs_mul, abs_of_pos hp]
          have h2 := mul_lt_mul_of_pos_right hb2 hp
          refine lt_of_lt_of_le h2 ?_
          rw [h16, ← zpow_add₀ (by norm_num), ← zpow_natCast]
          apply zpow_le_zpow_right₀ (by norm_num)
          push_cast; omega
        rw [hxi] at h1
        have h2 : |m * 16 ^ (e' - e).toNat| < 2 ^ 53 := by exact_mod_cast h1
        have h3 : (2 : Int) ^ 53 ≤ Q / 3 - 1 := by decide
        omega
      refine ⟨⟨(m * 16 ^ (e' - e).toNat) % Q, e', Q, Q / 3 - 1⟩, m * 16 ^ (e' - e).toNat,
        ?_, rfl, rfl, mantissa_mod _ Q _ _ (by decide) hle, ?_⟩
      · unfold encodeQ
        rw [encode_ok_iff]
        refine ⟨e', ?_, ?_, ?_⟩
        · rw [flush_float x ht']; simp [chooseExp, he']
        · rw [hival]; exact hle
        · rw [hival]
      · rw [← hxi, mul_assoc, ← zpow_add₀ (by norm_num)]
        simp

theorem scale_neg (m e : Int) : (scale m e).neg = scale (-m) e := by
  unfold scale
  split <;> simp [Scalar.neg]

end FP
end Verif
