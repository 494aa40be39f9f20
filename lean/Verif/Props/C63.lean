import Verif.Model.Activation
import Mathlib.Analysis.SpecialFunctions.Trigonometric.DerivHyp
import Mathlib.Tactic.FieldSimp
import Mathlib.Tactic.Positivity

/-!
# C63: activation functions
-/

set_option autoImplicit false

namespace Verif

open Real Activation

/-- The logistic function, both branches: `1 / (1 + exp (-x))`. -/
theorem C63_sigmoid (x : ℝ) :
    sigmoidWith exp x = 1 / (1 + exp (-x)) ∧ Loss.sigmoid x = sigmoidWith exp x := by
  refine ⟨?_, rfl⟩
  unfold sigmoidWith
  split
  · rw [exp_neg]
    have := exp_pos x
    field_simp
    ring
  · rfl

/-- The sigmoid is between 0 and 1, increasing, and symmetric about 1/2. -/
theorem C63_sigmoid_shape (x y : ℝ) :
    0 < sigmoidWith exp x ∧ sigmoidWith exp x < 1 ∧
    (x < y → sigmoidWith exp x < sigmoidWith exp y) ∧
    sigmoidWith exp (-x) = 1 - sigmoidWith exp x := by
  simp only [(C63_sigmoid _).1]
  have hx := exp_pos (-x)
  have hy := exp_pos (-y)
  refine ⟨by positivity, ?_, fun h => ?_, ?_⟩
  · rw [div_lt_one (by positivity)]; linarith
  · apply one_div_lt_one_div_of_lt (by positivity)
    have := exp_lt_exp.mpr (neg_lt_neg h)
    linarith
  · rw [neg_neg, exp_neg]
    have := exp_pos x
    field_simp
    ring

/-- `log_logistic` is the logarithm of the sigmoid, `softplus` its counterpart. -/
theorem C63_log (x : ℝ) :
    logLogisticWith exp x = log (sigmoidWith exp x) ∧
    softplusWith exp x = -logLogisticWith exp (-x) ∧
    max x 0 < softplusWith exp x ∧ softplusWith exp x ≤ max x 0 + log 2 := by
  have key : ∀ x : ℝ, logLogisticWith exp x = -log (1 + exp (-x)) := by
    intro x
    unfold logLogisticWith
    split
    · have h1 : 1 + exp (-x) = (1 + exp x) / exp x := by
        rw [exp_neg]
        have := exp_pos x
        field_simp
        ring
      rw [h1, log_div (by have := exp_pos x; positivity) (exp_pos x).ne', log_exp]
      ring
    · rfl
  have hx := exp_pos x
  refine ⟨?_, ?_, ?_, ?_⟩
  · rw [key, (C63_sigmoid x).1, one_div, log_inv]
  · rw [key, neg_neg, neg_neg]; rfl
  · unfold softplusWith
    rcases le_total x 0 with h | h
    · rw [max_eq_right h]
      exact log_pos (by linarith)
    · rw [max_eq_left h, lt_log_iff_exp_lt (by positivity)]
      linarith
  · unfold softplusWith
    rcases le_total x 0 with h | h
    · rw [max_eq_right h, zero_add]
      apply log_le_log (by positivity)
      have := exp_le_one_iff.mpr h
      linarith
    · rw [max_eq_left h]
      have h1 : 1 ≤ exp x := one_le_exp h
      calc log (1 + exp x) ≤ log (exp x * 2) := log_le_log (by positivity) (by linarith)
        _ = x + log 2 := by rw [log_mul hx.ne' (by norm_num), log_exp]

/-- `hard_sigmoid` is 0 below -2.5, 1 above 2.5, linear between, and symmetric about 1/2. -/
theorem C63_hard_sigmoid (x : ℝ) :
    (x ≤ -2.5 → hardSigmoid x = 0) ∧ (2.5 ≤ x → hardSigmoid x = 1) ∧
    (-2.5 ≤ x → x ≤ 2.5 → hardSigmoid x = 0.2 * x + 0.5) ∧
    hardSigmoid (-x) = 1 - hardSigmoid x := by
  unfold hardSigmoid
  refine ⟨fun h => ?_, fun h => ?_, fun h1 h2 => ?_, ?_⟩
  · rw [max_eq_right (by norm_num at *; linarith)]; norm_num
  · rw [max_eq_left (by norm_num at *; linarith), min_eq_right (by norm_num at *; linarith)]
  · rw [max_eq_left (by norm_num at *; linarith), min_eq_left (by norm_num at *; linarith)]
  · rcases le_total (0.2 * x + 0.5) 0 with a | a
    · rw [max_eq_right a, max_eq_left (by norm_num at *; linarith), min_eq_right (by norm_num at *; linarith)]
      norm_num
    · rw [max_eq_left a]
      rcases le_total (0.2 * x + 0.5) 1 with b | b
      · rw [min_eq_left b, max_eq_left (by norm_num at *; linarith), min_eq_left (by norm_num at *; linarith)]
        norm_num; ring
      · rw [min_eq_right b, max_eq_right (by norm_num at *; linarith)]; norm_num

/-- `softsign` and `tanh` are odd and between -1 and 1; `softsign` is increasing. -/
theorem C63_signs (x y : ℝ) :
    |softsign x| < 1 ∧ softsign (-x) = -softsign x ∧ (x < y → softsign x < softsign y) ∧
    |Activation.tanh x| < 1 ∧ Activation.tanh (-x) = -Activation.tanh x := by
  have hx : 0 < 1 + |x| := by positivity
  have hy : 0 < 1 + |y| := by positivity
  refine ⟨?_, ?_, fun h => ?_, ?_, ?_⟩
  · unfold softsign
    rw [abs_div, abs_of_pos hx, div_lt_one hx]; linarith
  · unfold softsign; rw [abs_neg, neg_div]
  · unfold softsign
    rw [div_lt_div_iff₀ hx hy]
    rcases le_total 0 x with h0 | h0 <;> rcases le_total 0 y with h1 | h1
    · rw [abs_of_nonneg h0, abs_of_nonneg h1]; linarith
    · linarith
    · rw [abs_of_nonpos h0, abs_of_nonneg h1]; nlinarith
    · rw [abs_of_nonpos h0, abs_of_nonpos h1]; linarith
  · exact abs_tanh_lt_one x
  · exact tanh_neg x

private theorem le_foldl_max (xs : List ℝ) (x : ℝ) : x ≤ xs.foldl max x ∧ ∀ v ∈ xs, v ≤ xs.foldl max x := by
  induction xs generalizing x with
  | nil => simp
  | cons a xs ih =>
    obtain ⟨h1, h2⟩ := ih (max x a)
    refine ⟨le_trans (le_max_left _ _) h1, ?_⟩
    intro v hv
    rcases List.mem_cons.mp hv with rfl | hv
    · exact le_trans (le_max_right _ _) h1
    · exact h2 v hv

/-- **No overflow**: `sigmoid`, `softmax` and `log_logistic` only use the exponential function of
numbers that are not positive – two functions that agree there give the same results.  (The
exponential function of floats overflows above 709.) -/
theorem C63_no_overflow_partial (e e' : ℝ → ℝ) (h : ∀ t ≤ 0, e t = e' t) :
    (∀ x, sigmoidWith e x = sigmoidWith e' x) ∧ (∀ x, logLogisticWith e x = logLogisticWith e' x) ∧
    (∀ xs, softmaxWith e xs = softmaxWith e' xs) ∧
    ∀ xs, Loss.softmax xs = softmaxWith exp xs := by
  refine ⟨fun x => ?_, fun x => ?_, fun xs => ?_, fun _ => rfl⟩
  · unfold sigmoidWith
    split
    · rename_i hx; rw [h x hx]
    · rename_i hx; rw [h (-x) (by linarith)]
  · unfold logLogisticWith
    split
    · rename_i hx; rw [h x hx]
    · rename_i hx; rw [h (-x) (by linarith)]
  · unfold softmaxWith
    cases hm : Loss.npMax xs with
    | error err => rfl
    | ok m =>
      have hmap : xs.map (fun v => e (v - m)) = xs.map (fun v => e' (v - m)) := by
        apply List.map_congr_left
        intro v hv
        apply h
        cases xs with
        | nil => simp at hv
        | cons a xs =>
          cases hm
          obtain ⟨h1, h2⟩ := le_foldl_max xs a
          rcases List.mem_cons.mp hv with rfl | hv
          · linarith
          · linarith [h2 v hv]
      simp only [hmap]

/-- `softplus` does use it for large numbers: what `e` gives there is what matters. -/
theorem C63_softplus_refuted (x : ℝ) (hx : 0 < x) :
    ∃ e e' : ℝ → ℝ, (∀ t ≤ 0, e t = e' t) ∧ (∀ t, t < x → e t = exp t ∧ e' t = exp t) ∧
      softplusWith e x ≠ softplusWith e' x := by
  refine ⟨exp, fun t => if t < x then exp t else 2 * exp t, ?_, ?_, ?_⟩
  · intro t ht; simp [lt_of_le_of_lt ht hx]
  · intro t ht; simp [ht]
  · unfold softplusWith
    simp only [lt_irrefl, if_false]
    have h0 := exp_pos x
    intro hc
    have := log_injOn_pos (by simp only [Set.mem_Ioi]; positivity) (by simp only [Set.mem_Ioi]; positivity) hc
    linarith

/-- Two functions that meet the hypothesis of `C63_no_overflow_partial` and differ at 1. -/
example : ∃ e e' : ℝ → ℝ, (∀ t ≤ 0, e t = e' t) ∧ e 1 ≠ e' 1 := by
  refine ⟨fun t => max t 0, fun _ => 0, fun t ht => max_eq_right ht, ?_⟩
  norm_num

end Verif
