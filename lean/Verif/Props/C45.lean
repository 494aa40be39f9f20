import Verif.Model.Splitter
import Verif.Spec.C45
import Mathlib.Tactic.Linarith
import Mathlib.Tactic.Ring
import Mathlib.Tactic.FieldSimp
import Mathlib.Tactic.Positivity

/-! # C45 – leaf weights and gains are optimal for the regularised objective -/

set_option autoImplicit false

namespace Verif
open DTree Spec

private theorem complete_square (lam G H : Rat) (h : 0 < H + lam) (w : ℝ) :
    objective lam G H w = (H + lam : ℝ) / 2 * (w + G / (H + lam)) ^ 2 - (G ^ 2 / (H + lam)) / 2 := by
  have h' : (H + lam : ℝ) ≠ 0 := by exact_mod_cast ne_of_gt h
  unfold objective
  field_simp
  ring

private theorem best_unique {lam G H : Rat} {m m' : ℝ} (h : IsBestObjective lam G H m)
    (h' : IsBestObjective lam G H m') : m = m' := by
  obtain ⟨⟨w, rfl⟩, h2⟩ := h
  obtain ⟨⟨w', rfl⟩, h2'⟩ := h'
  exact le_antisymm (h2 w') (h2' w)

private theorem best_value (lam G H : Rat) (h : 0 < H + lam) :
    IsBestObjective lam G H (-(G ^ 2 / (H + lam) : ℝ) / 2) := by
  have hr : (0 : ℝ) < H + lam := by exact_mod_cast h
  constructor
  · refine ⟨-(G / (H + lam)), ?_⟩
    rw [complete_square lam G H h]
    ring
  · intro w
    rw [complete_square lam G H h]
    have : (0 : ℝ) ≤ (H + lam : ℝ) / 2 * (w + G / (H + lam)) ^ 2 := by positivity
    linarith

/-- **The leaf weight is the unique minimiser** of the objective over all real weights. -/
theorem C45_weight_optimal (lam G H : Rat) (h : 0 < H + lam) :
    ∃ w, nodeWeight id lam G H = .ok w ∧
      ∀ v : ℝ, objective lam G H w ≤ objective lam G H v ∧
        (objective lam G H v = objective lam G H w → v = w) := by
  have hr : (0 : ℝ) < H + lam := by exact_mod_cast h
  have hne : lam + H ≠ 0 := by rw [add_comm]; exact ne_of_gt h
  refine ⟨-G / (lam + H), by simp [nodeWeight, DTree.div, hne], ?_⟩
  intro v
  have hw : ((-G / (lam + H) : Rat) : ℝ) + G / (H + lam) = 0 := by
    push_cast
    rw [add_comm (lam : ℝ) H]
    ring
  rw [complete_square lam G H h, complete_square lam G H h, hw]
  constructor
  · have : (0 : ℝ) ≤ (H + lam : ℝ) / 2 * (v + G / (H + lam)) ^ 2 := by positivity
    linarith
  · intro he
    have h0 : (H + lam : ℝ) / 2 * (v + G / (H + lam)) ^ 2 = 0 := by linarith
    rcases mul_eq_zero.mp h0 with h1 | h1
    · linarith
    · have := pow_eq_zero_iff (two_ne_zero) |>.mp h1
      linarith

/-- **The node score is twice the reduction** achieved against weight zero. -/
theorem C45_node_score (lam G H : Rat) (h : 0 < H + lam) :
    ∃ s, nodeGain id lam G H = .ok s ∧ ∀ m, IsBestObjective lam G H m →
      (s : ℝ) = 2 * (objective lam G H 0 - m) := by
  have hne : H + lam ≠ 0 := ne_of_gt h
  refine ⟨G * G / (H + lam), by simp [nodeGain, DTree.div, hne], ?_⟩
  intro m hm
  rw [best_unique hm (best_value lam G H h)]
  simp only [objective]
  push_cast
  ring

/-- **The gain of a split is twice the improvement** of the best objective when the two sides get
their own weights. -/
theorem C45_gain (lam G H Gl Hl Gr Hr : Rat) (h : 0 < H + lam) (hl : 0 < Hl + lam) (hr : 0 < Hr + lam) :
    ∃ g, splitGain id lam G H Gl Hl Gr Hr = .ok g ∧
      ∀ m ml mr, IsBestObjective lam G H m → IsBestObjective lam Gl Hl ml →
        IsBestObjective lam Gr Hr mr → (g : ℝ) = 2 * (m - (ml + mr)) := by
  refine ⟨Gl * Gl / (Hl + lam) + Gr * Gr / (Hr + lam) - G * G / (H + lam), ?_, ?_⟩
  · simp [splitGain, nodeGain, DTree.div, ne_of_gt h, ne_of_gt hl, ne_of_gt hr, bind, Except.bind,
      pure, Except.pure]
  · intro m ml mr h1 h2 h3
    rw [best_unique h1 (best_value lam G H h), best_unique h2 (best_value lam Gl Hl hl),
      best_unique h3 (best_value lam Gr Hr hr)]
    push_cast
    ring

/-- Without regularisation splitting never makes the objective worse. -/
theorem C45_gain_nonneg (Gl Hl Gr Hr : Rat) (hl : 0 < Hl) (hr : 0 < Hr) :
    ∃ g, splitGain id 0 (Gl + Gr) (Hl + Hr) Gl Hl Gr Hr = .ok g ∧ 0 ≤ g ∧
      (g = 0 ↔ nodeWeight id 0 Gl Hl = nodeWeight id 0 Gr Hr) := by
  have hs : 0 < Hl + Hr := by linarith
  refine ⟨Gl * Gl / Hl + Gr * Gr / Hr - (Gl + Gr) * (Gl + Gr) / (Hl + Hr), ?_, ?_⟩
  · simp [splitGain, nodeGain, DTree.div, ne_of_gt hs, ne_of_gt hl, ne_of_gt hr, bind, Except.bind,
      pure, Except.pure]
  have hl' := ne_of_gt hl
  have hr' := ne_of_gt hr
  have hs' := ne_of_gt hs
  have e : Gl * Gl / Hl + Gr * Gr / Hr - (Gl + Gr) * (Gl + Gr) / (Hl + Hr) =
      (Gl * Hr - Gr * Hl) ^ 2 / (Hl * Hr * (Hl + Hr)) := by
    field_simp
    ring
  rw [e]
  refine ⟨by positivity, ?_⟩
  have hp : Hl * Hr * (Hl + Hr) ≠ 0 := by positivity
  rw [div_eq_zero_iff, or_iff_left hp, pow_eq_zero_iff two_ne_zero, sub_eq_zero]
  simp only [nodeWeight, DTree.div, id_eq, zero_add, if_neg hl', if_neg hr', Except.ok.injEq]
  rw [div_eq_div_iff hl' hr']
  constructor <;> intro h <;> linarith

/-- With regularisation the gain can be negative. -/
theorem C45_gain_regularised_negative : ∃ g, splitGain id 1 2 2 1 1 1 1 = .ok g ∧ g < 0 :=
  ⟨-1 / 3, by decide +kernel, by norm_num⟩

/-- If nothing regularises a node without hessian, score and weight raise (whatever the rounding).
(So it is for Python floats; for numpy floats see `C74_weight`.) -/
theorem C45_zero_division (rnd : Rat → Rat) (lam G H : Rat) (h : rnd (H + lam) = 0) :
    nodeGain rnd lam G H = .error .zeroDivision ∧ nodeWeight rnd lam G H = .error .zeroDivision := by
  have h' : rnd (lam + H) = 0 := by rw [add_comm]; exact h
  simp [nodeGain, nodeWeight, DTree.div, h, h']

example : nodeWeight id (1 / 10) (-3) (1 / 2) = .ok 5 ∧ (0 : Rat) < 1 / 2 + 1 / 10 := by
  constructor
  · decide +kernel
  · norm_num

end Verif
