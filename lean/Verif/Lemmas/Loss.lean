import Verif.Model.Loss
import Mathlib.Analysis.SpecialFunctions.ExpDeriv
import Mathlib.Analysis.SpecialFunctions.Log.Deriv
import Mathlib.Analysis.SpecialFunctions.Sqrt
import Mathlib.Analysis.SpecialFunctions.Trigonometric.DerivHyp

/-! # Lemmas on score transforms -/

set_option autoImplicit false

namespace Verif
namespace Loss

open Real

theorem sigmoid_eq (x : ℝ) : sigmoid x = 1 / (1 + exp (-x)) := by
  unfold sigmoid
  split
  · rw [exp_neg]
    have := exp_pos x
    field_simp
    ring
  · rfl

theorem sigmoid_pos (x : ℝ) : 0 < sigmoid x := by
  rw [sigmoid_eq]; positivity

theorem one_sub_sigmoid (x : ℝ) : 1 - sigmoid x = sigmoid (-x) := by
  rw [sigmoid_eq, sigmoid_eq, neg_neg, exp_neg]
  have := exp_pos x
  field_simp
  ring

theorem sigmoid_lt_one (x : ℝ) : sigmoid x < 1 := by
  have := sigmoid_pos (-x)
  rw [← one_sub_sigmoid] at this
  linarith

theorem sigmoid_strictMono : StrictMono sigmoid := by
  intro a b h
  rw [sigmoid_eq, sigmoid_eq]
  have := exp_lt_exp.mpr (neg_lt_neg h)
  have := exp_pos (-b)
  exact one_div_lt_one_div_of_lt (by linarith) (by linarith)

theorem sigmoid_deriv (x : ℝ) : HasDerivAt sigmoid (sigmoid x * (1 - sigmoid x)) x := by
  have he : sigmoid = fun x => (1 + exp (-x))⁻¹ := by
    funext x; rw [sigmoid_eq, one_div]
  have hpos : (1 + exp (-x)) ≠ 0 := by positivity
  have h1 : HasDerivAt (fun x => 1 + exp (-x)) (-exp (-x)) x := by
    have := ((hasDerivAt_id x).neg.exp).const_add 1
    simpa using this
  have h2 := h1.inv hpos
  rw [he]
  refine h2.congr_deriv ?_
  field_simp
  ring

theorem npMax_ok {x : List ℝ} (h : x ≠ []) : ∃ m, npMax x = .ok m := by
  cases x with
  | nil => exact absurd rfl h
  | cons a l => exact ⟨_, rfl⟩

/-- Subtracting the maximum does not matter. -/
theorem softmax_eq {x : List ℝ} (h : x ≠ []) :
    softmax x = .ok (x.map fun v => exp v / (x.map exp).sum) := by
  obtain ⟨m, hm⟩ := npMax_ok h
  unfold softmax
  rw [hm]
  simp only [List.map_map]
  congr 1
  have hs : (x.map fun v => exp (v - m)).sum = (x.map exp).sum * exp (-m) := by
    rw [← List.sum_map_mul_right]
    congr 1
    apply List.map_congr_left
    intro v _
    rw [← exp_add, sub_eq_add_neg]
  apply List.map_congr_left
  intro v _
  simp only [Function.comp]
  rw [hs, sub_eq_add_neg, exp_add]
  exact mul_div_mul_right _ _ (exp_ne_zero _)

theorem expSum_pos {x : List ℝ} (h : x ≠ []) : 0 < (x.map exp).sum := by
  cases x with
  | nil => exact absurd rfl h
  | cons a l =>
    have : 0 ≤ (l.map exp).sum := List.sum_nonneg (by
      intro v hv
      obtain ⟨w, _, rfl⟩ := List.mem_map.mp hv
      exact (exp_pos w).le)
    simp only [List.map_cons, List.sum_cons]
    have := exp_pos a
    linarith

/-- The sum of exponentials after changing one entry. -/
theorem expSum_set : ∀ {x : List ℝ} {i : Nat} {v : ℝ} (_ : x[i]? = some v) (t : ℝ),
    ((x.set i t).map exp).sum = (x.map exp).sum - exp v + exp t
  | [], i, v, h, t => by simp at h
  | a :: l, 0, v, h, t => by
    simp only [List.getElem?_cons_zero, Option.some.injEq] at h
    subst h
    simp
    ring
  | a :: l, i + 1, v, h, t => by
    have h : l[i]? = some v := by simpa using h
    have := expSum_set h t
    simp only [List.set_cons_succ, List.map_cons, List.sum_cons, this]
    ring

theorem foldl_pair (ps : List (ℝ × ℝ)) : ∀ p : ℝ × ℝ,
    ps.foldl (fun (a b : ℝ × ℝ) => (a.1 + b.1, a.2 + b.2)) p =
      (p.1 + (ps.map Prod.fst).sum, p.2 + (ps.map Prod.snd).sum) := by
  induction ps with
  | nil => intro p; simp
  | cons q ps ih =>
    intro p
    rw [List.foldl_cons, ih]
    simp only [List.map_cons, List.sum_cons]
    ring_nf

end Loss
end Verif
