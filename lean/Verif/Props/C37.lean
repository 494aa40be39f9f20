import Verif.Lemmas.Loss
import Verif.Props.C33

/-!
# C37: predicted probabilities are probabilities
-/

set_option autoImplicit false

namespace Verif

open Loss Labels

/-- **Two classes.**  Both branches of the code compute the logistic function; it lies strictly
between 0 and 1, increases with the score, maps 0 to 1/2, and opposite scores give complementary
probabilities. -/
theorem C37_binary :
    (∀ x, sigmoid x = 1 / (1 + Real.exp (-x))) ∧ (∀ x, 0 < sigmoid x ∧ sigmoid x < 1) ∧
    StrictMono sigmoid ∧ sigmoid 0 = 1 / 2 ∧ ∀ x, sigmoid (-x) = 1 - sigmoid x :=
  ⟨sigmoid_eq, fun x => ⟨sigmoid_pos x, sigmoid_lt_one x⟩, sigmoid_strictMono,
    by rw [sigmoid_eq]; norm_num, fun x => (one_sub_sigmoid x).symm⟩

/-- **Several classes.**  For a non-empty list of scores the transform gives one positive number
per score, adding up to 1, the larger the larger the score; subtracting the maximum has no effect. -/
theorem C37_softmax (s : List ℝ) (hs : s ≠ []) :
    ∃ p, softmax s = .ok p ∧ p.length = s.length ∧ (∀ v ∈ p, 0 < v) ∧ p.sum = 1 ∧
      (∀ (i j : Nat) a b u v, s[i]? = some a → s[j]? = some b → p[i]? = some u → p[j]? = some v →
        (a < b ↔ u < v)) ∧
      ∀ (i : Nat) a, s[i]? = some a → p[i]? = some (Real.exp a / (s.map Real.exp).sum) := by
  have hpos := expSum_pos hs
  refine ⟨_, softmax_eq hs, by simp, ?_, ?_, ?_, ?_⟩
  · intro v hv
    obtain ⟨w, _, rfl⟩ := List.mem_map.mp hv
    exact div_pos (Real.exp_pos w) hpos
  · have : (s.map fun v => Real.exp v / (s.map Real.exp).sum) =
        s.map fun v => Real.exp v * ((s.map Real.exp).sum)⁻¹ := by
      apply List.map_congr_left; intro v _; rw [div_eq_mul_inv]
    rw [this, List.sum_map_mul_right]
    exact mul_inv_cancel₀ hpos.ne'
  · intro i j a b u v hi hj hu hv
    rw [List.getElem?_map, hi, Option.map_some, Option.some.injEq] at hu
    rw [List.getElem?_map, hj, Option.map_some, Option.some.injEq] at hv
    rw [← hu, ← hv, div_lt_div_iff_of_pos_right hpos, Real.exp_lt_exp]
  · intro i a hi
    rw [List.getElem?_map, hi, Option.map_some]

/-- Adding the same number to all scores changes nothing. -/
theorem C37_shift (s : List ℝ) (c : ℝ) : softmax (s.map (· + c)) = softmax s := by
  by_cases hs : s = []
  · subst hs; rfl
  · rw [softmax_eq hs, softmax_eq (by simpa using hs)]
    have h1 : ((s.map (· + c)).map Real.exp).sum = (s.map Real.exp).sum * Real.exp c := by
      rw [← List.sum_map_mul_right, List.map_map]
      congr 1
      apply List.map_congr_left
      intro v _
      exact Real.exp_add v c
    rw [h1, List.map_map]
    congr 1
    apply List.map_congr_left
    intro v _
    simp only [Function.comp, Real.exp_add]
    exact mul_div_mul_right _ _ (Real.exp_ne_zero c)

/-- Without scores `np.max` raises. -/
theorem C37_empty : softmax [] = .error .valueError := rfl

/-- **The predicted label in terms of the score**: with two classes and threshold 1/2 the second
class is predicted exactly for positive scores. -/
theorem C37_label {K T : Type} [DecidableEq K] (c0 c1 : Label T)
    (given : DTable K (Option (Label T))) (scores : DTable K (List Rat)) (hs : scores.WF)
    (hlen : ∀ k s, scores.data.get? k = some s → s.length = 1) :
    ∃ R, predictRows (fun x : Rat => sigmoid x) (fun _ => []) 2 [c0, c1] (1 / 2) given scores = .ok R ∧
      ∀ k row, R.data.get? k = some row → ∃ x : Rat, scores.data.get? k = some [x] ∧
        row.label = (if 0 < x then c1 else c0) ∧ 0 < row.score ∧ row.score < 1 := by
  obtain ⟨R, h1, h2⟩ := C33_binary (fun x : Rat => sigmoid x) (fun _ => []) c0 c1 (1 / 2 : ℝ) given
    scores hs hlen
  refine ⟨R, h1, fun k row hk => ?_⟩
  obtain ⟨g, x, _, q2, rfl⟩ := (h2 k row).mp hk
  refine ⟨x, q2, ?_, sigmoid_pos _, sigmoid_lt_one _⟩
  have h0 : sigmoid 0 = 1 / 2 := C37_binary.2.2.2.1
  have : sigmoid x > 1 / 2 ↔ 0 < x := by
    rw [← h0, gt_iff_lt, sigmoid_strictMono.lt_iff_lt]
    exact_mod_cast Iff.rfl
  simp only [this]

/-- Scores of different size: the larger probability is the second. -/
example : ∃ p, softmax [1, 2] = .ok p ∧ ∀ u v, p[0]? = some u → p[1]? = some v → u < v := by
  obtain ⟨p, h1, _, _, _, h5, _⟩ := C37_softmax [1, 2] (by simp)
  exact ⟨p, h1, fun u v hu hv => (h5 0 1 1 2 u v rfl rfl hu hv).mp (by norm_num)⟩

example : (⟨[(1, [3]), (2, [-1])]⟩ : DTable Nat (List Rat)).WF ∧
    ∀ k s, (⟨[(1, [3]), (2, [-1])]⟩ : DTable Nat (List Rat)).data.get? k = some s → s.length = 1 := by
  refine ⟨by unfold DTable.WF Dict.WF; decide, fun k s h => ?_⟩
  have := Dict.get?_mem h
  simp only [List.mem_cons, Prod.mk.injEq, List.not_mem_nil, or_false] at this
  rcases this with ⟨_, rfl⟩ | ⟨_, rfl⟩ <;> rfl

end Verif
