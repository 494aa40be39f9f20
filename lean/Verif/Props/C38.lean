import Verif.Lemmas.Loss
import Verif.Lemmas.DTable
import Verif.Spec.C38
import Mathlib.Analysis.Calculus.Deriv.Abs

/-!
# C38: gradients and hessians are the derivatives of the loss
-/

set_option autoImplicit false

namespace Verif

open Loss Spec Real

/-- **Logistic loss** (two classes): for every label and score. -/
theorem C38_logistic (y s : ℝ) : GradAt logistic y s ∧ HessAt logistic y s := by
  have hd := sigmoid_deriv s
  have hp := sigmoid_pos s
  have hp1 := sigmoid_lt_one s
  refine ⟨?_, ?_⟩
  · have h1 := (hd.log hp.ne').const_mul y
    have h2 := (((hd.const_sub 1).log (by linarith)).const_mul (1 - y))
    have h3 := (h1.add h2).neg
    unfold GradAt logistic
    refine h3.congr_deriv ?_
    have : 1 - sigmoid s ≠ 0 := by linarith
    field_simp
    ring
  · exact hd.sub_const y

/-- **Least squares.** -/
theorem C38_lse (y s : ℝ) : GradAt lse y s ∧ HessAt lse y s := by
  have h := hasDerivAt_id s
  refine ⟨?_, ?_⟩
  · have := (h.const_sub y).mul (h.const_sub y)
    unfold GradAt lse
    refine this.congr_deriv ?_
    simp only [id]
    ring
  · have := (h.sub_const y).const_mul 2
    unfold HessAt lse
    exact this.congr_deriv (by ring)

private theorem clamp_ne (d : ℝ) : clampParam d ≠ 0 := by
  unfold clampParam floatZero
  split
  · norm_num
  · rename_i h
    rintro rfl
    exact h (by norm_num)

private theorem clamp_pos {d : ℝ} (h : 0 < d) : 0 < clampParam d := by
  unfold clampParam floatZero
  split
  · norm_num
  · exact h

/-- **Pseudo-Huber loss**, for every parameter. -/
theorem C38_huber (param y s : ℝ) : GradAt (huber param) y s ∧ HessAt (huber param) y s := by
  have hc := clamp_ne param
  unfold GradAt HessAt huber
  simp only
  generalize clampParam param = c at hc
  have hc2 : 0 < c ^ 2 := by positivity
  have hd : HasDerivAt (fun s => s - y) 1 s := (hasDerivAt_id s).sub_const y
  have hpos : 0 < 1 + (s - y) * (s - y) / c ^ 2 := by
    have : 0 ≤ (s - y) * (s - y) / c ^ 2 := div_nonneg (mul_self_nonneg _) hc2.le
    linarith
  have hq : HasDerivAt (fun s => 1 + (s - y) * (s - y) / c ^ 2) (2 * (s - y) / c ^ 2) s := by
    have := ((hd.mul hd).div_const (c ^ 2)).const_add 1
    exact this.congr_deriv (by ring)
  have hsq := hq.sqrt hpos.ne'
  have hroot : 0 < √(1 + (s - y) * (s - y) / c ^ 2) := Real.sqrt_pos.mpr hpos
  have hrr : √(1 + (s - y) * (s - y) / c ^ 2) ^ 2 = 1 + (s - y) * (s - y) / c ^ 2 := Real.sq_sqrt hpos.le
  refine ⟨?_, ?_⟩
  · have e : (fun s => c ^ 2 * (√(1 + ((s - y) / c) ^ 2) - 1)) =
        fun s => c ^ 2 * (√(1 + (s - y) * (s - y) / c ^ 2) - 1) := by
      funext t
      rw [div_pow, pow_two (t - y)]
    rw [e]
    refine ((hsq.sub_const 1).const_mul (c ^ 2)).congr_deriv ?_
    field_simp
  · refine (hd.div hsq hroot.ne').congr_deriv ?_
    have hp : (1 + (s - y) * (s - y) / c ^ 2) ^ (1.5 : ℝ) = √(1 + (s - y) * (s - y) / c ^ 2) ^ 3 := by
      generalize 1 + (s - y) * (s - y) / c ^ 2 = q at hpos
      rw [Real.sqrt_eq_rpow, ← Real.rpow_natCast, ← Real.rpow_mul hpos.le]
      norm_num
    rw [hp]
    generalize √(1 + (s - y) * (s - y) / c ^ 2) = r at *
    have h1 : (s - y) * (s - y) / c ^ 2 = r ^ 2 - 1 := by linarith
    have hr : r ≠ 0 := hroot.ne'
    have h2 : (s - y) * (2 * (s - y) / c ^ 2 / (2 * r)) = (r ^ 2 - 1) / r := by
      rw [← h1]; field_simp
    rw [h2]
    field_simp
    ring

/-- A function given by different formulas on both sides of 0. -/
private theorem two_sided {f fp fm : ℝ → ℝ} {f' d : ℝ} (h1 : ∀ t, 0 ≤ t → f t = fp t)
    (h2 : ∀ t, t ≤ 0 → f t = fm t) (hp : 0 ≤ d → HasDerivAt fp f' d)
    (hm : d ≤ 0 → HasDerivAt fm f' d) : HasDerivAt f f' d := by
  rcases lt_trichotomy d 0 with h | h | h
  · refine (hm h.le).congr_of_eventuallyEq ?_
    filter_upwards [Iio_mem_nhds h] with t ht
    exact h2 t (le_of_lt ht)
  · have a : HasDerivWithinAt f f' (Set.Ici 0) d :=
      (hp h.ge).hasDerivWithinAt.congr (fun t ht => h1 t ht) (h1 d h.ge)
    have b : HasDerivWithinAt f f' (Set.Iic 0) d :=
      (hm h.le).hasDerivWithinAt.congr (fun t ht => h2 t ht) (h2 d h.le)
    have := a.union b
    rwa [Set.Ici_union_Iic, hasDerivWithinAt_univ] at this
  · refine (hp h.le).congr_of_eventuallyEq ?_
    filter_upwards [Ioi_mem_nhds h] with t ht
    exact h1 t (le_of_lt ht)

/-- **Fair loss**, for every accepted (positive) parameter, also where prediction and label
agree. -/
theorem C38_fair (param : ℝ) (hp : 0 < param) (y s : ℝ) :
    GradAt (fair param) y s ∧ HessAt (fair param) y s := by
  have hc := clamp_pos hp
  unfold GradAt HessAt fair
  simp only
  generalize clampParam param = c at hc
  refine ⟨?_, ?_⟩
  · have h : HasDerivAt (fun d => c * |d| - c ^ 2 * log (|d| / c + 1))
        (c * (s - y) / (|s - y| + c)) (s - y) := by
      refine two_sided (fp := fun d => c * d - c ^ 2 * log (d / c + 1))
        (fm := fun d => c * (-d) - c ^ 2 * log (-d / c + 1))
        (fun t ht => by simp only [abs_of_nonneg ht]) (fun t ht => by simp only [abs_of_nonpos ht]) ?_ ?_
      · intro h0
        have hx := hasDerivAt_id (s - y)
        have hpos : 0 < (s - y) / c + 1 := by positivity
        have := (hx.const_mul c).sub ((((hx.div_const c).add_const 1).log (by simpa using hpos.ne')).const_mul (c ^ 2))
        refine this.congr_deriv ?_
        rw [abs_of_nonneg h0]
        simp only [id]
        have : s - y + c ≠ 0 := by positivity
        have h2 : (s - y) / c + 1 ≠ 0 := hpos.ne'
        have h3 : (s - y) / c + 1 = (s - y + c) / c := by field_simp
        rw [h3]
        field_simp
        ring
      · intro h0
        have hx := (hasDerivAt_id (s - y)).neg
        have hpos : 0 < -(s - y) / c + 1 := by
          have : 0 ≤ -(s - y) / c := div_nonneg (by linarith) hc.le
          linarith
        have := (hx.const_mul c).sub ((((hx.div_const c).add_const 1).log (by simpa using hpos.ne')).const_mul (c ^ 2))
        refine this.congr_deriv ?_
        rw [abs_of_nonpos h0]
        simp only [id, Pi.neg_apply]
        have : -(s - y) + c ≠ 0 := by linarith
        have h3 : -(s - y) / c + 1 = (-(s - y) + c) / c := by field_simp
        rw [h3]
        field_simp
        ring
    exact h.comp_sub_const s y
  · have h : HasDerivAt (fun d => c * d / (|d| + c)) (c ^ 2 / (|s - y| + c) ^ 2) (s - y) := by
      refine two_sided (fp := fun d => c * d / (d + c)) (fm := fun d => c * d / (-d + c))
        (fun t ht => by simp only [abs_of_nonneg ht]) (fun t ht => by simp only [abs_of_nonpos ht]) ?_ ?_
      · intro h0
        have hx := hasDerivAt_id (s - y)
        have hne : s - y + c ≠ 0 := by linarith
        refine ((hx.const_mul c).div (hx.add_const c) (by simpa using hne)).congr_deriv ?_
        rw [abs_of_nonneg h0]
        simp only [id]
        congr 1
        ring
      · intro h0
        have hx := hasDerivAt_id (s - y)
        have hne : -(s - y) + c ≠ 0 := by linarith
        refine ((hx.const_mul c).div (hx.neg.add_const c) (by simpa using hne)).congr_deriv ?_
        rw [abs_of_nonpos h0]
        simp only [id, Pi.neg_apply]
        congr 1
        ring
    exact h.comp_sub_const s y

/-- **Log-cosh loss.** -/
theorem C38_log_cosh (y s : ℝ) : GradAt logCosh y s ∧ HessAt logCosh y s := by
  unfold GradAt HessAt logCosh
  simp only
  have hd : HasDerivAt (fun s => s - y) 1 s := (hasDerivAt_id s).sub_const y
  have hc := cosh_pos (s - y)
  refine ⟨?_, ?_⟩
  · refine ((hd.cosh).log hc.ne').congr_deriv ?_
    rw [tanh_eq_sinh_div_cosh, mul_one]
  · have e : (fun s => tanh (s - y)) = fun s => sinh (s - y) / cosh (s - y) := by
      funext t; exact tanh_eq_sinh_div_cosh _
    rw [e]
    refine (hd.sinh.div hd.cosh hc.ne').congr_deriv ?_
    rw [tanh_eq_sinh_div_cosh]
    field_simp

/-- **Cross entropy with several classes.**  For every class `y` and every score `i`: entry `i` of
the gradient is the partial derivative of the loss by the score of class `i`, and entry `i` of the
hessian is the partial derivative of that entry of the gradient. -/
theorem C38_softmax (s : List ℝ) (y i : Nat) (v : ℝ) (hy : y < s.length) (hi : s[i]? = some v) :
    ∃ p g, softmax s = .ok p ∧ softmaxGrad y p = .ok g ∧
      HasDerivAt (lossAlong y s i) (g.getD i 0) v ∧
      HasDerivAt (gradAlong y s i) ((softmaxHess y p).getD i 0) v := by
  have hs : s ≠ [] := by rintro rfl; simp at hy
  have hilt : i < s.length := (List.getElem?_eq_some_iff.mp hi).1
  have hiv : s[i] = v := (List.getElem?_eq_some_iff.mp hi).2
  obtain ⟨w, hw⟩ : ∃ w, s[y]? = some w := ⟨s[y], by simp [hy]⟩
  -- the sum of the other exponentials
  obtain ⟨A, hA⟩ : ∃ A, A = (s.map exp).sum - exp v := ⟨_, rfl⟩
  have hsum : (s.map exp).sum = A + exp v := by linarith
  have hset : ∀ t, ((s.set i t).map exp).sum = A + exp t := fun t => by
    rw [expSum_set hi t, hA]
  have hne : ∀ t, s.set i t ≠ [] := fun t h => by
    have := congrArg List.length h
    simp only [List.length_set, List.length_nil] at this
    omega
  have hpos : ∀ t, 0 < A + exp t := fun t => by rw [← hset]; exact expSum_pos (hne t)
  have hsm : ∀ t, softmax (s.set i t) = .ok ((s.set i t).map fun u => exp u / (A + exp t)) := fun t => by
    rw [softmax_eq (hne t), hset]
  have hsm0 : softmax s = .ok (s.map fun u => exp u / (A + exp v)) := by
    rw [softmax_eq hs, hsum]
  have hgrad : softmaxGrad y (s.map fun u => exp u / (A + exp v)) =
      .ok ((s.map fun u => exp u / (A + exp v)).set y (exp w / (A + exp v) - 1)) := by
    unfold softmaxGrad
    rw [List.getElem?_map, hw]
    rfl
  refine ⟨_, _, hsm0, hgrad, ?_, ?_⟩
  · have hD : HasDerivAt (fun t => A + exp t) (exp v) v := (Real.hasDerivAt_exp v).const_add A
    by_cases hyi : y = i
    · subst hyi
      rw [hi, Option.some.injEq] at hw
      subst hw
      have e : lossAlong y s y = fun t => -log (exp t / (A + exp t)) := by
        funext t
        unfold lossAlong softmaxLoss
        simp only [hsm, List.getElem?_map, List.getElem?_set_self hilt, Option.map_some]
      rw [e]
      have := (((Real.hasDerivAt_exp v).div hD (hpos v).ne').log (div_pos (exp_pos v) (hpos v)).ne').neg
      refine this.congr_deriv ?_
      have h1 := (hpos v).ne'
      have h2 := exp_ne_zero v
      simp [List.getD_eq_getElem?_getD, hy, -exp_ne_zero]
      field_simp
      ring
    · have e : lossAlong y s i = fun t => -log (exp w / (A + exp t)) := by
        funext t
        unfold lossAlong softmaxLoss
        simp only [hsm, List.getElem?_map, List.getElem?_set_ne (Ne.symm hyi), hw, Option.map_some]
      rw [e]
      have := (((hasDerivAt_const v (exp w)).div hD (hpos v).ne').log (div_pos (exp_pos w) (hpos v)).ne').neg
      refine this.congr_deriv ?_
      have h1 := (hpos v).ne'
      have h2 := exp_ne_zero w
      simp [List.getD_eq_getElem?_getD, hyi, hi, -exp_ne_zero]
      field_simp
  · have hD : HasDerivAt (fun t => A + exp t) (exp v) v := (Real.hasDerivAt_exp v).const_add A
    have hE : HasDerivAt (fun t => exp t / (A + exp t)) (exp v / (A + exp v) * (1 - exp v / (A + exp v))) v := by
      refine ((Real.hasDerivAt_exp v).div hD (hpos v).ne').congr_deriv ?_
      have h1 := (hpos v).ne'
      field_simp
    have hh : (softmaxHess y (s.map fun u => exp u / (A + exp v))).getD i 0 =
        exp v / (A + exp v) * (1 - exp v / (A + exp v)) := by
      unfold softmaxHess
      simp [List.getD_eq_getElem?_getD, hi]
    rw [hh]
    by_cases hyi : y = i
    · subst hyi
      have e : gradAlong y s y = fun t => exp t / (A + exp t) - 1 := by
        funext t
        unfold gradAlong softmaxGrad
        simp only [hsm, List.getElem?_map, List.getElem?_set_self hilt, Option.map_some]
        simp [List.getD_eq_getElem?_getD, hy]
      rw [e]
      exact hE.sub_const 1
    · have e : gradAlong y s i = fun t => exp t / (A + exp t) := by
        funext t
        unfold gradAlong softmaxGrad
        simp only [hsm, List.getElem?_map, List.getElem?_set_ne (Ne.symm hyi), hw, Option.map_some]
        simp [List.getD_eq_getElem?_getD, hyi, hilt]
      rw [e]
      exact hE

/-- **Least absolute error**, where the claim holds: the gradient is right below the label and
more than `1e-6` above it.  The full claim is false, see `C38_lae_refuted`. -/
theorem C38_lae_partial (y s : ℝ) (h : s < y ∨ y + floatZero < s) : GradAt lae y s := by
  unfold GradAt lae
  simp only
  have hf : floatZero < 1 := by unfold floatZero; norm_num
  have hf0 : 0 < floatZero := by unfold floatZero; norm_num
  rcases h with h | h
  · have h1 : ¬ s - y > floatZero := by linarith
    have h2 : s - y < floatZero := by linarith
    rw [if_neg h1, if_pos h2, if_neg (by norm_num; linarith)]
    have hd := (hasDerivAt_id s).const_sub y
    refine hd.congr_of_eventuallyEq ?_
    filter_upwards [Iio_mem_nhds h] with t ht
    exact abs_of_pos (sub_pos.mpr ht)
  · have h1 : s - y > floatZero := by linarith
    rw [if_pos h1, if_neg (show ¬ (1 : ℝ) < floatZero by linarith), if_neg (by norm_num; linarith)]
    have hd := ((hasDerivAt_id s).const_sub y).neg
    simp only [neg_neg] at hd
    refine hd.congr_of_eventuallyEq ?_
    filter_upwards [Ioi_mem_nhds (show y < s by linarith)] with t ht
    exact abs_of_neg (sub_neg.mpr ht)

/-- **Least absolute error**: closer than `1e-6` above the label the gradient has the wrong sign
(at distance `5e-7` it is -1, the derivative is 1), and the hessian is nowhere the derivative of
the gradient: it is 1, the derivative 0. -/
theorem C38_lae_refuted :
    (∃ y s, ¬ GradAt lae y s ∧ HasDerivAt (fun s => lae.loss y (lae.predict s)) 1 s ∧
      lae.grad y s = -1) ∧
    ∃ y s, ¬ HessAt lae y s ∧ HasDerivAt (fun s => lae.grad y (lae.predict s)) 0 s := by
  have hf : floatZero = 1 / 1000000 := rfl
  constructor
  · refine ⟨0, 1 / 2000000, ?_⟩
    have hd : HasDerivAt (fun s => lae.loss 0 (lae.predict s)) 1 (1 / 2000000 : ℝ) := by
      refine (hasDerivAt_id (1 / 2000000 : ℝ)).congr_of_eventuallyEq ?_
      filter_upwards [Ioi_mem_nhds (show (0 : ℝ) < 1 / 2000000 by norm_num)] with t ht
      unfold lae
      simp only [zero_sub, abs_neg]
      exact abs_of_pos ht
    have hg : lae.grad 0 (1 / 2000000) = -1 := by
      unfold lae
      simp only [hf]
      norm_num
    refine ⟨fun h => ?_, hd, hg⟩
    have := h.unique hd
    have hp : lae.predict (1 / 2000000) = 1 / 2000000 := rfl
    rw [hp, hg] at this
    norm_num at this
  · refine ⟨0, 1, ?_⟩
    have hd : HasDerivAt (fun s => lae.grad 0 (lae.predict s)) 0 (1 : ℝ) := by
      refine (hasDerivAt_const (1 : ℝ) (1 : ℝ)).congr_of_eventuallyEq ?_
      filter_upwards [Ioi_mem_nhds (show (1 / 2 : ℝ) < 1 by norm_num)] with t ht
      have ht : 1 / 2 < t := ht
      unfold lae
      simp only [hf]
      rw [if_pos (show t - 0 > 1 / 1000000 by linarith)]
      norm_num
    refine ⟨fun h => ?_, hd⟩
    have := h.unique hd
    unfold lae at this
    norm_num at this

/-- **Tweedie loss**: neither the gradient nor the hessian is a derivative, e.g. for label 0,
parameter 3/2 and score 1, where the derivative of the loss is twice the gradient and the
derivative of the gradient is twice the hessian. -/
theorem C38_tweedie_refuted :
    ∃ rho y s, 1 ≤ rho ∧ rho < 2 ∧ ¬ GradAt (tweedie rho) y s ∧ ¬ HessAt (tweedie rho) y s := by
  refine ⟨3 / 2, 0, 1, by norm_num, by norm_num, ?_, ?_⟩
  · have hd : HasDerivAt (fun s => (tweedie (3 / 2)).loss 0 ((tweedie (3 / 2)).predict s))
        (2 * exp (1 / 2)) 1 := by
      have h1 : HasDerivAt (fun s => 2 * exp (1 / 2) * log s) (2 * exp (1 / 2)) 1 := by
        have := (Real.hasDerivAt_log (show (1 : ℝ) ≠ 0 by norm_num)).const_mul (2 * exp (1 / 2))
        simpa using this
      refine h1.congr_of_eventuallyEq ?_
      filter_upwards [Ioi_mem_nhds (show (1 / 2 : ℝ) < 1 by norm_num)] with t ht
      have ht : 1 / 2 < t := ht
      unfold tweedie floatZero
      simp only
      rw [max_eq_right (show (1 / 1000000 : ℝ) ≤ t by linarith)]
      norm_num
      ring
    intro h
    have := h.unique hd
    unfold tweedie at this
    norm_num at this
  · have hd : HasDerivAt (fun s => (tweedie (3 / 2)).grad 0 ((tweedie (3 / 2)).predict s))
        (exp (1 / 2)) 1 := by
      have h1 : HasDerivAt (fun s => exp (1 / 2) * s) (exp (1 / 2)) (1 : ℝ) := by
        have := (hasDerivAt_id (1 : ℝ)).const_mul (exp (1 / 2))
        simpa using this
      refine h1.congr_of_eventuallyEq (Filter.Eventually.of_forall fun t => ?_)
      unfold tweedie
      norm_num
    intro h
    have := h.unique hd
    unfold tweedie at this
    norm_num at this

/-- **The reported loss** of a data set is the average of the losses of the samples that are in
both tables; without such samples there is an exception. -/
theorem C38_reported {K Y S : Type} [DecidableEq K] (term : Y → S → ℝ) (y : DTable K Y)
    (scores : DTable K S) (hs : scores.WF) :
    let both := scores.data.filterMap fun p => (y.data.get? p.1).map fun l => term l p.2
    meanLoss term y scores = if both = [] then .error .typeError else .ok (both.sum / both.length) := by
  intro both
  have hv : Dict.values (DTable.joinLoop y.data (fun a b => (term a b, (1 : ℝ))) scores.data) =
      both.map fun t => (t, 1) := by
    show _ = List.map _ (scores.data.filterMap _)
    induction scores.data with
    | nil => rfl
    | cons p l ih =>
      obtain ⟨k, v⟩ := p
      unfold DTable.joinLoop
      cases hk : y.data.get? k with
      | none => simp only [List.filterMap_cons, hk, Option.map_none]; exact ih
      | some a =>
        simp only [List.filterMap_cons, hk, Option.map_some, List.map_cons]
        rw [← ih]; rfl
  unfold meanLoss
  rw [DTable.join_ok y hs]
  simp only [hv]
  cases hb : both with
  | nil => rfl
  | cons b bs =>
    simp only [List.map_cons, foldl_pair]
    rw [if_neg (by simp)]
    congr 2
    · simp [Function.comp_def]
    · simp [Function.comp_def]; ring

example : ∃ y s : ℝ, s < y ∨ y + floatZero < s := ⟨1, 0, .inl (by norm_num)⟩

example : (1 : Nat) < [(0 : ℝ), 5, 2].length ∧ [(0 : ℝ), 5, 2][2]? = some 2 := by simp

end Verif
