import Verif.Model.Converge
import Verif.Spec.C62
import Mathlib.Algebra.Order.Group.Abs
import Mathlib.Tactic.NormNum
import Mathlib.Tactic.Linarith

/-!
# C62: convergence objects
-/

set_option autoImplicit false

namespace Verif

open Converge

/-- **Loss differences**: the verdict of each call says whether the loss given to it differs by less
than the tolerance from the loss given to the call before; the first call compares with the loss
given at the start, and without one it is never `True`. -/
theorem C62_diff (eps : ℝ) (pre : Option ℝ) (losses : List ℝ) :
    (diffCalls eps pre losses).length = losses.length ∧
    ∀ i l, losses[i]? = some l → ∃ v, (diffCalls eps pre losses)[i]? = some v ∧
      (v = true ↔ ∃ p, (if i = 0 then pre else losses[i - 1]?) = some p ∧ |p - l| < eps) := by
  induction losses generalizing pre with
  | nil => exact ⟨rfl, by intro i l h; simp at h⟩
  | cons x xs ih =>
    obtain ⟨h1, h2⟩ := ih (some x)
    refine ⟨by simp [diffCalls, diff, h1], ?_⟩
    intro i l h
    cases i with
    | zero =>
      simp only [List.getElem?_cons_zero, Option.some.injEq] at h
      subst h
      refine ⟨(diff eps pre x).1, by simp [diffCalls], ?_⟩
      cases pre with
      | none => simp [diff]
      | some p => simp [diff]
    | succ i =>
      rw [List.getElem?_cons_succ] at h
      obtain ⟨v, a, b⟩ := h2 i l h
      refine ⟨v, by simpa [diffCalls, diff] using a, ?_⟩
      rw [b]
      cases i with
      | zero => simp
      | succ i => simp

/-- **Loss values**: `True` exactly if the loss is at most the tolerance. -/
theorem C62_abs_partial (eps loss : ℝ) : Converge.abs eps loss = true ↔ loss ≤ eps := by
  unfold Converge.abs
  split <;> simp_all

/-- The sign counts: a loss of any size counts as converged if it is negative (the description
speaks of the absolute value). -/
theorem C62_abs_refuted (eps loss : ℝ) (he : 0 < eps) (hl : loss < -eps) :
    Converge.abs eps loss = true ∧ ¬ |loss| ≤ eps := by
  refine ⟨(C62_abs_partial eps loss).mpr (by linarith), ?_⟩
  rw [abs_of_neg (by linarith)]
  linarith

open Spec

private theorem sub_same {a b : List ℝ} (h : a.length = b.length) :
    ∃ d, sub a b = .ok d ∧ norm d = distance a b := by
  unfold sub
  rw [if_pos h]
  refine ⟨_, rfl, ?_⟩
  unfold norm distance
  rw [← List.map_uncurry_zip_eq_zipWith, List.map_map]
  rfl

/-- **Weights**: for arrays of one length, the verdict of each call but the first says whether the
weights moved, since the call before, by less than the tolerance relative to their length (to 1, if
they are shorter).  The first verdict is `False`. -/
theorem C62_weights_partial (eps : ℝ) (n : Nat) (ws : List (List ℝ)) (hn : ∀ w ∈ ws, w.length = n) :
    ∃ vs, weightCalls eps none ws = .ok vs ∧ vs.length = ws.length ∧
      ∀ i w, ws[i]? = some w → ∃ v, vs[i]? = some v ∧
        (v = true ↔ ∃ p, 0 < i ∧ ws[i - 1]? = some p ∧ distance p w < eps * max (euclid w) 1) := by
  have main : ∀ (ws : List (List ℝ)) (pre : Option (List ℝ)), (∀ w ∈ ws, w.length = n) →
      (∀ p, pre = some p → p.length = n) →
      ∃ vs, weightCalls eps pre ws = .ok vs ∧ vs.length = ws.length ∧
        ∀ i w, ws[i]? = some w → ∃ v, vs[i]? = some v ∧
          (v = true ↔ ∃ p, (if i = 0 then pre else ws[i - 1]?) = some p ∧
            distance p w < eps * max (euclid w) 1) := by
    intro ws
    induction ws with
    | nil => intro _ _ _; exact ⟨[], rfl, rfl, by intro i l h; simp at h⟩
    | cons x xs ih =>
      intro pre hw hp
      obtain ⟨vs, h1, h2, h3⟩ := ih (some x) (fun w h => hw w (by simp [h]))
        (by intro p h; cases h; exact hw _ (by simp))
      have step : ∃ b, weightDiff eps pre x = .ok (b, some x) ∧
          (b = true ↔ ∃ p, pre = some p ∧ distance p x < eps * max (euclid x) 1) := by
        cases pre with
        | none => exact ⟨false, rfl, by simp⟩
        | some p =>
          obtain ⟨d, d1, d2⟩ := sub_same (a := p) (b := x) (by rw [hp p rfl, hw x (by simp)])
          unfold weightDiff
          simp only [d1, bind, Except.bind, d2]
          by_cases hc : distance p x < eps * max (norm x) 1
          · rw [if_pos hc]
            exact ⟨true, rfl, iff_of_true rfl ⟨p, rfl, hc⟩⟩
          · rw [if_neg hc]
            exact ⟨false, rfl, iff_of_false (by simp) (by rintro ⟨_, h, h'⟩; cases h; exact hc h')⟩
      obtain ⟨b, s1, s2⟩ := step
      refine ⟨b :: vs, by simp only [weightCalls, s1, h1, bind, Except.bind], by simp [h2], ?_⟩
      intro i w h
      cases i with
      | zero =>
        simp only [List.getElem?_cons_zero, Option.some.injEq] at h
        subst h
        exact ⟨b, by simp, by simpa using s2⟩
      | succ i =>
        rw [List.getElem?_cons_succ] at h
        obtain ⟨v, a, c⟩ := h3 i w h
        refine ⟨v, by simpa using a, ?_⟩
        rw [c]
        cases i with
        | zero => simp
        | succ i => simp
  obtain ⟨vs, h1, h2, h3⟩ := main ws none hn (by simp)
  refine ⟨vs, h1, h2, fun i w h => ?_⟩
  obtain ⟨v, a, c⟩ := h3 i w h
  refine ⟨v, a, c.trans ?_⟩
  cases i with
  | zero => simp
  | succ i => simp

/-- Arrays of different lengths, none of them 1, raise `ValueError`. -/
theorem C62_lengths (eps : ℝ) (p w : List ℝ) (h : p.length ≠ w.length) (h1 : p.length ≠ 1)
    (h2 : w.length ≠ 1) : weightDiff eps (some p) w = .error .valueError := by
  have : sub p w = .error .valueError := by
    unfold sub
    rw [if_neg h]
    split
    · simp at h1
    · simp at h2
    · rfl
  unfold weightDiff
  simp only [this, bind, Except.bind]

/-- **Updating the weights in place always converges**: the object remembers the array, not its
contents.  Every call but the first says `True`, however far the weights moved. -/
theorem C62_weights_refuted (eps : ℝ) (he : 0 < eps) (ws : List (List ℝ)) :
    inPlaceCalls eps false ws = .ok (ws.mapIdx fun i _ => decide (0 < i)) := by
  have step : ∀ w, weightDiff eps (some w) w = .ok (true, some w) := by
    intro w
    obtain ⟨d, d1, d2⟩ := sub_same (a := w) (b := w) rfl
    unfold weightDiff
    simp only [d1, bind, Except.bind, d2]
    rw [if_pos]
    have h0 : distance w w = 0 := by
      unfold distance
      rw [Real.sqrt_eq_zero']
      refine le_of_eq ?_
      apply List.sum_eq_zero
      intro x hx
      obtain ⟨p, hp, rfl⟩ := List.mem_map.mp hx
      have : ∀ (w : List ℝ), p ∈ w.zip w → p.1 = p.2 := by
        intro w
        induction w with
        | nil => simp
        | cons a w ih =>
          intro h
          rw [List.zip_cons_cons, List.mem_cons] at h
          rcases h with rfl | h
          · rfl
          · exact ih h
      rw [this w hp]; ring
    rw [h0]
    exact mul_pos he (lt_of_lt_of_le one_pos (le_max_right _ _))
  have later : ∀ ws, inPlaceCalls eps true ws = .ok (List.replicate ws.length true) := by
    intro ws
    induction ws with
    | nil => rfl
    | cons w ws ih =>
      simp only [inPlaceCalls, if_true, step, ih, bind, Except.bind]
      rfl
  cases ws with
  | nil => rfl
  | cons w ws =>
    have h0 : weightDiff eps none w = .ok (false, some w) := rfl
    simp only [inPlaceCalls, later, bind, Except.bind, Bool.false_eq_true, if_false, h0]
    rw [List.mapIdx_cons]
    congr 1
    simp only [lt_irrefl, decide_false, Nat.zero_lt_succ, decide_true, List.cons.injEq, true_and]
    rw [List.mapIdx_eq_zipIdx_map]
    exact (List.eq_replicate_iff.mpr ⟨by simp, by simp⟩).symm

/-- Two moves of which the second is small. -/
example : ∃ vs, weightCalls (1/10) none [[0, 0], [3, 4], [3, 4]] = .ok vs ∧ vs.length = 3 := by
  obtain ⟨vs, h1, h2, _⟩ := C62_weights_partial (1/10) 2 [[0, 0], [3, 4], [3, 4]] (by simp)
  exact ⟨vs, h1, h2⟩

end Verif
