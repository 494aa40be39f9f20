import Verif.Props.C39
import Verif.Lemmas.DTable

/-!
# C46 Training starts from a defined score

The full claim: training starts from zero for classification, and from the mean (median for least
absolute error) of the labels for regression, without failing.  Only the part on classification
holds.
-/

set_option autoImplicit false

namespace Verif
open Statics

/-- Classification: every sample starts from `dim` zeros, the samples are those of the label table
in its order, and the initial score kept for prediction is the same.  (Missing: regression.) -/
theorem C46_classification_partial {K Y : Type} [DecidableEq K] (dim : Nat) (y : DTable K Y)
    (hy : DTable.WF y) :
    ∃ scores, initZeros dim y = .ok (scores, List.replicate dim 0) ∧
      scores.data.keys = y.data.keys ∧
      ∀ k s, scores.data.get? k = some s → s = List.replicate dim 0 := by
  refine ⟨⟨y.data.map fun p => (p.1, List.replicate dim 0)⟩, ?_, ?_, ?_⟩
  · unfold initZeros
    rw [DTable.mapValues_ok hy]
  · exact Dict.keys_map (fun _ _ => List.replicate dim (0 : Rat)) y.data
  · intro k s hs
    rw [show Dict.get? (y.data.map fun p => (p.1, List.replicate dim (0 : Rat))) k
      = (y.data.get? k).map fun _ => List.replicate dim 0 from
        Dict.get?_map (fun _ _ => List.replicate dim 0) y.data k] at hs
    cases h : y.data.get? k with
    | none => rw [h] at hs; cases hs
    | some v => rw [h] at hs; cases hs; rfl

/-- The mean of the labels, as least squares and the other losses that start from it promise. -/
def Spec.MeanStart {K V : Type} [DecidableEq K] (float : V → Except PyErr Rat) (y : DTable K V)
    (r : Except PyErr (DTable K (List Rat) × List Rat)) : Prop :=
  ∃ xs scores, List.Forall₂ (fun v x => float v = .ok x) y.data.values xs ∧
    r = .ok (scores, [Spec.mean xs])

/-- Regression from the mean fails for every label table: the statistics of the partition are a
dictionary, of which no table can be made. -/
theorem C46_mean_refuted {K V : Type} [DecidableEq K] [DecidableEq V] (float : V → Except PyErr Rat)
    (y : DTable K V) :
    (∃ e, initMean float y = .error e) ∧ ¬ Spec.MeanStart float y (initMean float y) ∧
    (Spec.Convertible float [] y.data.values → initMean float y = .error .typeError) := by
  have herr : ∃ e, initMean float y = .error e := by
    unfold initMean
    split
    · exact ⟨_, rfl⟩
    · exact ⟨.typeError, rfl⟩
  refine ⟨herr, ?_, fun hc => ?_⟩
  · rintro ⟨xs, scores, _, h⟩
    obtain ⟨e, he⟩ := herr
    rw [he] at h
    cases h
  · obtain ⟨d, hd⟩ := (C39_columns float [] [((), 0)] (by simp [Dict.WF, Dict.keys])
      (y.data.values.map fun v => [v])).1.2 (by
        intro name i hi
        simp only [Dict.get?_cons, if_true, Option.some.injEq] at hi
        subst hi
        refine ⟨fun row hrow => ?_, ?_⟩
        · obtain ⟨v, _, rfl⟩ := List.mem_map.1 hrow
          simp
        · have : Spec.column (y.data.values.map fun v => [v]) 0 = y.data.values := by
            unfold Spec.column
            rw [List.filterMap_map]
            exact List.filterMap_some ..
          rw [this]
          exact hc)
    unfold initMean
    rw [hd]
    rfl

/-- Regression from the median fails for every label table. -/
theorem C46_median_refuted {K V : Type} [DecidableEq K] [DecidableEq V] (fit : Except PyErr Unit)
    (y : DTable K V) :
    (∃ e, initMedian fit y = .error e) ∧ (fit = .ok () → initMedian fit y = .error .attributeError) := by
  unfold initMedian
  cases fit with
  | error e => exact ⟨⟨e, rfl⟩, fun h => by cases h⟩
  | ok u => exact ⟨⟨_, rfl⟩, fun _ => rfl⟩

/-! ## Examples -/

example : initZeros (Y := Nat) 3 ⟨[("a", 0), ("b", 2), ("c", 1)]⟩
    = .ok (⟨[("a", [0, 0, 0]), ("b", [0, 0, 0]), ("c", [0, 0, 0])]⟩, [0, 0, 0]) := by decide +kernel

example : initMean (K := String) (V := Rat) .ok ⟨[("a", 1), ("b", 2)]⟩ = .error .typeError := by
  decide +kernel

end Verif
