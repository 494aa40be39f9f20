import Verif.Model.Evaluate
import Verif.Spec.C41

/-!
# C41: The check of the evaluation settings, and of empty tables
-/

set_option autoImplicit false

namespace Verif
open Params Spec

/-- The documented evaluation settings: one of three types in any case, and a label that is a string
or a number (no bool). -/
def Spec.EvaluateOk (lower : String → String) (e : Evaluate) : Prop :=
  (∃ s, e.evalType = .str s ∧ (lower s = "binary" ∨ lower s = "multi" ∨ lower s = "regression")) ∧
    ((∃ s, e.posLabel = .str s) ∨ IsNumber e.posLabel)

/-- **Evaluation settings**: exactly the documented ones are accepted; the type is stored in lower
case and the label is kept.  Everything else is a `ValueError`. -/
theorem C41_evaluate (lower : String → String) (e : Evaluate) :
    (∀ e', checkEvaluate lower e = .ok e' ↔ EvaluateOk lower e ∧
      ∃ s, e.evalType = .str s ∧ e' = ⟨.str (lower s), e.posLabel⟩) ∧
    (¬ EvaluateOk lower e → checkEvaluate lower e = .error .valueError) := by
  obtain ⟨v, l⟩ := e
  unfold checkEvaluate checkAndChangeLower rejectIf notOf EvaluateOk IsNumber
  cases v with
  | str s =>
    by_cases h : lower s = "binary" ∨ lower s = "multi" ∨ lower s = "regression"
    · have hm : lower s ∈ ["binary", "multi", "regression"] := by simpa using h
      cases l <;> simp [hm, h, bind, Except.bind, pure, Except.pure, PyVal.typeName] <;>
        exact fun _ => eq_comm
    · have hm : lower s ∉ ["binary", "multi", "regression"] := by simpa using h
      simp [hm, h, bind, Except.bind]
  | _ => simp [bind, Except.bind]

example : checkEvaluate String.toLower ⟨.str "Binary", .int 1⟩ = .ok ⟨.str "binary", .int 1⟩ :=
  ((C41_evaluate _ _).1 _).mpr ⟨⟨⟨"Binary", rfl, Or.inl (by decide +kernel)⟩, Or.inr (Or.inl ⟨1, rfl⟩)⟩,
    "Binary", rfl, by congr 2; decide +kernel⟩

example : ¬ EvaluateOk String.toLower ⟨.str "binary", .bool true⟩ := by
  rintro ⟨_, ⟨s, h⟩ | ⟨z, h⟩ | ⟨x, h⟩⟩ <;> cases h

/-- **Empty tables**: a table is refused, with `ValueError`, exactly if it has no record; that it has
no features is never detected. -/
theorem C41_empty {K V : Type} (t : DTable K V) :
    (emptyTableDetection t = .ok () ↔ t.data ≠ []) ∧
    (t.data = [] → emptyTableDetection t = .error .valueError) ∧ emptyFeatureDetection t = .ok () := by
  obtain ⟨d⟩ := t
  refine ⟨?_, ?_, rfl⟩
  · cases d <;> simp [emptyTableDetection, DTable.count]
  · rintro rfl
    simp [emptyTableDetection, DTable.count]

end Verif
