import Verif.Model.Params
import Verif.Model.DTable

/-!
# `ml/param/evaluation_param.py` and `ml/utils/abnormal_detection.py`
-/

set_option autoImplicit false

namespace Verif
namespace Params

/-- `evaluation_param.py` 36-39 -/
structure Evaluate where
  evalType : PyVal
  posLabel : PyVal

/-- `evaluation_param.py` 41-53 `check` (called by nobody). -/
def checkEvaluate (lower : String → String) (e : Evaluate) : Except PyErr Evaluate := do
  let evalType ← checkAndChangeLower lower e.evalType ["binary", "multi", "regression"]
  rejectIf (notOf e.posLabel ["str", "float", "int"])
  return { e with evalType }

end Params

/-- `abnormal_detection.py` 23-26 `empty_table_detection`. -/
def emptyTableDetection {K V : Type} (t : DTable K V) : Except PyErr Unit :=
  if t.count = 0 then .error .valueError else .ok ()

/-- `data_overview.py` 9-11 `is_empty_feature`: not written yet, returns `None`. -/
def isEmptyFeature {K V : Type} (_ : DTable K V) : PyVal := .none

/-- `abnormal_detection.py` 29-32 `empty_feature_detection` (called by nobody); `None` counts as
false. -/
def emptyFeatureDetection {K V : Type} (t : DTable K V) : Except PyErr Unit :=
  match isEmptyFeature t with
  | .none => .ok ()
  | .bool false => .ok ()
  | _ => .error .valueError

end Verif
