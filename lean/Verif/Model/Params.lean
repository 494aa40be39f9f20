import Verif.Model.Value

/-!
# Parameter checks

`ml/param/base_param.py` 86-160, `boosting_tree_param.py`, `encrypt_param.py`,
`feature_binning_param.py`, `encrypted_mode_calculation_param.py`, `predict_param.py`,
`cross_validation_param.py`.  `lower` is `str.lower`.  (Python 3 has no type named `long`.)
-/

set_option autoImplicit false

namespace Verif
namespace Params

/-- `if b: raise ValueError(...)` -/
def rejectIf (b : Bool) : Except PyErr Unit := if b then .error .valueError else .ok ()

/-- `type(v).__name__ not in types` -/
def notOf (v : PyVal) (types : List String) : Bool := !decide (v.typeName ∈ types)

/-- `base_param.py` 125-134 `check_and_change_lower` -/
def checkAndChangeLower (lower : String → String) (v : PyVal) (valid : List String) :
    Except PyErr PyVal :=
  match v with
  | .str s => if lower s ∈ valid then .ok (.str (lower s)) else .error .valueError
  | _ => .error .valueError

/-- `boosting_tree_param.py` 103-116 -/
structure DecisionTree where
  criterionMethod : PyVal
  criterionParams : PyVal
  maxDepth : PyVal
  minSampleSplit : PyVal
  minImpuritySplit : PyVal
  minLeafNode : PyVal
  maxSplitNodes : PyVal
  featureImportanceType : PyVal
  nIterNoChange : PyVal
  tol : PyVal

/-- 26-28 -/
structure Objective where
  objective : PyVal
  params : PyVal

/-- `encrypt_param.py` 41-44 -/
structure Encrypt where
  method : PyVal
  keyLength : PyVal

/-- `encrypted_mode_calculation_param.py` -/
structure EncryptedMode where
  mode : PyVal
  reEncryptedRate : PyVal

/-- `predict_param.py` -/
structure Predict where
  withProba : PyVal
  threshold : PyVal

/-- `cross_validation_param.py` (without the evaluation settings) -/
structure CrossValidation where
  nSplits : PyVal
  mode : PyVal
  role : PyVal
  shuffle : PyVal
  randomSeed : PyVal
  needCv : PyVal

/-- `boosting_tree_param.py` 202-221 -/
structure BoostingTree where
  treeParam : DecisionTree
  taskType : PyVal
  objectiveParam : Objective
  learningRate : PyVal
  numTrees : PyVal
  subsampleFeatureRate : PyVal
  nIterNoChange : PyVal
  tol : PyVal
  encryptParam : Encrypt
  binNum : PyVal
  encryptedModeCalculatorParam : EncryptedMode
  predictParam : Predict
  cvParam : CrossValidation

/-- `type(l).__name__ != "list"`, then `len(l) == 0`, then the first element. -/
def firstOf (v : PyVal) : Except PyErr PyVal :=
  match v with
  | .list (x :: _) => .ok x
  | _ => .error .valueError

/-- 118-170 `DecisionTreeParam.check` -/
def checkTree (lower : String → String) (t : DecisionTree) : Except PyErr DecisionTree := do
  let criterionMethod ← checkAndChangeLower lower t.criterionMethod ["xgboost"]
  let p0 ← firstOf t.criterionParams
  rejectIf (notOf p0 ["int", "long", "float"])
  rejectIf (notOf t.maxDepth ["int", "long"])
  rejectIf (t.maxDepth.num.lt 1)
  rejectIf (notOf t.minSampleSplit ["int", "long"])
  rejectIf (notOf t.minImpuritySplit ["int", "long", "float"])
  rejectIf (notOf t.minLeafNode ["int", "long"])
  rejectIf (notOf t.maxSplitNodes ["int", "long"] || t.maxSplitNodes.num.lt 1)
  rejectIf (notOf t.nIterNoChange ["bool"])
  rejectIf (notOf t.tol ["float", "int", "long"])
  let featureImportanceType ← checkAndChangeLower lower t.featureImportanceType ["split", "gain"]
  return { t with criterionMethod, featureImportanceType }

/-- 57-68: the parameter of the loss.  The second test is made for every objective that gets
here (`self.objective == 'fair' or 'huber'`). -/
def checkLossParam (objective : PyVal) (params : PyVal) : Except PyErr Unit :=
  if objective.isStr "huber" || objective.isStr "fair" || objective.isStr "tweedie" then do
    let p0 ← firstOf params
    rejectIf (notOf p0 ["float", "int", "long"])
    rejectIf (objective.isStr "tweedie" && (p0.num.lt 1 || p0.num.ge 2))
    rejectIf (p0.num.le 0)
  else .ok ()

/-- 30-68 `ObjectiveParam.check` for a task type that is one of the two strings. -/
def checkObjective (lower : String → String) (o : Objective) (taskType : PyVal) :
    Except PyErr Objective :=
  match o.objective with
  | .none => .ok o
  | _ =>
    if taskType.isStr "classification" then do
      rejectIf (!o.objective.isStr "cross_entropy")
      return o
    else if taskType.isStr "regression" then do
      let objective ← checkAndChangeLower lower o.objective
        ["lse", "lae", "huber", "fair", "log_cosh", "tweedie"]
      checkLossParam objective o.params
      return { o with objective }
    else do
      let objective ← checkAndChangeLower lower o.objective
        ["cross_entropy", "lse", "lae", "huber", "fair", "log_cosh", "tweedie"]
      return { o with objective }

/-- `encrypt_param.py` 47-54; `None.lower()` raises `AttributeError`. -/
def checkMethod (lower : String → String) (method : PyVal) : Except PyErr PyVal :=
  match method with
  | .none => .error .attributeError
  | .str s => .ok (if lower s = "paillier" then .str "Paillier" else .str s)
  | _ => .error .valueError

/-- `encrypt_param.py` 46-64 -/
def checkEncrypt (lower : String → String) (e : Encrypt) : Except PyErr Encrypt := do
  let method ← checkMethod lower e.method
  rejectIf (notOf e.keyLength ["int"])
  rejectIf (e.keyLength.num.le 0)
  return { e with method }

/-- 223-260 `BoostingTreeParam.check` -/
def checkBoosting (lower : String → String) (b : BoostingTree) : Except PyErr BoostingTree := do
  let treeParam ← checkTree lower b.treeParam
  rejectIf (!(b.taskType.isStr "classification" || b.taskType.isStr "regression"))
  let objectiveParam ← checkObjective lower b.objectiveParam b.taskType
  rejectIf (notOf b.learningRate ["float", "int", "long"])
  rejectIf (notOf b.numTrees ["int", "long"] || b.numTrees.num.lt 1)
  rejectIf (notOf b.subsampleFeatureRate ["float", "int", "long"]
    || b.subsampleFeatureRate.num.lt 0 || b.subsampleFeatureRate.num.gt 1)
  rejectIf (notOf b.nIterNoChange ["bool"])
  rejectIf (notOf b.tol ["float", "int", "long"])
  let encryptParam ← checkEncrypt lower b.encryptParam
  rejectIf (notOf b.binNum ["int", "long"] || b.binNum.num.lt 2)
  return { b with treeParam, objectiveParam, encryptParam }

/-- `encrypted_mode_calculation_param.py` `check` (called by nobody). -/
def checkMode (lower : String → String) (m : EncryptedMode) : Except PyErr EncryptedMode := do
  let mode ← checkAndChangeLower lower m.mode ["strict", "fast", "balance"]
  rejectIf (mode.isStr "balance" && notOf m.reEncryptedRate ["int", "long", "float"])
  return { m with mode }

/-- `predict_param.py` `check` (called by nobody). -/
def checkPredict (p : Predict) : Except PyErr Predict := do
  rejectIf (notOf p.withProba ["bool"])
  rejectIf (notOf p.threshold ["float", "int"])
  return p

/-- `feature_binning_param.py` 21-24 -/
structure Transform where
  transformCols : PyVal
  transformType : PyVal

/-- `v != -1` -/
def isMinusOne : PyVal → Bool
  | .int z => z = -1
  | .flt (.fin q) => q = -1
  | _ => false

def isNone : PyVal → Bool
  | .none => true
  | _ => false

/-- `feature_binning_param.py` 26-30 `TransformParam.check`: the name of the type of
`transform_type` is looked up in `['bin_num', None]`. -/
def checkTransform (t : Transform) : Except PyErr Unit := do
  if !isNone t.transformCols && !isMinusOne t.transformCols then
    rejectIf (notOf t.transformCols ["list"])
  rejectIf (notOf t.transformType ["bin_num"])

/-- `feature_binning_param.py` 74-92 -/
structure FeatureBinning where
  method : PyVal
  compressThres : PyVal
  headSize : PyVal
  error : PyVal
  binNum : PyVal
  cols : PyVal
  adjustmentFactor : PyVal
  transformParam : Transform

/-- `base_param.py` 91-94 `check_positive_integer` -/
def positiveInteger (v : PyVal) : Except PyErr Unit :=
  rejectIf (notOf v ["int", "long"] || v.num.le 0)

/-- `feature_binning_param.py` 94-104 `FeatureBinningParam.check` -/
def checkBinning (lower : String → String) (f : FeatureBinning) : Except PyErr FeatureBinning := do
  let method ← checkAndChangeLower lower f.method ["quantile"]
  positiveInteger f.compressThres
  positiveInteger f.headSize
  rejectIf (notOf f.error ["float"] || f.error.num.lt 0 || f.error.num.gt 1)
  positiveInteger f.binNum
  rejectIf (notOf f.cols ["list", "int", "RepeatedScalarContainer"])
  rejectIf (notOf f.adjustmentFactor ["float"] || f.adjustmentFactor.num.le 0
    || f.adjustmentFactor.num.ge 1)
  return { f with method }

/-- `cross_validation_param.py` 60-66 `check` (called by nobody). -/
def checkCv (c : CrossValidation) : Except PyErr CrossValidation := do
  positiveInteger c.nSplits
  rejectIf (!(c.mode.isStr "homo" || c.mode.isStr "hetero"))
  rejectIf (!(c.role.isStr "host" || c.role.isStr "guest" || c.role.isStr "arbiter"))
  rejectIf (notOf c.shuffle ["bool"])
  positiveInteger c.randomSeed
  return c

end Params
end Verif
