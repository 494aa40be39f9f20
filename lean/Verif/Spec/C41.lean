import Verif.Model.Params

/-!
# Documented ranges of the settings

After the documentation strings of `ml/param/*.py`.  Comparison of names ignores case where the
code says so; `lower` is `str.lower`.
-/

set_option autoImplicit false

namespace Verif
namespace Spec

open Params

/-- An integer setting with a lower bound. -/
def IntAtLeast (v : PyVal) (low : Int) : Prop := ∃ z, v = .int z ∧ low ≤ z

def IsInt (v : PyVal) : Prop := ∃ z, v = .int z

/-- An int or a float (which may be infinite or not-a-number). -/
def IsNumber (v : PyVal) : Prop := (∃ z, v = .int z) ∨ ∃ x, v = .flt x

def IsBool (v : PyVal) : Prop := ∃ b, v = .bool b

/-- An int or a float with value `q`. -/
def HasValue (v : PyVal) (q : Rat) : Prop := (∃ z : Int, v = .int z ∧ q = z) ∨ v = .flt (.fin q)

/-- One of some names, ignoring case. -/
def Named (lower : String → String) (v : PyVal) (names : List String) : Prop :=
  ∃ s, v = .str s ∧ lower s ∈ names

/-- A non-empty list whose first element satisfies `P`. -/
def FirstIs (v : PyVal) (P : PyVal → Prop) : Prop := ∃ x xs, v = .list (x :: xs) ∧ P x

structure TreeOk (lower : String → String) (t : DecisionTree) : Prop where
  method : Named lower t.criterionMethod ["xgboost"]
  params : FirstIs t.criterionParams IsNumber
  depth : IntAtLeast t.maxDepth 1
  sampleSplit : IsInt t.minSampleSplit
  impurity : IsNumber t.minImpuritySplit
  leaf : IsInt t.minLeafNode
  splitNodes : IntAtLeast t.maxSplitNodes 1
  noChange : IsBool t.nIterNoChange
  tol : IsNumber t.tol
  importance : Named lower t.featureImportanceType ["split", "gain"]

/-- The objective: cross entropy for classification; for regression one of the losses, with a
parameter in range where the loss has one; or no objective.  A parameter that is not-a-number is
accepted (it should not be), and so is `Infinity` for the first two losses. -/
def ObjectiveOk (lower : String → String) (o : Objective) (task : String) : Prop :=
  o.objective = .none ∨
  (task = "classification" ∧ o.objective = .str "cross_entropy") ∨
  (task = "regression" ∧ ∃ s, o.objective = .str s ∧
    (lower s ∈ ["lse", "lae", "log_cosh"] ∨
     (lower s ∈ ["huber", "fair"] ∧ FirstIs o.params fun v =>
        (∃ q, HasValue v q ∧ 0 < q) ∨ v = .flt .posInf ∨ v = .flt .nan) ∨
     (lower s = "tweedie" ∧ FirstIs o.params fun v =>
        (∃ q, HasValue v q ∧ 1 ≤ q ∧ q < 2) ∨ v = .flt .nan)))

structure EncryptOk (e : Encrypt) : Prop where
  method : ∃ s, e.method = .str s
  keyLength : IntAtLeast e.keyLength 1

/-- What the check of the boosting settings accepts. -/
structure BoostingOk (lower : String → String) (b : BoostingTree) : Prop where
  tree : TreeOk lower b.treeParam
  task : ∃ task, b.taskType = .str task ∧ task ∈ ["classification", "regression"] ∧
    ObjectiveOk lower b.objectiveParam task
  learningRate : IsNumber b.learningRate
  numTrees : IntAtLeast b.numTrees 1
  rate : (∃ q, HasValue b.subsampleFeatureRate q ∧ 0 ≤ q ∧ q ≤ 1) ∨
    b.subsampleFeatureRate = .flt .nan
  noChange : IsBool b.nIterNoChange
  tol : IsNumber b.tol
  encrypt : EncryptOk b.encryptParam
  binNum : IntAtLeast b.binNum 2

/-- What the documentation asks for beyond what the check looks at. -/
structure Documented (lower : String → String) (b : BoostingTree) : Prop where
  accepted : BoostingOk lower b
  rate : ∃ q, HasValue b.subsampleFeatureRate q ∧ 0 ≤ q ∧ q ≤ 1
  mode : Named lower b.encryptedModeCalculatorParam.mode ["strict", "fast", "balance"]
  proba : IsBool b.predictParam.withProba
  threshold : IsNumber b.predictParam.threshold

/-- The documented ranges of the binning settings. -/
structure BinningOk (lower : String → String) (f : FeatureBinning) : Prop where
  method : Named lower f.method ["quantile"]
  compress : IntAtLeast f.compressThres 1
  head : IntAtLeast f.headSize 1
  error : ∃ q, f.error = .flt (.fin q) ∧ 0 ≤ q ∧ q < 1
  binNum : IntAtLeast f.binNum 1
  cols : (∃ xs, f.cols = .list xs) ∨ IsInt f.cols
  factor : ∃ q, f.adjustmentFactor = .flt (.fin q) ∧ 0 < q ∧ q < 1

/-- What the check of the binning settings accepts. -/
structure BinningAccepted (lower : String → String) (f : FeatureBinning) : Prop where
  method : Named lower f.method ["quantile"]
  compress : IntAtLeast f.compressThres 1
  head : IntAtLeast f.headSize 1
  error : (∃ q, f.error = .flt (.fin q) ∧ 0 ≤ q ∧ q ≤ 1) ∨ f.error = .flt .nan
  binNum : IntAtLeast f.binNum 1
  cols : (∃ xs, f.cols = .list xs) ∨ IsInt f.cols
  factor : (∃ q, f.adjustmentFactor = .flt (.fin q) ∧ 0 < q ∧ q < 1) ∨
    f.adjustmentFactor = .flt .nan

/-- The documented calculation modes; a balanced one needs a rate. -/
def ModeOk (lower : String → String) (m : EncryptedMode) : Prop :=
  ∃ s, m.mode = .str s ∧ lower s ∈ ["strict", "fast", "balance"] ∧
    (lower s = "balance" → IsNumber m.reEncryptedRate)

/-- The documented prediction settings. -/
structure PredictOk (p : Predict) : Prop where
  proba : IsBool p.withProba
  threshold : IsNumber p.threshold

/-- The documented cross-validation settings. -/
structure CvOk (c : CrossValidation) : Prop where
  splits : IntAtLeast c.nSplits 1
  mode : ∃ s, c.mode = .str s ∧ s ∈ ["homo", "hetero"]
  role : ∃ s, c.role = .str s ∧ s ∈ ["host", "guest", "arbiter"]
  shuffle : IsBool c.shuffle
  seed : IntAtLeast c.randomSeed 1

end Spec
end Verif
