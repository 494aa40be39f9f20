import Verif.Model.Boost
import Verif.Spec.C41

/-! # Specification vocabulary for the settings stored with a model -/

set_option autoImplicit false

namespace Verif
namespace Spec

open Params DTree

/-- A whole number that fits into 32 bits, with its sign. -/
def Fits32 (v : PyVal) : Prop := ∃ z : Int, v = .int z ∧ -2 ^ 31 ≤ z ∧ z < 2 ^ 31

/-- A number that has a float: a float, a whole number below the largest floats, a truth value. -/
def HasFloat (v : PyVal) : Prop :=
  (∃ x, v = .flt x) ∨ (∃ z : Int, v = .int z ∧ |z| < 2 ^ 1024 - 2 ^ 970) ∨ ∃ b, v = .bool b

/-- What a host can store, beyond what the check of the settings asks for. -/
structure LimitsFit (t : DecisionTree) : Prop where
  depth : Fits32 t.maxDepth
  sample : Fits32 t.minSampleSplit
  impurity : HasFloat t.minImpuritySplit
  leaf : Fits32 t.minLeafNode

/-- What the guest can store: every parameter of the criterion is a number, too. -/
def SettingsFit (t : DecisionTree) : Prop :=
  LimitsFit t ∧ ∃ ps, t.criterionParams = .list ps ∧ ∀ p ∈ ps, HasFloat p

/-- The same number, of type float. -/
def SameNumber (v w : PyVal) : Prop :=
  (∃ x, v = .flt x ∧ w = .flt x) ∨ (∃ z : Int, v = .int z ∧ w = .flt (.fin z)) ∨
    ∃ b, v = .bool b ∧ w = .flt (.fin (if b then 1 else 0))

/-- A whole number with an exact float. -/
def Small (v : PyVal) : Prop := ∀ z : Int, v = .int z → |z| ≤ 2 ^ 53

/-- The settings as they are read back. -/
structure ReadBack (t u : DecisionTree) : Prop where
  depth : u.maxDepth = t.maxDepth
  sample : u.minSampleSplit = t.minSampleSplit
  impurity : SameNumber t.minImpuritySplit u.minImpuritySplit
  leaf : u.minLeafNode = t.minLeafNode

/-- The first tree of a run grows: the gradients of the first round are `gh`, and of the trees in it the
first is `F`. -/
def FirstGrows {K α L : Type} [DecidableEq K] (B : Boost K α L) (init : List Rat) (y : DTable K L) : Prop :=
  ∃ s0 gh g e F, y.mapValues (fun _ => init) = .ok s0 ∧ y.joinM s0 B.gradHess = .ok gh ∧
    gh.mapValuesM (component 0) = .ok g ∧ B.enc 0 0 g = .ok e ∧ fit (treeSetup B 0 0 g e) = .ok F

end Spec
end Verif
