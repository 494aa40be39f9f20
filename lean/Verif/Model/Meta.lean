import Verif.Model.Boost
import Verif.Model.Params

/-!
# The settings stored with a model

`get_model_meta` / `set_model_meta` of `ml/tree/hetero_decision_tree_guest.py` 515-525, 551-557 and
`ml/tree/hetero_decision_tree_host.py` 375-383, 422-426, through the messages `CriterionMeta` and
`DecisionTreeModelMeta` of `arch/api/boosting_tree_model_meta_pb2.py` (proto3: a string, repeated
doubles; `int32` and `double` fields).  `rnd` gives the float for a whole number.

`Model/Boost` leaves the settings out; `storedBoost` is the run in which the guest stores them.
-/

set_option autoImplicit false

namespace Verif
namespace Meta

open Params DTree

/-- `DecisionTreeModelMeta`. -/
structure Stored where
  method : String
  params : List Flt
  maxDepth : Int
  minSampleSplit : Int
  minImpuritySplit : Flt
  minLeafNode : Int
deriving DecidableEq, Repr

/-- A value assigned to an `int32` field; a bool counts as a number, everything else is a
`TypeError`.  (Some releases of the library take whole floats; the settings are ints, C41.) -/
def toInt32 : PyVal → Except PyErr Int
  | .int z => int32 z
  | .bool b => .ok (if b then 1 else 0)
  | _ => .error .typeError

/-- A value assigned to a `double` field. -/
def toDouble (rnd : Int → Rat) : PyVal → Except PyErr Flt
  | .int z => if |z| < 2 ^ 1024 - 2 ^ 970 then .ok (.fin (rnd z)) else .error .overflow
  | .bool b => .ok (.fin (if b then 1 else 0))
  | .flt x => .ok x
  | _ => .error .typeError

/-- A value given for a string field; `None` leaves it unset. -/
def toText : PyVal → Except PyErr String
  | .str s => .ok s
  | .none => .ok ""
  | _ => .error .typeError

/-- A value given for a repeated `double` field; `None` leaves it empty.  (Of the other iterables
an empty string would pass, too.) -/
def toDoubles (rnd : Int → Rat) : PyVal → Except PyErr (List Flt)
  | .list xs => evalList (toDouble rnd) xs
  | .none => .ok []
  | _ => .error .typeError

/-- The four fields both roles store, guest 520-523, host 378-381, beside a criterion. -/
def limits (rnd : Int → Rat) (t : DecisionTree) (method : String) (params : List Flt) : Except PyErr Stored := do
  let maxDepth ← toInt32 t.maxDepth
  let minSampleSplit ← toInt32 t.minSampleSplit
  let minImpuritySplit ← toDouble rnd t.minImpuritySplit
  let minLeafNode ← toInt32 t.minLeafNode
  pure ⟨method, params, maxDepth, minSampleSplit, minImpuritySplit, minLeafNode⟩

/-- `get_model_meta` of the guest, 515-525. -/
def guestMeta (rnd : Int → Rat) (t : DecisionTree) : Except PyErr Stored := do
  let method ← toText t.criterionMethod
  let params ← toDoubles rnd t.criterionParams
  limits rnd t method params

/-- `get_model_meta` of a host, 375-383: the criterion is not stored. -/
def hostMeta (rnd : Int → Rat) (t : DecisionTree) : Except PyErr Stored := limits rnd t "" []

/-- `set_model_meta` of a host, 422-426. -/
def setHost (t : DecisionTree) (m : Stored) : DecisionTree :=
  { t with
    maxDepth := .int m.maxDepth
    minSampleSplit := .int m.minSampleSplit
    minImpuritySplit := .flt m.minImpuritySplit
    minLeafNode := .int m.minLeafNode }

/-- `set_model_meta` of the guest, 551-557. -/
def setGuest (t : DecisionTree) (m : Stored) : DecisionTree :=
  { setHost t m with
    criterionMethod := .str m.method
    criterionParams := .list (m.params.map .flt) }

variable {K : Type} [DecidableEq K] {α L : Type}

/-- One tree, `hetero_secureboosting_tree_guest.py` 260-280, `boostTree` with the settings stored:
`get_model` (`hetero_decision_tree_guest.py` 509-513) stores them before the nodes.  `settings` is the
outcome of `get_model_meta`. -/
def storedTree (settings : Except PyErr Stored) (B : Boost K α L) (gh : DTable K (List Rat × List Rat)) (i t : Nat)
    (st : BoostState K) : Except PyErr (BoostState K) := do
  let g ← gh.mapValuesM (component t)
  let e ← B.enc i t g
  let F ← fit (treeSetup B i t g e)
  let _ ← settings
  let P ← save F
  let scores ← updateF B.rate t st.scores F.weights
  pure { st with scores := scores, trees := st.trees ++ [P], imps := addImportances st.imps F.imps }

/-- The trees of a round, 259-280. -/
def storedTrees (settings : Except PyErr Stored) (B : Boost K α L) (gh : DTable K (List Rat × List Rat)) (i : Nat) :
    Nat → Nat → BoostState K → Except PyErr (BoostState K)
  | 0, _, st => .ok st
  | r + 1, t, st => do
    let st ← storedTree settings B gh i t st
    storedTrees settings B gh i r (t + 1) st

/-- A round up to the loss, 258-284. -/
def storedRound (settings : Except PyErr Stored) (B : Boost K α L) (y : DTable K L) (i : Nat) (st : BoostState K) :
    Except PyErr (BoostState K) := do
  let gh ← y.joinM st.scores B.gradHess
  let st ← storedTrees settings B gh i B.dim 0 st
  let l ← B.loss y st.scores
  pure { st with losses := st.losses ++ [l] }

/-- The loop over rounds, 256-292. -/
def storedLoop (settings : Except PyErr Stored) (B : Boost K α L) (y : DTable K L) :
    Nat → Nat → BoostState K → Except PyErr (BoostState K)
  | 0, _, st => .ok st
  | r + 1, i, st => do
    let st ← storedRound settings B y i st
    let s := stopTest B st
    if s.1 then pure s.2 else storedLoop settings B y r (i + 1) s.2

/-- `fit` from line 251 on, with the tree settings `t` stored for every tree (the first message is
kept, 276-277; they are all alike). -/
def storedBoost (rnd : Int → Rat) (t : DecisionTree) (B : Boost K α L) (init : List Rat) (y : DTable K L) :
    Except PyErr (BoostState K) := do
  let scores ← y.mapValues (fun _ => init)
  storedLoop (guestMeta rnd t) B y B.rounds 0 ⟨scores, [], [], [], none, []⟩

end Meta
end Verif
