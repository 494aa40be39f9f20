import Verif.Model.Central
import Verif.Model.Boost

/-!
# Boosting without federation

`xgboost/hetero_secureboosting_tree_guest.py`.  Apart from log output, the file differs from
`ml/tree/hetero_secureboosting_tree_guest.py` in three points: it trains and predicts with the
trees of `xgboost/hetero_decision_tree_guest.py` (`Model/Central.lean`), `sync_tree_dim` and
`sync_stop_flag` (186-192) send nothing, and `fit` starts with a fixed seed.  Functions that are
the same (`accumulate_f`, `update_f_value`, `check_convergence`, ...) are shared with
`Model/Boost.lean`.
-/

set_option autoImplicit false

namespace Verif
namespace DTree

open Histogram (getAt)
open Binning (SparseVec)

variable {K : Type} [DecidableEq K] {L : Type}

/-- A run; the gradients and the enabled features of `base` are replaced for every tree.
`valid i t` are the features sampled for tree `t` of round `i`. -/
structure CBoost (K L : Type) where
  base : Central K
  valid : Nat → Nat → List Bool
  gradHess : L → List Rat → Except PyErr (List Rat × List Rat)
  loss : DTable K L → DTable K (List Rat) → Except PyErr Rat
  rounds : Nat
  dim : Nat
  rate : Rate
  early : Bool
  tol : Rat

/-- What a tree is trained on, `xgboost/hetero_secureboosting_tree_guest.py` 254-264. -/
def centralSetup (B : CBoost K L) (i t : Nat) (gh : DTable K (Rat × Rat)) : Central K :=
  { B.base with gh := gh, party := { B.base.party with valid := B.valid i t } }

/-- `get_model_param`, `xgboost/hetero_decision_tree_guest.py` 489-503; there are no hosts. -/
def centralSave (T : CFitted K) : Except PyErr Saved := do
  let nodes ← evalList saveNode T.tree
  let m ← saveMask T.mask
  pure ⟨nodes, m, []⟩

/-- `set_model_param`, `xgboost/hetero_decision_tree_guest.py` 521-535. -/
def centralLoad (P : Saved) : CFitted K :=
  ⟨P.nodes.map loadNode, P.guestMask, none, []⟩

/-- One tree, `xgboost/hetero_secureboosting_tree_guest.py` 254-273. -/
def centralTree (B : CBoost K L) (gh : DTable K (List Rat × List Rat)) (i t : Nat)
    (st : BoostState K) : Except PyErr (BoostState K) := do
  let g ← gh.mapValuesM (component t)
  let T ← centralFit (centralSetup B i t g)
  let P ← centralSave T
  let scores ← updateF B.rate t st.scores T.weights
  pure { st with scores := scores, trees := st.trees ++ [P], imps := addImportances st.imps T.imps }

/-- The trees of a round, 253-273; the first number counts the trees that remain. -/
def centralTrees (B : CBoost K L) (gh : DTable K (List Rat × List Rat)) (i : Nat) :
    Nat → Nat → BoostState K → Except PyErr (BoostState K)
  | 0, _, st => .ok st
  | r + 1, t, st => do
    let st ← centralTree B gh i t st
    centralTrees B gh i r (t + 1) st

/-- A round up to the loss, 251-277. -/
def centralRound (B : CBoost K L) (y : DTable K L) (i : Nat) (st : BoostState K) :
    Except PyErr (BoostState K) := do
  let gh ← y.joinM st.scores B.gradHess
  let st ← centralTrees B gh i B.dim 0 st
  let l ← B.loss y st.scores
  pure { st with losses := st.losses ++ [l] }

/-- The stop test, 280-285: whether to stop, and the state with the flag (which is not sent). -/
def centralStop (B : CBoost K L) (st : BoostState K) : Bool × BoostState K :=
  if B.early then
    match st.losses.getLast? with
    | none => (false, st)
    | some l =>
      let c := isConverge B.tol st.pre l
      (c.1, { st with pre := c.2, flags := st.flags ++ [c.1] })
  else (false, st)

/-- The loop over rounds, 250-285; the first number counts the rounds that remain. -/
def centralLoop (B : CBoost K L) (y : DTable K L) :
    Nat → Nat → BoostState K → Except PyErr (BoostState K)
  | 0, _, st => .ok st
  | r + 1, i, st => do
    let st ← centralRound B y i st
    let s := centralStop B st
    if s.1 then pure s.2 else centralLoop B y r (i + 1) s.2

/-- `fit` from line 245 on. -/
def centralBoost (B : CBoost K L) (init : List Rat) (y : DTable K L) :
    Except PyErr (BoostState K) := do
  let scores ← y.mapValues (fun _ => init)
  centralLoop B y B.rounds 0 ⟨scores, [], [], [], none, []⟩

/-- Loading, prediction and addition of one tree, 299-305. -/
def centralAdd (rate : Rate) (t : Nat) (rows : DTable K (SparseVec Rat)) (fuel : Nat) (P : Saved)
    (scores : DTable K (List Rat)) : Except PyErr (DTable K (List Rat)) := do
  let T : CFitted K := centralLoad P
  let w ← centralPredict T.tree T.mask rows fuel
  updateF rate t scores (some w)

/-- The inner loop 298-305; the first number counts the trees that remain. -/
def centralPredictRound (rate : Rate) (dim : Nat) (trees : List Saved)
    (rows : DTable K (SparseVec Rat)) (fuel i : Nat) :
    Nat → Nat → DTable K (List Rat) → Except PyErr (DTable K (List Rat))
  | 0, _, scores => .ok scores
  | r + 1, t, scores => do
    let P ← getAt trees (i * dim + t)
    let scores ← centralAdd rate t rows fuel P scores
    centralPredictRound rate dim trees rows fuel i r (t + 1) scores

/-- The outer loop 297-305. -/
def centralPredictRounds (rate : Rate) (dim : Nat) (trees : List Saved)
    (rows : DTable K (SparseVec Rat)) (fuel : Nat) :
    Nat → Nat → DTable K (List Rat) → Except PyErr (DTable K (List Rat))
  | 0, _, scores => .ok scores
  | r + 1, i, scores => do
    let scores ← centralPredictRound rate dim trees rows fuel i dim 0 scores
    centralPredictRounds rate dim trees rows fuel r (i + 1) scores

/-- `predict` up to the scores, 307-310 with 291-305. -/
def centralScores (rate : Rate) (dim : Nat) (init : List Rat) (trees : List Saved)
    (rows : DTable K (List Rat)) (fuel : Nat) : Except PyErr (DTable K (List Rat)) := do
  let g ← alignRows rows
  let scores ← g.mapValues (fun _ => init)
  if dim = 0 then .error .zeroDivision
  else centralPredictRounds rate dim trees g fuel (trees.length / dim) 0 scores

end DTree
end Verif
