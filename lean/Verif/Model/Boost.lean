import Verif.Model.Save

/-!
# Boosting

`ml/tree/hetero_secureboosting_tree_guest.py` 174-184, 211-313 and
`ml/tree/hetero_secureboosting_tree_host.py` 79-133, `ml/optim/convergence.py` 39-52.  Guest and
hosts are composed into one function (as in `Model/Fit.lean`).  The loss enters as functions:
`gradHess` gives the gradients and hessians of a sample from its label and scores, `loss` the
number that is compared from round to round.
-/

set_option autoImplicit false

namespace Verif
namespace DTree

open Histogram (getAt updAt)
open Binning (SparseVec)

variable {K : Type} [DecidableEq K] {α L : Type}

/-- The learning rate, and the rounding of the float arithmetic it is used with (the float for an
exact result; `id` for exact arithmetic). -/
structure Rate where
  value : Rat
  rnd : Rat → Rat

/-- A boosting run.  `base` holds the tree settings and the prepared data of the parties; its
gradients, ciphertexts, cipher and feature selections are replaced for every tree.  `valid i t`
are the features enabled for tree `t` of round `i` at each party (`none` is the guest), `enc i t`
encrypts the gradients for that tree (`encrypted_mode_calculator`), `cipher i t` encrypts gains. -/
structure Boost (K α L : Type) where
  base : Setup K α
  valid : Nat → Nat → Option Nat → List Bool
  cipher : Nat → Nat → Nat → Nat → Cipher α
  enc : Nat → Nat → DTable K (Rat × Rat) → Except PyErr (DTable K (α × α))
  gradHess : L → List Rat → Except PyErr (List Rat × List Rat)
  loss : DTable K L → DTable K (List Rat) → Except PyErr Rat
  rounds : Nat
  dim : Nat
  rate : Rate
  early : Bool
  tol : Rat

/-- `convergence.py` 39-52 `DiffConverge.is_converge`: verdict and new `pre_loss`. -/
def isConverge (eps : Rat) (pre : Option Rat) (loss : Rat) : Bool × Option Rat :=
  (match pre with
   | none => false
   | some p => decide (|p - loss| < eps), some loss)

/-- State of the guest between two trees: `F`, `trees_`, `feature_importances_`, `history_loss`,
the convergence object and the stop flags sent so far. -/
structure BoostState (K : Type) where
  scores : DTable K (List Rat)
  trees : List Saved
  imps : Dict (Site × Option Int) Rat
  losses : List Rat
  pre : Option Rat
  flags : List Bool

/-- `(grad_and_hess[0][tree_idx], grad_and_hess[1][tree_idx])`, 211-215. -/
def component (t : Nat) (gh : List Rat × List Rat) : Except PyErr (Rat × Rat) := do
  let g ← getAt gh.1 t
  let h ← getAt gh.2 t
  pure (g, h)

/-- What a tree is trained on (guest 260-270, host 91-99). -/
def treeSetup (B : Boost K α L) (i t : Nat) (gh : DTable K (Rat × Rat)) (egh : DTable K (α × α)) :
    Setup K α :=
  { B.base with
    gh := gh
    encGh := egh
    cipher := B.cipher i t
    guest := { B.base.guest with valid := B.valid i t none }
    hosts := B.base.hosts.mapIdx fun j H => { H with valid := B.valid i t (some j) } }

instance {B : Boost K α L} {i t : Nat} {gh : DTable K (Rat × Rat)} {egh : DTable K (α × α)}
    [h : B.base.cfg.Exact] : (treeSetup B i t gh egh).cfg.Exact := h

/-- `accumulate_f`, 217-220. -/
def accumulateF (rate : Rate) (idx : Nat) (f : List Rat) (new : Rat) : Except PyErr (List Rat) :=
  updAt f idx fun x => .ok (rate.rnd (x + rate.rnd (rate.value * new)))

/-- `update_f_value` with new values, 237-241; `join` with `None` raises. -/
def updateF (rate : Rate) (idx : Nat) (scores : DTable K (List Rat)) (new : Option (DTable K Rat)) :
    Except PyErr (DTable K (List Rat)) :=
  match new with
  | none => .error .attributeError
  | some w => scores.joinM w (accumulateF rate idx)

/-- `update_feature_importance`, 222-227. -/
def addImportances (imps : Dict (Site × Option Int) Rat) :
    Dict (Site × Option Int) Rat → Dict (Site × Option Int) Rat
  | [] => imps
  | (f, v) :: rest => addImportances (imps.set f (((imps.get? f).getD 0) + v)) rest

/-- One tree, 260-280. -/
def boostTree (B : Boost K α L) (gh : DTable K (List Rat × List Rat)) (i t : Nat)
    (st : BoostState K) : Except PyErr (BoostState K) := do
  let g ← gh.mapValuesM (component t)
  let e ← B.enc i t g
  let F ← fit (treeSetup B i t g e)
  let P ← save F
  let scores ← updateF B.rate t st.scores F.weights
  pure { st with scores := scores, trees := st.trees ++ [P], imps := addImportances st.imps F.imps }

/-- The trees of a round, 259-280; the first number counts the trees that remain. -/
def boostTrees (B : Boost K α L) (gh : DTable K (List Rat × List Rat)) (i : Nat) :
    Nat → Nat → BoostState K → Except PyErr (BoostState K)
  | 0, _, st => .ok st
  | r + 1, t, st => do
    let st ← boostTree B gh i t st
    boostTrees B gh i r (t + 1) st

/-- A round up to the loss, 258-284. -/
def boostRound (B : Boost K α L) (y : DTable K L) (i : Nat) (st : BoostState K) :
    Except PyErr (BoostState K) := do
  let gh ← y.joinM st.scores B.gradHess
  let st ← boostTrees B gh i B.dim 0 st
  let l ← B.loss y st.scores
  pure { st with losses := st.losses ++ [l] }

/-- The stop test, 287-292: whether to stop, and the state with the flag sent. -/
def stopTest (B : Boost K α L) (st : BoostState K) : Bool × BoostState K :=
  if B.early then
    match st.losses.getLast? with
    | none => (false, st)
    | some l =>
      let c := isConverge B.tol st.pre l
      (c.1, { st with pre := c.2, flags := st.flags ++ [c.1] })
  else (false, st)

/-- The loop over rounds, 256-292; the first number counts the rounds that remain. -/
def boostLoop (B : Boost K α L) (y : DTable K L) :
    Nat → Nat → BoostState K → Except PyErr (BoostState K)
  | 0, _, st => .ok st
  | r + 1, i, st => do
    let st ← boostRound B y i st
    let s := stopTest B st
    if s.1 then pure s.2 else boostLoop B y r (i + 1) s.2

/-- `fit` from line 251 on: `F` starts with a copy of the initial score for every label
(`cross_entropy.py` `initialize`; the regression objectives fail there, see C46). -/
def boost (B : Boost K α L) (init : List Rat) (y : DTable K L) : Except PyErr (BoostState K) := do
  let scores ← y.mapValues (fun _ => init)
  boostLoop B y B.rounds 0 ⟨scores, [], [], [], none, []⟩

/-- A host's loop, `hetero_secureboosting_tree_host.py` 88-113: the number of rounds it performs
and the flags left in its inbox.  It waits for ever (`unfinished`) for a flag that is never sent. -/
def hostRounds (early : Bool) : Nat → List Bool → Except PyErr (Nat × List Bool)
  | 0, flags => .ok (0, flags)
  | r + 1, flags =>
    if early then
      match flags with
      | [] => .error .unfinished
      | true :: rest => .ok (1, rest)
      | false :: rest => do
        let (n, rest) ← hostRounds early r rest
        pure (n + 1, rest)
    else do
      let (n, rest) ← hostRounds early r flags
      pure (n + 1, rest)

/-- `tree_inst.load_model(..)`, `tree_inst.predict(..)`, `update_f_value(..)` for one tree
(guest 306-313, host 123-131). -/
def predictAdd (hosts : List (Party K)) (rate : Rate) (t : Nat) (rows : DTable K (SparseVec Rat))
    (hostRows : List (DTable K (SparseVec Rat))) (fuel : Nat) (P : Saved)
    (scores : DTable K (List Rat)) : Except PyErr (DTable K (List Rat)) := do
  let F : Fitted K := load P
  let w ← predictTree F.tree F.guestMask rows (predHosts hosts F.hostMasks hostRows) fuel
  updateF rate t scores (some w)

/-- The inner loop 305-313; the first number counts the trees that remain. -/
def predictRound (hosts : List (Party K)) (rate : Rate) (dim : Nat) (trees : List Saved)
    (rows : DTable K (SparseVec Rat)) (hostRows : List (DTable K (SparseVec Rat))) (fuel i : Nat) :
    Nat → Nat → DTable K (List Rat) → Except PyErr (DTable K (List Rat))
  | 0, _, scores => .ok scores
  | r + 1, t, scores => do
    let P ← getAt trees (i * dim + t)
    let scores ← predictAdd hosts rate t rows hostRows fuel P scores
    predictRound hosts rate dim trees rows hostRows fuel i r (t + 1) scores

/-- The outer loop 304-313. -/
def predictRounds (hosts : List (Party K)) (rate : Rate) (dim : Nat) (trees : List Saved)
    (rows : DTable K (SparseVec Rat)) (hostRows : List (DTable K (SparseVec Rat))) (fuel : Nat) :
    Nat → Nat → DTable K (List Rat) → Except PyErr (DTable K (List Rat))
  | 0, _, scores => .ok scores
  | r + 1, i, scores => do
    let scores ← predictRound hosts rate dim trees rows hostRows fuel i dim 0 scores
    predictRounds hosts rate dim trees rows hostRows fuel r (i + 1) scores

/-- `predict` up to the scores (guest 315-318 with 298-313, host 117-131). -/
def predictScores (hosts : List (Party K)) (rate : Rate) (dim : Nat) (init : List Rat)
    (trees : List Saved) (guest : DTable K (List Rat)) (hostTables : List (DTable K (List Rat)))
    (fuel : Nat) : Except PyErr (DTable K (List Rat)) := do
  let g ← alignRows guest
  let hs ← alignAll hostTables
  let scores ← g.mapValues (fun _ => init)
  if dim = 0 then .error .zeroDivision
  else predictRounds hosts rate dim trees g hs fuel (trees.length / dim) 0 scores

end DTree
end Verif
