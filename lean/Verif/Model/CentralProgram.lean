import Verif.Model.Program
import Verif.Model.CentralBoost

/-!
# The program `test_xgboost.py`

Training without federation, from the files of two parties to the printed accuracy (10-51).  The
functions `func` and `data_split` are those of `guest.py`.  The names of the files and the
proportion 0.8 are arguments; the seed of the generator (2) is that of the other programs.
-/

set_option autoImplicit false

namespace Verif
namespace Program

open DTree Histogram Labels
open Data (Cell Table readLabelled readUnlabelled)

variable {α P : Type}

/-- The loop `test_xgboost.py` 20-23: the columns of both files side by side, line by line. -/
def joinedInsts (t t2 : Table Rat) : Nat → List (List Rat) → Except PyErr (List Inst)
  | _, [] => .ok []
  | i, f :: fs => do
    let id ← getAt t.ids i
    let f2 ← getAt t2.features i
    let l ← getAt t.labels i
    let rest ← joinedInsts t t2 (i + 1) fs
    pure (⟨id, f ++ f2, some (.str l)⟩ :: rest)

/-- `test_xgboost.py` 14-32.  The names of the columns are put one after the other (16). -/
def joinedTables (parse : Cell → Option Rat) (text text2 : List Char) (scaled : Nat → Rat)
    (draw : Nat → Nat → Nat) : Except PyErr Tables := do
  let t ← readLabelled parse text
  let t2 ← readUnlabelled parse text2
  let insts ← joinedInsts t t2 0 t.features
  splitTables (t.header ++ t2.header) insts scaled draw

/-- The run that `fit` (`xgboost/hetero_secureboosting_tree_guest.py` 235-289) carries out once the
data is prepared and the labels are checked.  `valid` are the features sampled. -/
def centralOf (S : Settings α P) (valid : Nat → Nat → List Bool) (party : Party Nat)
    (R : Checked Nat Cell) : CBoost Nat (Label Cell) where
  base :=
    { cfg := S.tree, kind := S.kind, maxDepth := S.maxDepth, maxSplitNodes := S.maxSplitNodes,
      party := party, gh := ⟨[]⟩ }
  valid := valid
  gradHess := S.gradHess R.num
  loss := S.loss R.num
  rounds := S.rounds
  dim := R.dim
  rate := S.rate
  early := S.early
  tol := S.tol

/-- `test_xgboost.py` 10-51.  Of the settings, those for encryption are not used. -/
def centralProgram [LinearOrder P] [One P] [Sub P] (S : Settings α P) (valid : Nat → Nat → List Bool)
    (parse : Cell → Option Rat) (draw : Nat → Nat → Nat) (text text2 : List Char)
    (scaled : Nat → Rat) : Except PyErr (Outcome P) := do
  let g ← joinedTables parse text text2 scaled draw
  let party ← prepareParty S 0 g.header g.train
  let y ← g.train.mapValuesM givenLabel
  let R ← checkLabel y
  let C := centralOf S valid party R
  let init := List.replicate R.dim (0 : Rat)
  let st ← centralBoost C init R.y
  let rows ← g.test.mapValues Inst.features
  let scores ← centralScores S.rate R.dim init st.trees rows S.fuel
  let given ← g.test.mapValues Inst.label
  let res ← predictRows S.sigmoid S.softmax R.num R.classes S.threshold given scores
  let a ← accuracy res
  pure ⟨st, res, a⟩

end Program
end Verif
