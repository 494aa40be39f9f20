import Verif.Model.Data
import Verif.Model.Boost
import Verif.Model.Labels
import Mathlib.Data.Char
import Mathlib.Data.List.Lex

/-!
# The programs `guest.py` and `host.py`

From the files to the printed accuracy: `test_hetero_secure_boost_guest` (`guest.py` 25-82) and
`test_hetero_seucre_boost_host` (`host.py` 24-61), composed as in `Model/Boost.lean`.  Command line
and sockets are not modelled.  Every party is given its own proportion; the seed of the generator
(2) is the same in both programs.
-/

set_option autoImplicit false

namespace Verif
namespace Program

open DTree Histogram Labels
open Data (Cell Table dataSplit readLabelled readUnlabelled)

/-- `Instance`, `ml/feature/instance.py` 40-44.  The weight is never read.  Labels are the strings
of the file. -/
structure Inst where
  id : Cell
  features : List Rat
  label : Option (Label Cell)
deriving DecidableEq

/-- The loop `guest.py` 51-53. -/
def guestInsts (t : Table Rat) : Nat → List (List Rat) → Except PyErr (List Inst)
  | _, [] => .ok []
  | i, f :: fs => do
    let id ← getAt t.ids i
    let l ← getAt t.labels i
    let rest ← guestInsts t (i + 1) fs
    pure (⟨id, f, some (.str l)⟩ :: rest)

/-- The loop `host.py` 45-47. -/
def hostInsts (t : Table Rat) : Nat → List (List Rat) → Except PyErr (List Inst)
  | _, [] => .ok []
  | i, f :: fs => do
    let id ← getAt t.ids i
    let rest ← hostInsts t (i + 1) fs
    pure (⟨id, f, none⟩ :: rest)

/-- What a party has after reading and splitting. -/
structure Tables where
  header : List String
  train : DTable Nat Inst
  test : DTable Nat Inst

/-- `guest.py` 56-63, `host.py` 49-56.  `scaled n` is the product of `n` and the proportion. -/
def splitTables (header : List Cell) (insts : List Inst) (scaled : Nat → Rat)
    (draw : Nat → Nat → Nat) : Except PyErr Tables := do
  let parts := dataSplit insts (scaled insts.length) true draw
  let train ← DTable.ofValues (.list parts.1)
  let test ← DTable.ofValues (.list parts.2.1)
  pure ⟨header.map String.ofList, train, test⟩

/-- `guest.py` 49-63. -/
def guestTables (parse : Cell → Option Rat) (text : List Char) (scaled : Nat → Rat)
    (draw : Nat → Nat → Nat) : Except PyErr Tables := do
  let t ← readLabelled parse text
  let insts ← guestInsts t 0 t.features
  splitTables t.header insts scaled draw

/-- `host.py` 43-56. -/
def hostTables (parse : Cell → Option Rat) (text : List Char) (scaled : Nat → Rat)
    (draw : Nat → Nat → Nat) : Except PyErr Tables := do
  let t ← readUnlabelled parse text
  let insts ← hostInsts t 0 t.features
  splitTables t.header insts scaled draw

/-- The arguments of a host program: its number, file and proportion. -/
structure HostArgs where
  idx : Nat
  text : List Char
  scaled : Nat → Rat

/-- Everything that does not depend on the data.  Gradients and loss depend on the number of classes
(`set_loss`, `hetero_secureboosting_tree_guest.py` 50-60). -/
structure Settings (α P : Type) where
  binning : Quantile.Config
  binNum : Nat
  tree : Config
  kind : ImpType
  maxDepth : Nat
  maxSplitNodes : Nat
  arith : Arith α
  valid : Nat → Nat → Option Nat → List Bool
  cipher : Nat → Nat → Nat → Nat → Cipher α
  enc : Nat → Nat → DTable Nat (Rat × Rat) → Except PyErr (DTable Nat (α × α))
  gradHess : Nat → Label Cell → List Rat → Except PyErr (List Rat × List Rat)
  loss : Nat → DTable Nat (Label Cell) → DTable Nat (List Rat) → Except PyErr Rat
  rounds : Nat
  rate : Rate
  early : Bool
  tol : Rat
  sigmoid : Rat → P
  softmax : List Rat → List P
  threshold : P
  fuel : Nat

variable {α P : Type}

/-- `data_alignment` and `convert_feature_to_bin` of either party
(`hetero_secureboosting_tree_guest.py` 247-249, `..._host.py` 81-83).  The features of a tree are
sampled later. -/
def prepareParty (S : Settings α P) (idx : Nat) (header : List String) (t : DTable Nat Inst) :
    Except PyErr (Party Nat) :=
  if t.count = 0 then .error .valueError
  else do
    let rows ← t.mapValues Inst.features
    let r ← Binning.prepare S.binning S.binNum header rows
    pure ⟨idx, r.2.1, r.2.2, [], r.1⟩

/-- The hosts read and split their files. -/
def allHostTables (parse : Cell → Option Rat) (draw : Nat → Nat → Nat) :
    List HostArgs → Except PyErr (List Tables)
  | [] => .ok []
  | h :: hs => do
    let t ← hostTables parse h.text h.scaled draw
    let rest ← allHostTables parse draw hs
    pure (t :: rest)

/-- The hosts prepare their training tables. -/
def prepareHosts (S : Settings α P) : List HostArgs → List Tables → Except PyErr (List (Party Nat))
  | h :: hs, t :: ts => do
    let p ← prepareParty S h.idx t.header t.train
    let rest ← prepareHosts S hs ts
    pure (p :: rest)
  | _, _ => .ok []

/-- The features of the test tables of the hosts. -/
def testRows : List Tables → Except PyErr (List (DTable Nat (List Rat)))
  | [] => .ok []
  | t :: ts => do
    let r ← t.test.mapValues Inst.features
    let rest ← testRows ts
    pure (r :: rest)

/-- `set_y`, 93-95: `instance.label`, which every instance of the guest has. -/
def givenLabel (x : Inst) : Except PyErr (Label Cell) :=
  match x.label with
  | some l => .ok l
  | none => .error .attributeError

/-- The run that `fit` carries out once the data is prepared and the labels are checked. -/
def boostOf (S : Settings α P) (guest : Party Nat) (hosts : List (Party Nat))
    (R : Checked Nat Cell) : Boost Nat α (Label Cell) where
  base :=
    { cfg := S.tree, kind := S.kind, maxDepth := S.maxDepth, maxSplitNodes := S.maxSplitNodes,
      arith := S.arith, cipher := S.cipher 0 0, guest := guest, hosts := hosts, gh := ⟨[]⟩,
      encGh := ⟨[]⟩ }
  valid := S.valid
  cipher := S.cipher
  enc := S.enc
  gradHess := S.gradHess R.num
  loss := S.loss R.num
  rounds := S.rounds
  dim := R.dim
  rate := S.rate
  early := S.early
  tol := S.tol

instance {S : Settings α P} {guest : Party Nat} {hosts : List (Party Nat)} {R : Checked Nat Cell}
    [h : S.tree.Exact] : (boostOf S guest hosts R).base.cfg.Exact := h

/-- The function `func` of `guest.py` 73-78 with its loop. -/
def fraction (kvs : List (Nat × Row Cell P)) : Except PyErr Rat :=
  let correct : Nat := kvs.foldl
    (fun c kv => if kv.2.given.map Label.value = some kv.2.label.value then c + 1 else c) 0
  if kvs.length = 0 then .error .zeroDivision else .ok ((correct : Rat) / kvs.length)

/-- `guest.py` 80: `predict_result.mapPartitions(func).reduce(..)`. -/
def accuracy (res : DTable Nat (Row Cell P)) : Except PyErr (Option Rat) := do
  let a ← fraction res.data
  let t ← res.mapPartitions fun _ => .list [some a]
  pure (t.reduce fun a b => do return (← a) + (← b))

/-- What the guest ends up with: the state after training, the predictions for the test table, the
printed number. -/
structure Outcome (P : Type) where
  state : BoostState Nat
  result : DTable Nat (Row Cell P)
  accuracy : Option Rat

/-- The programs of all parties from start to end. -/
def program [LinearOrder P] [One P] [Sub P] (S : Settings α P) (parse : Cell → Option Rat)
    (draw : Nat → Nat → Nat) (text : List Char) (scaled : Nat → Rat) (hosts : List HostArgs) :
    Except PyErr (Outcome P) := do
  let g ← guestTables parse text scaled draw
  let hs ← allHostTables parse draw hosts
  let guest ← prepareParty S 0 g.header g.train
  let parties ← prepareHosts S hosts hs
  let y ← g.train.mapValuesM givenLabel
  let R ← checkLabel y
  let B := boostOf S guest parties R
  let init := List.replicate R.dim (0 : Rat)
  let st ← boost B init R.y
  let rows ← g.test.mapValues Inst.features
  let hrows ← testRows hs
  let scores ← predictScores parties S.rate R.dim init st.trees rows hrows S.fuel
  let given ← g.test.mapValues Inst.label
  let res ← predictRows S.sigmoid S.softmax R.num R.classes S.threshold given scores
  let a ← accuracy res
  pure ⟨st, res, a⟩

end Program
end Verif
