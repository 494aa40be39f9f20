import Verif.Model.Binning

/-!
# Binning of selected columns

`ml/feature/binning/base_binning.py` 28-113, 162-172 and
`ml/feature/binning/quantile_binning.py` 12-149 as one object with state: any `cols` setting,
dense and sparse rows, `transform_cols_idx`, given split points, repeated calls.
(`Model/Binning.lean` has the calls the tree code makes: all columns, sparse rows, once.)

Not modelled: the in-place update of the rows (`Model/Alias.lean`), and what is left in the
object after an exception.  All rows of a table are of one kind, as the code assumes after
looking at the first one.
-/

set_option autoImplicit false

namespace Verif
namespace Selected

open Binning
open Quantile (Config QS)

/-- The rows of a table: feature lists (`ndarray`) or sparse vectors. -/
inductive Rows (K : Type) where
  | dense (t : DTable K (List Rat))
  | sparse (t : DTable K (SparseVec Rat))

/-- The rows after binning. -/
inductive Binned (K : Type) where
  | dense (t : DTable K (List Cell))
  | sparse (t : DTable K (SparseVec Cell))

/-- `data_overview.py` 17-26: the first row decides; an empty table has no first row, and
`None.features` raises. -/
def isSparse {K : Type} [DecidableEq K] : Rows K → Except PyErr Bool
  | .dense t => match t.first with
    | none => .error .attributeError
    | some _ => .ok false
  | .sparse t => match t.first with
    | none => .error .attributeError
    | some _ => .ok true

/-- The summaries of the selected columns, by column name. -/
inductive Summaries where
  | dense (d : Dict String QS)
  | sparse (d : Dict String Quantile.Sparse)

/-- The fields of a binning object, `base_binning.py` 28-41 and `quantile_binning.py` 12-14.
An index in `colsIndex` is `none` if `int(idx)` raises; `colsIndex` itself is `none` for the
setting `-1`.  `splits` is `none` while the attribute `split_points` does not exist: line 41
creates `splite_points` instead. -/
structure Obj where
  cfg : Config
  binNum : Nat
  colsIndex : Option (List (Option Int))
  colsDict : Dict String Nat
  header : List String
  summaries : Option Summaries
  splits : Option (Dict String (List Rat))

/-- `base_binning.py` 28-41, `quantile_binning.py` 12-14. -/
def Obj.new (cfg : Config) (binNum : Nat) (cols : Option (List (Option Int))) : Obj :=
  ⟨cfg, binNum, cols, [], [], none, none⟩

/-- `header[idx]` for any Python int. -/
def nameAt (header : List String) (idx : Int) : Except PyErr String :=
  let i := if idx < 0 then idx + header.length else idx
  if i < 0 then .error .indexError
  else match header[i.toNat]? with
    | none => .error .indexError
    | some name => .ok name

/-- `base_binning.py` 55-66: the names of the selected columns. -/
def selectLoop (header : List String) : List (Option Int) → Except PyErr (List String)
  | [] => .ok []
  | none :: _ => .error .valueError
  | some idx :: rest =>
    if (header.length : Int) ≤ idx then .error .valueError
    else match nameAt header idx with
      | .error e => .error e
      | .ok name =>
        match selectLoop header rest with
        | .error e => .error e
        | .ok names => .ok (name :: names)

/-- `base_binning.py` 68-71 (`header.index` is the first position of the name). -/
def colsDictOf (header cols : List String) : Dict String Nat :=
  cols.foldl (fun d col => d.set col (header.idxOf col)) []

/-- `base_binning.py` 43-71: nothing happens once columns are known. -/
def initCols (o : Obj) (header : List String) : Except PyErr Obj :=
  if o.colsDict ≠ [] then .ok o
  else match o.colsIndex with
    | none => .ok { o with
        header := header
        colsIndex := some ((List.range header.length).map fun (i : Nat) => some (i : Int))
        colsDict := colsDictOf header header }
    | some idxs =>
      match selectLoop header idxs with
      | .error e => .error e
      | .ok cols => .ok { o with header := header, colsDict := colsDictOf header cols }

/-- `quantile_binning.py` 107-114: one fresh summary per selected column. -/
def freshDense (cfg : Config) (names : List String) : Dict String QS :=
  names.foldl (fun d name => d.set name (QS.new cfg)) []

/-- `quantile_binning.py` 136-143: one dense row. -/
def insertDenseRow (colsDict : Dict String Nat) (features : List Rat) :
    Dict String QS → Except PyErr (Dict String QS)
  | [] => .ok []
  | (name, q) :: rest =>
    match colsDict.get? name with
    | none => .error .keyError
    | some i =>
      match features[i]? with
      | none => .error .indexError
      | some x =>
        match insertDenseRow colsDict features rest with
        | .error e => .error e
        | .ok d => .ok ((name, Quantile.insert q x) :: d)

/-- `quantile_binning.py` 135-143: all dense rows. -/
def insertDenseRows (colsDict : Dict String Nat) :
    List (List Rat) → Dict String QS → Except PyErr (Dict String QS)
  | [], d => .ok d
  | r :: rest, d =>
    match insertDenseRow colsDict r d with
    | .error e => .error e
    | .ok d' => insertDenseRows colsDict rest d'

/-- `quantile_binning.py` 71-129 and 50-57: the summaries of the table, which is one partition;
sparse ones are told the number of rows. -/
def summarize {K : Type} (cfg : Config) (colsDict : Dict String Nat) (header : List String) :
    Rows K → Except PyErr Summaries
  | .dense t =>
    match insertDenseRows colsDict t.data.values (freshDense cfg colsDict.keys) with
    | .error e => .error e
    | .ok d => .ok (.dense (d.map fun p => (p.1, Quantile.compress p.2)))
  | .sparse t =>
    match insertRows header t.data.values (freshSummaries cfg colsDict.keys) with
    | .error e => .error e
    | .ok d => .ok (.sparse (d.map fun p => (p.1, p.2.compress.setTotal t.count)))

/-- `quantile_binning.py` 43-59: summaries that exist already are used again, whatever the
table. -/
def summariesOf {K : Type} (o : Obj) (rows : Rows K) : Except PyErr Summaries :=
  match o.summaries with
  | some s => .ok s
  | none => summarize o.cfg o.colsDict o.header rows

/-- `quantile_binning.py` 61-68 on dense summaries. -/
def allSplitsDense (binNum : Nat) : Dict String QS → Except PyErr (Dict String (List Rat))
  | [] => .ok []
  | (name, q) :: rest =>
    match Quantile.splitPoints (Quantile.query q) binNum with
    | .error e => .error e
    | .ok sp =>
      match allSplitsDense binNum rest with
      | .error e => .error e
      | .ok d => .ok ((name, sp) :: d)

/-- `quantile_binning.py` 61-68.  (A query flushes the summary; these ones are flushed.) -/
def splitsOf (binNum : Nat) : Summaries → Except PyErr (Dict String (List Rat))
  | .dense d => allSplitsDense binNum d
  | .sparse d => allSplits binNum d

/-- `quantile_binning.py` 16-69: `fit_split_points`. -/
def fit {K : Type} [DecidableEq K] (o : Obj) (header : List String) (rows : Rows K) :
    Except PyErr Obj :=
  match initCols o header with
  | .error e => .error e
  | .ok o =>
    if o.binNum = 0 then .error .zeroDivision
    else match isSparse rows with
      | .error e => .error e
      | .ok _ =>
        match summariesOf o rows with
        | .error e => .error e
        | .ok s =>
          match splitsOf o.binNum s with
          | .error e => .error e
          | .ok sps => .ok { o with summaries := some s, splits := some sps }

/-- The argument `transform_cols_idx`: `None`, `-1`, a list of ints, or something else. -/
inductive Transform where
  | nothing
  | all
  | list (cols : List Int)
  | other

/-- `list(map(int, …))`, `base_binning.py` 86. -/
def toInts : List (Option Int) → Except PyErr (List Int)
  | [] => .ok []
  | none :: _ => .error .valueError
  | some i :: rest =>
    match toInts rest with
    | .error e => .error e
    | .ok is => .ok (i :: is)

/-- `base_binning.py` 78-86: the columns to convert. -/
def transformCols (o : Obj) : Transform → Except PyErr (List Int)
  | .nothing => .ok []
  | .all => toInts (o.colsIndex.getD [])
  | .list cols =>
    if cols.all fun c => decide (some c ∈ o.colsIndex.getD []) then .ok cols else .error .exception
  | .other => .error .assertionError

/-- The column numbers among the indices: `col_idx in transform_cols_idx` is asked for column
numbers from 0 on only (`base_binning.py` 125, 143). -/
def colNumbers (cols : List Int) : List Nat :=
  cols.filterMap fun c => if 0 ≤ c then some c.toNat else none

/-- `base_binning.py` 162-172 for any Python ints. -/
def zeroBins (sps : Dict String (List Rat)) (header : List String) :
    List Int → Dict Int Nat → Except PyErr (Dict Int Nat)
  | [], acc => .ok acc
  | c :: rest, acc =>
    match nameAt header c with
    | .error e => .error e
    | .ok name =>
      match sps.get? name with
      | none => .error .keyError
      | some s => zeroBins sps header rest (acc.set c (getBinNum 0 s))

/-- `base_binning.py` 91-102: the converted rows. -/
def convertRows {K : Type} [DecidableEq K] (cols : List Nat) (sps : Dict String (List Rat))
    (header : List String) : Rows K → Except PyErr (Binned K)
  | .dense t =>
    match t.mapValuesM (convertDense cols sps header) with
    | .error e => .error e
    | .ok t => .ok (.dense t)
  | .sparse t =>
    match t.mapValuesM (convertSparse cols sps header) with
    | .error e => .error e
    | .ok t => .ok (.sparse t)

/-- What `convert_feature_to_bin` returns: the table it was given, with two `None`, or a new
table with split points and bins of zero. -/
inductive Outcome (K : Type) where
  | same
  | converted (rows : Binned K) (splitPoints : List (List Rat)) (zero : Dict Int Nat)

/-- `base_binning.py` 75-113 on an initialised object. -/
def convertWith {K : Type} [DecidableEq K] (o : Obj) (rows : Rows K) (cols : List Int)
    (given : Option (Dict String (List Rat))) : Except PyErr (Outcome K) :=
  match (match given with
    | some s => some s
    | none => o.splits) with
  | none => .error .attributeError                     -- line 88
  | some sps =>
    match isSparse rows with
    | .error e => .error e
    | .ok _ =>
      match convertRows (colNumbers cols) sps o.header rows with
      | .error e => .error e
      | .ok new =>
        match zeroBins sps o.header cols [] with
        | .error e => .error e
        | .ok zero =>
          match o.splits with
          | some own => .ok (.converted new (splitArray o.header own) zero)
          | none =>                                    -- line 107
            if o.header = [] then .ok (.converted new [] zero) else .error .attributeError

/-- `base_binning.py` 73-113: `convert_feature_to_bin`, with the object afterwards. -/
def convert {K : Type} [DecidableEq K] (o : Obj) (header : List String) (rows : Rows K)
    (transform : Transform) (given : Option (Dict String (List Rat))) :
    Except PyErr (Outcome K × Obj) :=
  match initCols o header with
  | .error e => .error e
  | .ok o =>
    match transform with
    | .nothing => .ok (.same, o)
    | t =>
      match transformCols o t with
      | .error e => .error e
      | .ok cols =>
        match convertWith o rows cols given with
        | .error e => .error e
        | .ok r => .ok (r, o)

end Selected
end Verif
