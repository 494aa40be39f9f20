import Verif.Model.Quantile
import Verif.Model.DTableM

/-!
# Model of the feature binning code

`ml/feature/sparse_vector.py`, `ml/tree/boosting_tree.py` 51-67,
`ml/feature/binning/base_binning.py`, `ml/feature/binning/quantile_binning.py`.

Feature values are exact rationals.  After binning, a transformed column holds Python ints
and every other column still holds its raw float; `Cell` keeps the two apart (a raw value used
as a list index raises `TypeError`).
-/

set_option autoImplicit false

namespace Verif
namespace Binning

open Quantile (floatZero)

/-- A feature value before (`raw`) or after (`bin`) binning. -/
inductive Cell where
  | raw (x : Rat)
  | bin (n : Nat)
  deriving DecidableEq, Repr

/-- The number a comparison sees. -/
def Cell.val : Cell → Rat
  | .raw x => x
  | .bin n => n

/-- `sparse_vector.py` 40-42 -/
structure SparseVec (V : Type) where
  vec : Dict Nat V
  shape : Nat
  deriving DecidableEq, Repr

/-- `sparse_vector.py` 41: `dict(zip(indices, data))`. -/
def SparseVec.ofLists {V : Type} (indices : List Nat) (data : List V) (shape : Nat) : SparseVec V :=
  ⟨(indices.zip data).foldl (fun d p => d.set p.1 p.2) [], shape⟩

/-- `sparse_vector.py` 44-45 -/
def SparseVec.getData {V : Type} (s : SparseVec V) (pos : Nat) (default : V) : V :=
  (s.vec.get? pos).getD default

/-- `sparse_vector.py` 56-58 -/
def SparseVec.allData {V : Type} (s : SparseVec V) : List (Nat × V) := s.vec

/-- `boosting_tree.py` 58-63: the loop over the features of a dense row, keeping index and
value of the entries that are not near zero. -/
def transformLoop : Nat → List Rat → List Nat × List Rat
  | _, [] => ([], [])
  | i, x :: xs =>
    let r := transformLoop (i + 1) xs
    if |x| < floatZero then r else (i :: r.1, x :: r.2)

/-- `boosting_tree.py` 52-67: `data_format_transform` on a dense row.  (A row that is already
sparse is returned unchanged; the in-place update of the row object is modelled in
`Model/Alias.lean`.) -/
def dataFormatTransform (row : List Rat) : SparseVec Rat :=
  let r := transformLoop 0 row
  .ofLists r.1 r.2 row.length

/-- `base_binning.py` 155-158: index of the first split point not below the value. -/
def binLoop (value : Rat) : Nat → List Rat → Option Nat
  | _, [] => none
  | i, s :: rest => if value ≤ s then some i else binLoop value (i + 1) rest

/-- `base_binning.py` 153-160 -/
def getBinNum (value : Rat) (splitPoints : List Rat) : Nat :=
  (binLoop value 0 splitPoints).getD splitPoints.length

/-- `header[col_idx]` followed by `split_points_dict[col_name]`
(`base_binning.py` 126-127, 144-145, 168-169). -/
def lookupSplits (header : List String) (sps : Dict String (List Rat)) (col : Nat) :
    Except PyErr (List Rat) :=
  match header[col]? with
  | none => .error .indexError
  | some name =>
    match sps.get? name with
    | none => .error .keyError
    | some s => .ok s

/-- `base_binning.py` 124-133: the loop of `_convert_sparse_data`. -/
def convertLoop (cols : List Nat) (sps : Dict String (List Rat)) (header : List String) :
    List (Nat × Rat) → Except PyErr (List Nat × List Cell)
  | [] => .ok ([], [])
  | (i, x) :: rest =>
    if i ∈ cols then
      match lookupSplits header sps i with
      | .error e => .error e
      | .ok s =>
        match convertLoop cols sps header rest with
        | .error e => .error e
        | .ok r => .ok (i :: r.1, .bin (getBinNum x s) :: r.2)
    else
      match convertLoop cols sps header rest with
      | .error e => .error e
      | .ok r => .ok (i :: r.1, .raw x :: r.2)

/-- `base_binning.py` 116-137 -/
def convertSparse (cols : List Nat) (sps : Dict String (List Rat)) (header : List String)
    (features : SparseVec Rat) : Except PyErr (SparseVec Cell) :=
  match convertLoop cols sps header features.allData with
  | .error e => .error e
  | .ok r => .ok (.ofLists r.1 r.2 features.shape)

/-- `base_binning.py` 140-150 (`features` is an ndarray; bins are stored as numbers). -/
def convertDenseLoop (cols : List Nat) (sps : Dict String (List Rat)) (header : List String) :
    Nat → List Rat → Except PyErr (List Cell)
  | _, [] => .ok []
  | i, x :: rest =>
    if i ∈ cols then
      match lookupSplits header sps i with
      | .error e => .error e
      | .ok s =>
        match convertDenseLoop cols sps header (i + 1) rest with
        | .error e => .error e
        | .ok r => .ok (.bin (getBinNum x s) :: r)
    else
      match convertDenseLoop cols sps header (i + 1) rest with
      | .error e => .error e
      | .ok r => .ok (.raw x :: r)

/-- `base_binning.py` 140-150 -/
def convertDense (cols : List Nat) (sps : Dict String (List Rat)) (header : List String)
    (features : List Rat) : Except PyErr (List Cell) :=
  convertDenseLoop cols sps header 0 features

/-- `base_binning.py` 162-172: the bin of 0 for every transformed column. -/
def sparseBinLoop (sps : Dict String (List Rat)) (header : List String) :
    List Nat → Dict Nat Nat → Except PyErr (Dict Nat Nat)
  | [], acc => .ok acc
  | c :: rest, acc =>
    match lookupSplits header sps c with
    | .error e => .error e
    | .ok s => sparseBinLoop sps header rest (acc.set c (getBinNum 0 s))

/-- `base_binning.py` 162-172 -/
def getSparseBin (cols : List Nat) (sps : Dict String (List Rat)) (header : List String) :
    Except PyErr (Dict Nat Nat) :=
  sparseBinLoop sps header cols []

/-- `base_binning.py` 105-112: the split points in header order (columns without split points
are skipped). -/
def splitArray (header : List String) (sps : Dict String (List Rat)) : List (List Rat) :=
  header.filterMap fun name => sps.get? name

/-- `base_binning.py` 73-113 with the default `transform_cols_idx=-1`, `split_points=None` and
all columns selected (`cols=-1`, lines 51-53), on sparse rows: what the tree code calls. -/
def convertFeatureToBin {K : Type} [DecidableEq K] (header : List String)
    (sps : Dict String (List Rat)) (rows : DTable K (SparseVec Rat)) :
    Except PyErr (DTable K (SparseVec Cell) × List (List Rat) × Dict Nat Nat) :=
  match rows.mapValuesM (convertSparse (List.range header.length) sps header) with
  | .error e => .error e
  | .ok newData =>
    match getSparseBin (List.range header.length) sps header with
    | .error e => .error e
    | .ok sb => .ok (newData, splitArray header sps, sb)

/-- `quantile_binning.py` 132-149, one row of sparse data: every stored value is inserted into
the summary of its column. -/
def insertRow (header : List String) :
    List (Nat × Rat) → Dict String Quantile.Sparse → Except PyErr (Dict String Quantile.Sparse)
  | [], d => .ok d
  | (i, x) :: rest, d =>
    match header[i]? with
    | none => .error .indexError
    | some name =>
      match d.get? name with
      | none => .error .keyError
      | some s => insertRow header rest (d.set name (s.insert x))

/-- `quantile_binning.py` 135-149, all rows. -/
def insertRows (header : List String) :
    List (SparseVec Rat) → Dict String Quantile.Sparse → Except PyErr (Dict String Quantile.Sparse)
  | [], d => .ok d
  | r :: rest, d =>
    match insertRow header r.allData d with
    | .error e => .error e
    | .ok d' => insertRows header rest d'

/-- `base_binning.py` 68-71 and `quantile_binning.py` 117-123: one fresh summary per column
name (a repeated name gives one entry). -/
def freshSummaries (cfg : Quantile.Config) (header : List String) : Dict String Quantile.Sparse :=
  header.foldl (fun d name => d.set name (Quantile.Sparse.new cfg)) []

/-- `quantile_binning.py` 61-68: split points of every column. -/
def allSplits (binNum : Nat) :
    Dict String Quantile.Sparse → Except PyErr (Dict String (List Rat))
  | [] => .ok []
  | (name, s) :: rest =>
    match Quantile.splitPoints s.query binNum with
    | .error e => .error e
    | .ok sp =>
      match allSplits binNum rest with
      | .error e => .error e
      | .ok d => .ok ((name, sp) :: d)

/-- `quantile_binning.py` 16-69 on sparse rows with all columns selected.  The table is a
single partition, so no summaries are merged (`mapPartitions`, `reduce` on one element). -/
def fitSplitPoints {K : Type} (cfg : Quantile.Config) (binNum : Nat) (header : List String)
    (rows : DTable K (SparseVec Rat)) : Except PyErr (Dict String (List Rat)) :=
  match insertRows header rows.data.values (freshSummaries cfg header) with
  | .error e => .error e
  | .ok d =>
    allSplits binNum (d.map fun p => (p.1, (p.2.compress).setTotal rows.count))

/-- `boosting_tree.py` 69-79 (dense input) followed by `convert_feature_to_bin` of either party
(`hetero_secureboosting_tree_guest.py` 80-86, `..._host.py` 30-37): rows are made sparse, split
points are fitted, every stored value is replaced by its bin.  Result: binned table, split
points per column, bin of zero per column. -/
def prepare {K : Type} [DecidableEq K] (cfg : Quantile.Config) (binNum : Nat) (header : List String)
    (rows : DTable K (List Rat)) :
    Except PyErr (DTable K (SparseVec Cell) × List (List Rat) × Dict Nat Nat) :=
  match rows.mapValues dataFormatTransform with
  | .error e => .error e
  | .ok sparse =>
    match fitSplitPoints cfg binNum header sparse with
    | .error e => .error e
    | .ok sps => convertFeatureToBin header sps sparse

end Binning
end Verif
