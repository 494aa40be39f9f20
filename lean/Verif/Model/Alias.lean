import Verif.Model.Predict

/-!
# Row objects

The tables of `boosting_tree.py` and `base_binning.py` hold references to row objects
(`ml/feature/instance.py`), and both `data_format_transform` and `_convert_sparse_data` assign to
the `features` of the object they are given.  A heap maps references to the features stored in the
object; a table maps sample ids to references.
-/

set_option autoImplicit false

namespace Verif
namespace Alias

open Binning

/-- The `features` of a row object: an array, or a sparse vector of raw values or bins. -/
inductive Feat where
  | dense (xs : List Rat)
  | sparse (v : SparseVec Cell)
deriving DecidableEq, Repr

abbrev Heap := Nat → Feat

/-- `row.features = f` -/
def Heap.assign (h : Heap) (r : Nat) (f : Feat) : Heap := fun r' => if r' = r then f else h r'

/-- A vector of raw values. -/
def rawVec (v : SparseVec Rat) : SparseVec Cell := ⟨v.vec.map fun p => (p.1, .raw p.2), v.shape⟩

/-- The numbers in a vector. -/
def numVec (v : SparseVec Cell) : SparseVec Rat := ⟨v.vec.map fun p => (p.1, p.2.val), v.shape⟩

/-- `boosting_tree.py` 52-65: an array becomes a sparse vector, a sparse vector stays. -/
def format : Feat → Feat
  | .dense xs => .sparse (rawVec (dataFormatTransform xs))
  | .sparse v => .sparse v

/-- `boosting_tree.py` 51-67 -/
def formatRow (h : Heap) (r : Nat) : Heap := h.assign r (format (h r))

variable {K : Type} [DecidableEq K]

/-- `boosting_tree.py` 69-79.  The new table holds the same row objects. -/
def align (h : Heap) (t : DTable K Nat) : Except PyErr Heap :=
  if t.data.isEmpty then .error .valueError else .ok (t.data.values.foldl formatRow h)

/-- `features.get_all_data()` (an array has no such method). -/
def readSparse (h : Heap) (r : Nat) : Except PyErr (SparseVec Rat) :=
  match h r with
  | .dense _ => .error .attributeError
  | .sparse v => .ok (numVec v)

/-- The features of all samples as the code sees them. -/
def readTable (h : Heap) (t : DTable K Nat) : Except PyErr (DTable K (SparseVec Rat)) :=
  t.mapValuesM (readSparse h)

/-- The same with bins and raw values told apart: the data the tree code is given. -/
def readCells (h : Heap) (r : Nat) : Except PyErr (SparseVec Cell) :=
  match h r with
  | .dense _ => .error .attributeError
  | .sparse v => .ok v

/-- `base_binning.py` 115-137: `instances.features = sparse_vector`. -/
def convertRow (cols : List Nat) (sps : Dict String (List Rat)) (header : List String) (h : Heap)
    (r : Nat) : Except PyErr Heap :=
  match readSparse h r with
  | .error e => .error e
  | .ok v =>
    match convertSparse cols sps header v with
    | .error e => .error e
    | .ok w => .ok (h.assign r (.sparse w))

/-- `mapValues(_convert_sparse_data)`, row after row. -/
def convertRows (cols : List Nat) (sps : Dict String (List Rat)) (header : List String) :
    Heap → List Nat → Except PyErr Heap
  | h, [] => .ok h
  | h, r :: rs =>
    match convertRow cols sps header h r with
    | .error e => .error e
    | .ok h => convertRows cols sps header h rs

/-- What training does to the row objects of a party before the first tree
(`hetero_secureboosting_tree_guest.py` 80-86, 247-249, `..._host.py` 30-37, 83-84); the trees do
not write to rows.  Result: the heap, split points and bins of zero.  (`Binning.prepare` is the
same on values.) -/
def prepareRows (cfg : Quantile.Config) (binNum : Nat) (header : List String) (h : Heap)
    (t : DTable K Nat) : Except PyErr (Heap × List (List Rat) × Dict Nat Nat) :=
  match align h t with
  | .error e => .error e
  | .ok h =>
    match readTable h t with
    | .error e => .error e
    | .ok sparse =>
      match fitSplitPoints cfg binNum header sparse with
      | .error e => .error e
      | .ok sps =>
        match convertRows (List.range header.length) sps header h t.data.values with
        | .error e => .error e
        | .ok h =>
          match getSparseBin (List.range header.length) sps header with
          | .error e => .error e
          | .ok sb => .ok (h, splitArray header sps, sb)

/-- What prediction reads (`hetero_secureboosting_tree_guest.py` 317, `..._host.py` 119). -/
def predictionRows (h : Heap) (t : DTable K Nat) : Except PyErr (Heap × DTable K (SparseVec Rat)) :=
  match align h t with
  | .error e => .error e
  | .ok h =>
    match readTable h t with
    | .error e => .error e
    | .ok rows => .ok (h, rows)

end Alias
end Verif
