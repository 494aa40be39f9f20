import Verif.Model.DTable
import Mathlib.Algebra.Order.Ring.Rat
import Mathlib.Analysis.Real.Sqrt

/-!
# Summary statistics and initial scores

`ml/statistic/statics.py` 31-88, 131-142, 168-203, 240-253, 327-335, 354-390, and `initialize` of
`ml/loss/cross_entropy.py` and `ml/loss/regression_loss.py`.  Floats are rationals.
-/

set_option autoImplicit false

namespace Verif
namespace Statics

/-- The fields of a `SummaryStatistics` object (`abnormal_list` is a parameter below). -/
structure Summary where
  sum : Rat
  sumSquare : Rat
  maxValue : Rat
  minValue : Rat
  count : Nat
deriving DecidableEq, Repr

/-- 38-42; `sys.maxsize` is `2^63 - 1`. -/
def fresh : Summary := ⟨0, 0, -9223372036854775808, 9223372036854775807, 0⟩

/-- 44-61.  `float` is Python's conversion: `TypeError` is caught, anything else is not. -/
def addValue {V : Type} [DecidableEq V] (float : V → Except PyErr Rat) (abnormal : List V)
    (s : Summary) (value : V) : Except PyErr Summary :=
  if value ∈ abnormal then .ok s
  else match float value with
    | .error .typeError => .ok s
    | .error e => .error e
    | .ok v => .ok
        { count := s.count + 1
          sum := s.sum + v
          sumSquare := s.sumSquare + v ^ 2
          maxValue := if v > s.maxValue then v else s.maxValue
          minValue := if v < s.minValue then v else s.minValue }

/-- `add_value` for a sequence of values. -/
def addAll {V : Type} [DecidableEq V] (float : V → Except PyErr Rat) (abnormal : List V) :
    Summary → List V → Except PyErr Summary
  | s, [] => .ok s
  | s, v :: vs =>
    match addValue float abnormal s v with
    | .error e => .error e
    | .ok s => addAll float abnormal s vs

/-- 63-71 -/
def merge (s o : Summary) : Summary :=
  { count := s.count + o.count
    sum := s.sum + o.sum
    sumSquare := s.sumSquare + o.sumSquare
    maxValue := if s.maxValue < o.maxValue then o.maxValue else s.maxValue
    minValue := if s.minValue > o.minValue then o.minValue else s.minValue }

/-- 73-75 -/
def mean (s : Summary) : Except PyErr Rat :=
  if s.count = 0 then .error .zeroDivision else .ok (s.sum / s.count)

/-- `consts.FLOAT_ZERO` -/
def floatZero : Rat := 1 / 1000000

/-- 77-83 -/
def variance (s : Summary) : Except PyErr Rat :=
  match mean s with
  | .error e => .error e
  | .ok m =>
    let v := s.sumSquare / s.count - 2 * s.sum * m / s.count + m ^ 2
    if |v| < floatZero then .ok 0 else .ok v

/-- 85-88; `math.sqrt` of a negative number raises. -/
noncomputable def stdVariance (s : Summary) : Except PyErr ℝ :=
  match variance s with
  | .error e => .error e
  | .ok v => if |v| < floatZero then .ok 0 else if v < 0 then .error .valueError else .ok √(v : ℝ)

/-! ## Columns of a table -/

variable {C V : Type} [DecidableEq C] [DecidableEq V]

/-- 197-200: one row is added to the summaries of the selected columns. -/
def addRow (float : V → Except PyErr Rat) (abnormal : List V) (row : List V) :
    Dict C Nat → Dict C Summary → Except PyErr (Dict C Summary)
  | [], d => .ok d
  | (name, col) :: cols, d =>
    match row[col]? with
    | none => .error .indexError
    | some v =>
      match d.get? name with
      | none => .error .keyError
      | some s =>
        match addValue float abnormal s v with
        | .error e => .error e
        | .ok s => addRow float abnormal row cols (d.set name s)

def addRows (float : V → Except PyErr Rat) (abnormal : List V) (cols : Dict C Nat) :
    List (List V) → Dict C Summary → Except PyErr (Dict C Summary)
  | [], d => .ok d
  | row :: rows, d =>
    match addRow float abnormal row cols d with
    | .error e => .error e
    | .ok d => addRows float abnormal cols rows d

/-- 168-202 `static_in_partition`. -/
def staticInPartition (float : V → Except PyErr Rat) (abnormal : List V) (cols : Dict C Nat)
    (rows : List (List V)) : Except PyErr (Dict C Summary) :=
  addRows float abnormal cols rows (cols.map fun c => (c.1, fresh))

/-- 240-253 `aggregate_statics` of two dictionaries. -/
def aggregate (d2 : Dict C Summary) : Dict C Summary → Except PyErr (Dict C Summary)
  | [] => .ok []
  | (name, s) :: rest =>
    match d2.get? name with
    | none => .error .keyError
    | some o =>
      match aggregate d2 rest with
      | .error e => .error e
      | .ok r => .ok ((name, merge s o) :: r)

/-! ## Initial scores -/

/-- `LeastSquaredErrorLoss.initialize` and the others that use the mean, for labels `y`: the labels
become a table with one column, `get_mean` (354-376) calls `_static_sums` (131-142), which hands
the dictionary made by `static_in_partition` to the constructor of a table. -/
def initMean {K : Type} [DecidableEq K] (float : V → Except PyErr Rat) (y : DTable K V) :
    Except PyErr (DTable K (List Rat) × List Rat) :=
  match staticInPartition float [] [((), 0)] (y.data.values.map fun v => [v]) with
  | .error e => .error e
  | .ok _ =>
    -- `mapPartitions` with a function that returns a dictionary
    match y.mapPartitions (W := Dict Unit Summary) fun _ => .notList with
    | .error e => .error e
    | .ok t =>
      match t.data.values with
      | [] => .error .typeError
      | d :: _ =>
        match d.get? () with
        | none => .error .keyError
        | some s =>
          match mean s with
          | .error e => .error e
          | .ok m =>
            match y.mapValues fun _ => [m] with
            | .error e => .error e
            | .ok scores => .ok (scores, [m])

/-- `LeastAbsoluteErrorLoss.initialize`: `get_median` calls `_get_quantile_median` (327-335), which
uses what `fit_split_points` returns.  That method returns nothing (`none`), whatever its outcome
`fit` otherwise is. -/
def initMedian {K : Type} [DecidableEq K] (fit : Except PyErr Unit) (y : DTable K V) :
    Except PyErr (DTable K (List Rat) × List Rat) :=
  match fit with
  | .error e => .error e
  | .ok () =>
    let splitPoints : Option (Dict Unit (List Rat)) := none
    match splitPoints with
    | none => .error .attributeError
    | some d =>
      match d.get? () with
      | none => .error .keyError
      | some [] => .error .indexError
      | some (m :: _) =>
        match y.mapValues fun _ => [m] with
        | .error e => .error e
        | .ok scores => .ok (scores, [m])

/-- `initialize` of the two classification losses (`cross_entropy.py` 22-39, 117-137) as called by
`update_f_value` (guest 231-235): `dim` zeros for every sample. -/
def initZeros {K Y : Type} [DecidableEq K] (dim : Nat) (y : DTable K Y) :
    Except PyErr (DTable K (List Rat) × List Rat) :=
  match y.mapValues fun _ => List.replicate dim (0 : Rat) with
  | .error e => .error e
  | .ok scores => .ok (scores, List.replicate dim 0)

end Statics
end Verif
