import Verif.Model.Py

/-!
# Model of `computing/d_table.py`

`DTable` is a single-partition "distributed" table: a Python dict plus a schema.
The schema (a free-form dict, `_computing.py` 103-111) is not modelled.
-/

set_option autoImplicit false

namespace Verif

/-- `computing/d_table.py` 5-33: the private field `__data`. -/
structure DTable (K V : Type*) where
  data : Dict K V
  deriving Repr, DecidableEq

/-- One element of the list handed to the constructor with `include_key=True`
(`d_table.py` 23): a 2-tuple or anything else. -/
inductive Item (K V : Type*) where
  | pair (k : K) (v : V)
  | other
  deriving Repr, DecidableEq

/-- A Python object handed to the constructor as `data` (`d_table.py` 15):
a list, or an object of another type. -/
inductive PyList (α : Type*) where
  | list (xs : List α)
  | notList

namespace DTable

variable {K V W X : Type*} [DecidableEq K]

/-- `d_table.py` 20-29: the loop of the constructor for `include_key=True`;
`acc` is `self.__data` so far. -/
def ctorLoop : Dict K V → List (Item K V) → Except PyErr (Dict K V)
  | acc, [] => .ok acc
  | acc, .pair k v :: rest =>
    if acc.has k then .error .valueError else ctorLoop (acc.set k v) rest
  | _, .other :: _ => .error .typeError

/-- `d_table.py` 7-29, `DTable(True, data)`. -/
def ofItems (items : PyList (Item K V)) : Except PyErr (DTable K V) :=
  match items with
  | .notList => .error .typeError
  | .list xs => (ctorLoop [] xs).map DTable.mk

/-- `DTable(True, data)` where every element is known to be a pair. -/
def ofPairs (ps : List (K × V)) : Except PyErr (DTable K V) :=
  ofItems (.list (ps.map fun p => .pair p.1 p.2))

/-- `d_table.py` 30-33: the loop `for i, item in enumerate(data)`. -/
def enumLoop : Nat → Dict Nat V → List V → Dict Nat V
  | _, acc, [] => acc
  | i, acc, v :: vs => enumLoop (i + 1) (acc.set i v) vs

/-- `d_table.py` 7-18,30-33, `DTable(False, data)`. -/
def ofValues (vs : PyList V) : Except PyErr (DTable Nat V) :=
  match vs with
  | .notList => .error .typeError
  | .list xs => .ok ⟨enumLoop 0 [] xs⟩

/-- `d_table.py` 10-11, `DTable(_, None)`. -/
def empty : DTable K V := ⟨[]⟩

/-- `d_table.py` 41-42 -/
def collect (t : DTable K V) : List (K × V) := t.data

/-- `d_table.py` 44-51; the loop over keys with `i >= n` as exit test.  `n` may
be any Python int.  `self.__data[k]` is a dict access. -/
def takeLoop (d : Dict K V) (n : Int) : Nat → List K → List (K × V) → List (K × V)
  | _, [], acc => acc
  | i, k :: ks, acc =>
    if (i : Int) ≥ n then acc
    else match d.get? k with
      | some v => takeLoop d n (i + 1) ks (acc ++ [(k, v)])
      | none => acc

/-- `d_table.py` 44-51 -/
def take (t : DTable K V) (n : Int) : List (K × V) := takeLoop t.data n 0 t.data.keys []

/-- `d_table.py` 54-59: first *value* (not the pair), `None` if empty. -/
def first (t : DTable K V) : Option V :=
  match t.data.keys with
  | [] => none
  | k :: _ => t.data.get? k

/-- `d_table.py` 61-62 -/
def count (t : DTable K V) : Nat := t.data.length

/-- `d_table.py` 64-68 -/
def map (t : DTable K V) (f : K → V → W) : Except PyErr (DTable K W) :=
  ofPairs (t.data.map fun p => (p.1, f p.1 p.2))

/-- `d_table.py` 70-74 -/
def mapValues (t : DTable K V) (f : V → W) : Except PyErr (DTable K W) :=
  ofPairs (t.data.map fun p => (p.1, f p.2))

/-- `d_table.py` 76-78: the whole table is one partition; the result of `func`
must be a list, otherwise the constructor raises. -/
def mapPartitions (t : DTable K V) (f : List (K × V) → PyList W) : Except PyErr (DTable Nat W) :=
  ofValues (f t.data)

/-- `d_table.py` 82-87: loop of `mapReducePartitions`. -/
def reduceByKey (r : W → W → W) : Dict K W → List (K × W) → Dict K W
  | acc, [] => acc
  | acc, (k, v) :: rest =>
    match acc.get? k with
    | none => reduceByKey r (acc.set k v) rest
    | some old => reduceByKey r (acc.set k (r old v)) rest

/-- `d_table.py` 80-88 -/
def mapReducePartitions {L : Type*} [DecidableEq L] (t : DTable K V)
    (mapper : List (K × V) → List (L × W)) (r : W → W → W) : Except PyErr (DTable L W) :=
  ofPairs (reduceByKey r [] (mapper t.data))

/-- `d_table.py` 90-97.  Values are `Option V`, `none` being Python's `None`;
`ret_val is None` restarts the fold. -/
def reduceLoop (f : Option V → Option V → Option V) : Option V → List (Option V) → Option V
  | ret, [] => ret
  | none, v :: vs => reduceLoop f v vs
  | some r, v :: vs => reduceLoop f (f (some r) v) vs

/-- `d_table.py` 90-97 -/
def reduce (t : DTable K (Option V)) (f : Option V → Option V → Option V) : Option V :=
  reduceLoop f none t.data.values

/-- `d_table.py` 99-104 -/
def filter (t : DTable K V) (f : K → V → Bool) : Except PyErr (DTable K V) :=
  ofPairs (t.data.filter fun p => f p.1 p.2 == true)

/-- `d_table.py` 106-111: loop of `join`, over the records of `other`. -/
def joinLoop (self : Dict K V) (f : V → W → X) : List (K × W) → List (K × X)
  | [] => []
  | (k, w) :: rest =>
    match self.get? k with
    | some v => (k, f v w) :: joinLoop self f rest
    | none => joinLoop self f rest

/-- `d_table.py` 106-111 -/
def join (self : DTable K V) (other : DTable K W) (f : V → W → X) : Except PyErr (DTable K X) :=
  ofPairs (joinLoop self.data f other.data)

/-- `d_table.py` 114-119: loop of `union`; `acc` is `new_dict`.  (`deepcopy` of the
own data is the identity on values.) -/
def unionLoop (f : V → V → V) : Dict K V → List (K × V) → Dict K V
  | acc, [] => acc
  | acc, (k, v) :: rest =>
    match acc.get? k with
    | some old => unionLoop f (acc.set k (f old v)) rest
    | none => unionLoop f (acc.set k v) rest

/-- `d_table.py` 113-120 -/
def union (self other : DTable K V) (f : V → V → V := fun v _ => v) :
    Except PyErr (DTable K V) :=
  ofPairs (unionLoop f self.data other.data)

/-- `d_table.py` 122-127 -/
def subtractByKey (self : DTable K V) (other : DTable K W) : Except PyErr (DTable K V) :=
  ofPairs (self.data.filter fun p => !(other.data.has p.1))

/-- Invariant of every table the constructor returns: no key is stored twice. -/
def WF (t : DTable K V) : Prop := t.data.WF

end DTable

end Verif
