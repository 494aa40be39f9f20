import Verif.Model.Py
import Mathlib.Algebra.Order.Ring.Rat
import Mathlib.Data.List.Infix

/-!
# Python values as they occur in configurations
-/

set_option autoImplicit false

namespace Verif

/-- A Python float: a finite number (taken as a rational), an infinity or not-a-number.  The last
three are what `float('nan')` and the JSON literals `NaN`, `Infinity` give. -/
inductive Flt
  | fin (q : Rat)
  | posInf
  | negInf
  | nan
deriving DecidableEq, Repr

namespace Flt

/-- Python's `x < q`; a comparison with not-a-number is false. -/
def lt : Flt → Rat → Bool
  | fin x, q => decide (x < q)
  | posInf, _ => false
  | negInf, _ => true
  | nan, _ => false

/-- `x <= q` -/
def le : Flt → Rat → Bool
  | fin x, q => decide (x ≤ q)
  | posInf, _ => false
  | negInf, _ => true
  | nan, _ => false

/-- `x > q` -/
def gt : Flt → Rat → Bool
  | fin x, q => decide (x > q)
  | posInf, _ => true
  | negInf, _ => false
  | nan, _ => false

/-- `x >= q` -/
def ge : Flt → Rat → Bool
  | fin x, q => decide (x ≥ q)
  | posInf, _ => true
  | negInf, _ => false
  | nan, _ => false

end Flt

/-- Values of built-in types. -/
inductive PyVal
  | none
  | bool (b : Bool)
  | int (z : Int)
  | flt (x : Flt)
  | str (s : String)
  | list (xs : List PyVal)
  | dict (d : List (String × PyVal))
deriving Repr

namespace PyVal

/-- `type(v).__name__` -/
def typeName : PyVal → String
  | none => "NoneType"
  | bool _ => "bool"
  | int _ => "int"
  | flt _ => "float"
  | str _ => "str"
  | list _ => "list"
  | dict _ => "dict"

/-- The numeric value, for the comparisons `v < q` on ints and floats. -/
def num : PyVal → Flt
  | int z => .fin z
  | flt x => x
  | _ => .nan

/-- A value that is a given string. -/
def isStr (v : PyVal) (s : String) : Bool :=
  match v with
  | str t => t = s
  | _ => false

/-- `name in v` -/
def contains (v : PyVal) (name : String) : Except PyErr Bool :=
  match v with
  | dict d => .ok (Dict.has d name)
  | list xs => .ok (xs.any fun x => x.isStr name)
  | str s => .ok (decide (name.toList <:+: s.toList))
  | _ => .error .typeError

/-- `v[name]` for a string `name` that passed `name in v`. -/
def item (v : PyVal) (name : String) : Except PyErr PyVal :=
  match v with
  | dict d =>
    match Dict.get? d name with
    | .none => .error .keyError
    | some x => .ok x
  | _ => .error .typeError

/-- `v.get(name)` -/
def get (v : PyVal) (name : String) : Except PyErr PyVal :=
  match v with
  | dict d =>
    match Dict.get? d name with
    | .none => .ok .none
    | some x => .ok x
  | _ => .error .attributeError

end PyVal
end Verif
