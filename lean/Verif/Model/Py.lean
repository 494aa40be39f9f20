import Mathlib.Tactic.TypeStar

/-!
# Python values used throughout the model

Exceptions raised by the Python code are values of `PyErr`; a function that may
raise returns `Except PyErr α`.  Messages are not modelled, only the class.
-/

set_option autoImplicit false

namespace Verif

/-- Classes of Python exceptions that the modelled code can raise. -/
inductive PyErr where
  | typeError
  | valueError
  | zeroDivision
  | overflow
  | keyError
  | indexError
  | attributeError
  | nameError
  | assertionError
  /-- `Exception` itself, or a class not listed here (`RuntimeError`, `NotImplementedError`). -/
  | exception
  /-- Not an exception: a `while` loop has not ended within the steps allotted to it. -/
  | unfinished
  deriving DecidableEq, Repr

-- Equality of outcomes is decidable (used by the concrete examples only).
deriving instance DecidableEq for Except

/-- A Python `dict`: association list in insertion order.  Uniqueness of keys is
an invariant (`Dict.WF`) proved separately, not built in. -/
abbrev Dict (K V : Type*) := List (K × V)

namespace Dict

variable {K V W : Type*} [DecidableEq K]

/-- `d.keys()` -/
def keys (d : Dict K V) : List K := d.map Prod.fst

/-- `d.values()` -/
def values (d : Dict K V) : List V := d.map Prod.snd

/-- `d[k]` / `d.get(k)`: the value stored under `k`, if any. -/
def get? : Dict K V → K → Option V
  | [], _ => none
  | (k', v) :: d, k => if k' = k then some v else get? d k

/-- `d[k] = v`: overwrite in place, or append a new key at the end
(Python dictionaries keep insertion order). -/
def set : Dict K V → K → V → Dict K V
  | [], k, v => [(k, v)]
  | (k', v') :: d, k, v => if k' = k then (k', v) :: d else (k', v') :: set d k v

/-- `k in d` -/
def has (d : Dict K V) (k : K) : Bool := (d.get? k).isSome

/-- A dictionary holds every key at most once. -/
def WF (d : Dict K V) : Prop := d.keys.Nodup

end Dict

end Verif
