import Verif.Model.DTable

/-!
# `computing/d_table.py`: operations with functions that may raise

`mapValues` and `join` evaluate the given function on the records in order; the first
exception ends the operation.
-/

set_option autoImplicit false

namespace Verif
namespace DTable

variable {K V W X : Type} [DecidableEq K]

/-- Evaluates a function that may raise on every record of a list, in order (the list
comprehensions of `d_table.py` 71-73 and 107-110). -/
def evalRecords (f : V → Except PyErr W) : List (K × V) → Except PyErr (List (K × W))
  | [] => .ok []
  | (k, v) :: rest =>
    match f v with
    | .error e => .error e
    | .ok w =>
      match evalRecords f rest with
      | .error e => .error e
      | .ok ws => .ok ((k, w) :: ws)

/-- `d_table.py` 70-74 for a function that may raise. -/
def mapValuesM (t : DTable K V) (f : V → Except PyErr W) : Except PyErr (DTable K W) :=
  (evalRecords f t.data).bind ofPairs

/-- `d_table.py` 106-111 for a function that may raise. -/
def joinM (self : DTable K V) (other : DTable K W) (f : V → W → Except PyErr X) :
    Except PyErr (DTable K X) :=
  (evalRecords (fun p : V × W => f p.1 p.2) (joinLoop self.data Prod.mk other.data)).bind ofPairs

end DTable
end Verif
