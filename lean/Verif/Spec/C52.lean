import Verif.Model.Py

/-! # Specification vocabulary for grouping by key -/

set_option autoImplicit false

namespace Verif
variable {L W : Type*} [DecidableEq L]

namespace Spec
/-- The values recorded for a key, in order. -/
def valuesOf (kvs : List (L × W)) (k : L) : List W := (kvs.filter fun p => p.1 = k).map Prod.snd

/-- Combining a list of values from the left; nothing for the empty list. -/
def combined (r : W → W → W) : List W → Option W
  | [] => none
  | x :: xs => some (xs.foldl r x)
end Spec

end Verif
