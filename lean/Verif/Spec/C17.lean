import Verif.Spec.C16

/-!
# Specification vocabulary for C17/C18: ranks
-/

set_option autoImplicit false

namespace Verif
open Quantile
namespace Spec

/-- How many of the values are smaller than `v`. -/
def numLT (xs : List Rat) (v : Rat) : Nat := xs.countP (· < v)

/-- How many of the values are at most `v`. -/
def numLE (xs : List Rat) (v : Rat) : Nat := xs.countP (· ≤ v)

/-- All summaries of a program were created with the error `err`. -/
def ErrorIs (err : Rat) : Prog → Prop
  | .new cfg => cfg.error = err
  | .insert p _ => ErrorIs err p
  | .compress p => ErrorIs err p
  | .merge p o => ErrorIs err p ∧ ErrorIs err o
  | .query p => ErrorIs err p

/-- Additional rank error caused by merging (0 for programs without merges). -/
def slack (err : Rat) : Prog → Rat
  | .new _ => 0
  | .insert p _ => slack err p
  | .compress p => slack err p
  | .merge p o => slack err p + slack err o +
      2 * err * (max (inserted p).length (inserted o).length : Nat)
  | .query p => slack err p

/-- No `merge` occurs. -/
def MergeFree : Prog → Prop
  | .new _ => True
  | .insert p _ => MergeFree p
  | .compress p => MergeFree p
  | .merge _ _ => False
  | .query p => MergeFree p

end Spec
end Verif
