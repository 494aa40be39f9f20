import Verif.Model.Py
import Mathlib.Algebra.Order.Ring.Rat
import Mathlib.Data.Rat.Floor

/-!
# Feature subsampling

`hetero_secureboosting_tree_guest.py` 115-126 and `hetero_secureboosting_tree_host.py` 39-50 (the
same code).  The random draw is the argument `perm`; `rate * n` is computed exactly.
-/

set_option autoImplicit false

namespace Verif
namespace Sampling

/-- Python's `int(x)`. -/
def truncate (x : Rat) : Int := if 0 ≤ x then ⌊x⌋ else ⌈x⌉

/-- `numpy.random.choice(range(0, n), k, replace=False)`: the first `k` elements of a random
permutation of the range, an error if there is nothing to choose from or not enough. -/
def choice (perm : List Nat) (n : Nat) (k : Int) : Except PyErr (List Nat) :=
  if n = 0 then .error .valueError
  else if k < 0 ∨ k > n then .error .valueError
  else .ok (perm.take k.toNat)

/-- guest 124-125: `for fid in choose_feature: valid_features[fid] = True` -/
def enable : List Bool → List Nat → Except PyErr (List Bool)
  | valid, [] => .ok valid
  | valid, fid :: rest =>
    if fid < valid.length then enable (valid.set fid true) rest else .error .indexError

/-- guest 115-126 `sample_valid_features` -/
def sampleValidFeatures (perm : List Nat) (featureNum : Nat) (rate : Rat) :
    Except PyErr (List Bool) :=
  match choice perm featureNum (max 1 (truncate (rate * featureNum))) with
  | .error e => .error e
  | .ok chosen => enable (List.replicate featureNum false) chosen

end Sampling
end Verif
