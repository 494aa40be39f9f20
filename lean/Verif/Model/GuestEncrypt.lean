import Verif.Model.EncryptMode
import Verif.Model.EncHistogram
import Verif.Model.DTableM

/-!
# The guest's encryption of the gradients and hessians

`hetero_decision_tree_guest.py` 409-412 hands the table of pairs (gradient, hessian) to the
calculator of `encrypt_mode.py`, here in the mode `strict` (the default,
`encrypted_mode_calculation_param.py` 34) and with the Paillier encrypter (`encrypt.py` 185-189).
In this mode the calculator does not use what it remembers of earlier calls, so the model starts
it afresh for every tree.  A pair is a row of two numbers; the calculator keeps the results of the
single encryptions, and an exception of one of them is an exception of the call.
-/

set_option autoImplicit false

namespace Verif
namespace Histogram

open Paillier

variable {K : Type} [DecidableEq K]

/-- A row of results of `encrypt_row`, `encrypt_mode.py` 47-53, as a pair of ciphertexts. -/
def pairOf : List (Except PyErr EncNum) → Except PyErr (Num × Num)
  | [a, b] => do
    let a ← a
    let b ← b
    .ok (.enc a, .enc b)
  | _ => .error .valueError

/-- `hetero_decision_tree_guest.py` 409-412, strict mode.  `draw k i` is the random number for the
gradient (`i = 0`) or hessian (`i = 1`) of the sample `k`. -/
def strictEncrypt (pk : PubKey) (draw : K → Nat → Int) (gh : DTable K (Rat × Rat)) :
    Except PyErr (DTable K (Num × Num)) := do
  let rows ← gh.mapValues fun p => [p.1, p.2]
  let out ← EncryptMode.encrypt (fun a b => a - b) (fun _ c => c)
    (fun k i v => Paillier.encrypt pk (.float v) none (draw k i)) 0 (EncryptMode.State.init .strict 1) rows
  out.1.mapValuesM pairOf

end Histogram
end Verif
