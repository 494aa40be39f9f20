import Verif.Model.Histogram
import Verif.Model.Paillier

/-!
# Histograms over Paillier ciphertexts

What the host computes (`hetero_decision_tree_host.py` 109-119): the same code as the guest,
with gradients and hessians that are `PaillierEncryptedNumber`s.  Cells start as the Python int
`0`, so `+=` mixes ints and ciphertexts; Python then uses the reflected operators of
`ml/secureprotol/fate_paillier.py` 224-240.
-/

set_option autoImplicit false

namespace Verif
namespace Histogram

open Paillier

/-- A Python int or a ciphertext. -/
inductive Num where
  | int (z : Int)
  | enc (x : EncNum)
deriving DecidableEq, Repr

/-- `a + b` (`fate_paillier.py` 224-234: `__add__`, `__radd__`). -/
def Num.add : Num → Num → Except PyErr Num
  | .int a, .int b => .ok (.int (a + b))
  | .int a, .enc y => do let r ← addScalar y (.int a); pure (.enc r)
  | .enc x, .int b => do let r ← addScalar x (.int b); pure (.enc r)
  | .enc x, .enc y => do let r ← Paillier.add x y; pure (.enc r)

/-- `a - b` (`fate_paillier.py` 236-240: `__sub__`, `__rsub__`). -/
def Num.sub : Num → Num → Except PyErr Num
  | .int a, .int b => .ok (.int (a - b))
  | .int a, .enc y => do let r ← rsubScalar (.int a) y; pure (.enc r)
  | .enc x, .int b => do let r ← subScalar x (.int b); pure (.enc r)
  | .enc x, .enc y => do let r ← Paillier.sub x y; pure (.enc r)

/-- The arithmetic of the host's histograms. -/
def paillier : Arith Num := ⟨.int 0, Num.add, Num.sub⟩

/-- The host's table of gradients and hessians holds ciphertexts. -/
def liftGh {K : Type} (gh : DTable K (EncNum × EncNum)) : DTable K (Num × Num) :=
  ⟨gh.data.map fun p => (p.1, (.enc p.2.1, .enc p.2.2))⟩

end Histogram
end Verif
