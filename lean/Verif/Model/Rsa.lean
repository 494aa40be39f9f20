import Verif.Model.GmpyMath

/-!
# Model of `RsaEncrypt` in `ml/secureprotol/encrypt.py`

Key generation by the external library (`Cryptodome`) is not modelled; the attributes
`e`, `d`, `n` are optional as in the code.
-/

set_option autoImplicit false

namespace Verif
namespace Rsa
open Gmpy

/-- `encrypt.py` 118-123: the attributes, initially `None`. -/
structure State where
  e : Option Nat
  d : Option Nat
  n : Option Int
deriving DecidableEq, Repr

/-- `encrypt.py` 119-123. -/
def State.init : State := ⟨none, none, none⟩

/-- `encrypt.py` 135-137. -/
def State.setPublic (s : State) (e : Nat) (n : Int) : State := { s with e := some e, n := some n }

/-- `encrypt.py` 142-144. -/
def State.setPrivate (s : State) (d : Nat) (n : Int) : State := { s with d := some d, n := some n }

/-- `encrypt.py` 149-153. -/
def State.encrypt (s : State) (value : Int) : Option Int :=
  match s.e, s.n with
  | some e, some n => some (powmod value e n)
  | _, _ => none

/-- `encrypt.py` 155-159. -/
def State.decrypt (s : State) (value : Int) : Option Int :=
  match s.d, s.n with
  | some d, some n => some (powmod value d n)
  | _, _ => none

end Rsa
end Verif
