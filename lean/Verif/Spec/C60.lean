import Verif.Model.Encrypter
import Verif.Spec.C10

/-!
# Specification for C60: encrypter objects
-/

set_option autoImplicit false

namespace Verif

open Paillier Encrypter
open FP (Scalar)

/-- The number can be encrypted: an integer within the plaintext range, or any float. -/
def Spec.Encryptable (n : Int) : Scalar → Prop
  | .int z => |z| ≤ n / 3 - 1
  | .float _ => 2 ^ 53 ≤ n / 3 - 1
  | .other => False

/-- What comes back: integers exactly, floats up to their 2^-50th part or 1e-200. -/
def Spec.Returned : Scalar → Option Scalar → Prop
  | .int z, t => t = some (.int z)
  | .float x, t => ∃ y, t = some y ∧ |y.val - x| ≤ |x| / 2 ^ 50 + FP.tiny
  | .other, _ => False

/-- The holder has a matching pair of keys. -/
def Spec.HasKeys (p q : Nat) (sk : PrivKey) (h : Holder) : Prop :=
  Spec.KeyPair p q sk ∧ h.pub = some sk.pk ∧ h.priv = some sk

end Verif
