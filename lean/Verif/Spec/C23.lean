import Verif.Spec.C11
import Verif.Spec.C10
import Verif.Model.EncHistogram
import Mathlib.Algebra.Order.Group.Abs
import Mathlib.Algebra.Order.Ring.Rat
import Mathlib.Algebra.Order.Field.Basic

/-! # Specification vocabulary for encrypted histograms -/

set_option autoImplicit false

namespace Verif
namespace Spec

open Paillier Histogram

/-- `X` is a ciphertext of `v` obtained from the library: by encryption, or by any further
ciphertext arithmetic, with randomness coprime to the modulus; its exponent is between `lo`
and `hi`. -/
def CiphertextOf (sk : PrivKey) (lo hi : Int) (X : EncNum) (v : Rat) : Prop :=
  lo ≤ X.exponent ∧ X.exponent ≤ hi ∧
    ∃ e : Expr, e.Usable sk.pk.n ∧ e.run sk.pk = .ok X ∧ e.plain sk.pk.n = some (v, X.exponent)

/-- What the key holder reads out of a histogram entry: an int as it is; a ciphertext by
decryption, provided the value is within the plaintext range. -/
def ReadsAs (sk : PrivKey) (hi : Int) : Num → Rat → Prop
  | .int z, v => v = z
  | .enc X, v => |v| * (16 : Rat) ^ hi ≤ ((sk.pk.n / 3 - 1 : Int) : Rat) →
      ∃ t, decrypt sk X = .ok t ∧ t.val = v

/-- A ciphertext rather than a bare Python int: only these can be decrypted. -/
def IsCipher : Num → Prop
  | .int _ => False
  | .enc _ => True

/-- The cell of a node, feature and bin. -/
def cellAt {α : Type} (H : Hist α) (i f b : Nat) : Option (HCell α) :=
  ((H[i]?).bind fun fh => fh[f]?).bind fun bins => bins[b]?

end Spec
end Verif
