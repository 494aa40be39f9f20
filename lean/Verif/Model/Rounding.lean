import Verif.Model.SplitChoice

/-! # Decryption with rounded floats -/

set_option autoImplicit false

namespace Verif
namespace DTree

/-- The guest's encrypter if floats are rounded by `rnd`: decryption ends with
`fixedpoint.py` 104, `mantissa * pow(BASE, -exponent)`, one product of floats.  An int, which is
the result for exponents up to 0, becomes a float when it meets one in the computation of the gain;
here it is rounded at once. -/
def roundCipher {α : Type} (rnd : Rat → Rat) (C : Cipher α) : Cipher α where
  zero := C.zero
  enc := C.enc
  dec c := (C.dec c).map rnd

end DTree
end Verif
