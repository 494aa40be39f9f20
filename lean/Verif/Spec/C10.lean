import Verif.Model.Paillier
import Mathlib.RingTheory.Coprime.Basic
import Mathlib.Data.Nat.Prime.Defs

/-!
# Specification vocabulary for C10
-/

set_option autoImplicit false

namespace Verif
open Paillier

namespace Spec
/-- `sk` is what `PaillierPrivateKey(PaillierPublicKey(p*q), p, q)` returns. -/
def KeyPair (p q : Nat) (sk : PrivKey) : Prop :=
  p.Prime ∧ q.Prime ∧ p ≠ q ∧ PrivKey.new ⟨(p : Int) * q⟩ p q = .ok sk
/-- A random value is usable: it has no common factor with the modulus. -/
def Usable (sk : PrivKey) (r : Int) : Prop := IsCoprime r sk.pk.n
/-- With this random draw every integer the key can represent is encrypted and decrypted
back. -/
def RoundTrips (sk : PrivKey) (r : Int) : Prop :=
  ∀ z : Int, |z| ≤ sk.pk.maxInt →
    ∃ X, encrypt sk.pk (.int z) none r = .ok X ∧ decrypt sk X = .ok (.int z)
end Spec

end Verif
