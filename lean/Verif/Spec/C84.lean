import Verif.Model.Recursive
import Verif.Spec.C60

/-!
# Specification for C84: arrays of any dimension
-/

set_option autoImplicit false

namespace Verif
namespace Spec

open Paillier Encrypter
open FP (Scalar)

/-- The elements of an array. -/
def elements {α : Type} : (n : Nat) → Nd α n → List α
  | 0, (A : List α) => A
  | n + 1, (A : List (Nd α n)) => A.flatMap (elements n)

/-- Two arrays have the same shape, and the elements at the same places are related. -/
def Elementwise {α β : Type} (R : α → β → Prop) : (n : Nat) → Nd α n → Nd β n → Prop
  | 0, (A : List α), (B : List β) => List.Forall₂ R A B
  | n + 1, (A : List (Nd α n)), (B : List (Nd β n)) => List.Forall₂ (Elementwise R n) A B

/-- A number whose decryption can be a float. -/
def InFloatRange (v : Scalar) : Prop := |v.val| ≤ 2 ^ 1023

/-- What comes back as a float: an integer is rounded; a float differs by at most its 2^-50th part
or 1e-200, and by the rounding if an integer represents it. -/
def ReturnedFloat (rnd : Int → Rat) : Scalar → Option Rat → Prop
  | .int z, r => r = some (rnd z)
  | .float x, r => ∃ y, |y - x| ≤ |x| / 2 ^ 50 + FP.tiny ∧
      (r = some y ∨ ∃ z : Int, y = z ∧ r = some (rnd z))
  | .other, _ => False

/-- The ciphertext is what somebody with the public key has made from the number. -/
def Made (pk : PubKey) (P : Int → Prop) (v : Scalar) (c : Option EncNum) : Prop :=
  ∃ draw, P draw ∧ (Holder.init.setPublic pk).encrypt v draw = .ok c

end Spec
end Verif
